import Verif.Proof.MainRunner

/-! # C72: nothing survives the end of an event server -/

namespace HatEvent
open Main

/-- A server with a monitor that has run one engine, and its regular end. -/
def exMainLife : List MainAct :=
  [.start, .made, .made, .made, .made, .bless, .cancel, .stepDone, .unbless, .stepDone, .stepDone, .stepDone, .stepDone]

/-- Whenever the run of the server is over, however it started and ended, every part that was made has been closed. -/
theorem C72_closed (adminer monitor : Bool) (acts : List MainAct) (p : MainPart)
    (hend : ((init adminer monitor).run acts).phase = .finished)
    (hp : .created p ∈ ((init adminer monitor).run acts).log) : .closed p ∈ ((init adminer monitor).run acts).log := by
  have hi := inv_run adminer monitor acts
  have hph := hi.phase
  unfold PhaseOk at hph
  rw [hend] at hph
  refine not_alive hi ?_ hp
  rw [show ((init adminer monitor).run acts).alive = [] from hph]
  simp

example : ((init false true).run exMainLife).phase = .finished ∧
    ((init false true).run exMainLife).log =
      [.created .backend, .created .eventerServer, .created .clientRunner, .created .monitor, .created (.engineRunner 0),
        .closed .clientRunner, .closed (.engineRunner 0), .closed .monitor, .flushed, .closed .eventerServer,
        .closed .backend] := by decide

/-- A part that cannot be made: what was made before is closed. -/
example : ((init true false).run [.start, .made, .made, .failed, .stepDone, .stepDone, .stepDone]).phase = .finished ∧
    ((init true false).run [.start, .made, .made, .failed, .stepDone, .stepDone, .stepDone]).log =
      [.created .backend, .created .eventerServer, .flushed, .closed .eventerServer, .closed .backend] := by decide

/-- A part is made at most once; it is closed after it was made and at most once. -/
theorem C72_once (adminer monitor : Bool) (acts : List MainAct) (p : MainPart) :
    ((init adminer monitor).run acts).log.count (.created p) ≤ 1 ∧
    ((init adminer monitor).run acts).log.count (.closed p) ≤ 1 ∧
    ∀ pre post, ((init adminer monitor).run acts).log = pre ++ .closed p :: post → .created p ∈ pre := by
  have hl := (inv_run adminer monitor acts).log
  have key : ∀ (l : List MainEntry) (e : MainEntry), (∀ pre post, l = pre ++ e :: post → e ∉ pre) → l.count e ≤ 1 := by
    intro l e h
    by_cases he : e ∈ l
    · induction l using List.reverseRecOn with
      | nil => simp
      | append_singleton l x ih =>
        by_cases hx : x = e
        · subst hx
          have : x ∉ l := h l [] rfl
          simp [List.count_append, List.count_eq_zero_of_not_mem this]
        · have he' : e ∈ l := by
            rcases List.mem_append.1 he with h' | h'
            · exact h'
            · exact absurd (List.mem_singleton.1 h').symm hx
          have := ih (fun pre post e' => h pre (post ++ [x]) (by rw [e']; simp)) he'
          rw [List.count_append]
          simpa [List.count_singleton, hx] using this
    · rw [List.count_eq_zero_of_not_mem he]; omega
  exact ⟨key _ _ (fun pre post e => hl.made pre p post e), key _ _ (fun pre post e => (hl.closed pre p post e).2),
    fun pre post e => (hl.closed pre p post e).1⟩

example : ((init true false).run [.start, .made, .made, .made, .made, .cancel, .stepDone]).log.count (.closed (.engineRunner 0)) = 1 := by
  decide

/-- A part is closed only after everything that uses it: the backend after the eventer server, the client runner and the engine
runners, the eventer server after the engine runners.  In particular nothing that uses a closed part is made later. -/
theorem C72_order (adminer monitor : Bool) (acts : List MainAct) (pre post : List MainEntry) (p q : MainPart)
    (hlog : ((init adminer monitor).run acts).log = pre ++ .closed q :: post) (hu : MainPart.Uses p q)
    (hp : .created p ∈ ((init adminer monitor).run acts).log) : .closed p ∈ pre :=
  (inv_run adminer monitor acts).log.users pre q post hlog p hu hp

example : ((init false true).run exMainLife).log =
    [.created .backend, .created .eventerServer, .created .clientRunner, .created .monitor, .created (.engineRunner 0),
      .closed .clientRunner, .closed (.engineRunner 0), .closed .monitor, .flushed] ++ .closed .eventerServer ::
        [.closed .backend] ∧ MainPart.Uses (.engineRunner 0) .eventerServer := ⟨by decide, .engineServer 0⟩

/-- A part is made only after everything that it uses. -/
theorem C72_made (adminer monitor : Bool) (acts : List MainAct) (pre post : List MainEntry) (p q : MainPart)
    (hlog : ((init adminer monitor).run acts).log = pre ++ .created p :: post) (hu : MainPart.Uses p q) : .created q ∈ pre :=
  (founded_run adminer monitor acts).used pre p post hlog q hu

example : ((init false true).run exMainLife).log =
    [.created .backend, .created .eventerServer, .created .clientRunner, .created .monitor] ++ .created (.engineRunner 0) ::
      [.closed .clientRunner, .closed (.engineRunner 0), .closed .monitor, .flushed, .closed .eventerServer, .closed .backend] ∧
    MainPart.Uses (.engineRunner 0) .eventerServer := ⟨by decide, .engineServer 0⟩

/-- Before the eventer server is closed the backend was flushed, and that after all engine runners were closed: what the last
engine registered is notified to the connected clients before they are disconnected. -/
theorem C72_flush (adminer monitor : Bool) (acts : List MainAct) (pre post : List MainEntry)
    (hlog : ((init adminer monitor).run acts).log = pre ++ .closed .eventerServer :: post) :
    ∃ a b, pre = a ++ .flushed :: b ∧
      ∀ k, .created (.engineRunner k) ∈ ((init adminer monitor).run acts).log → .closed (.engineRunner k) ∈ a :=
  (inv_run adminer monitor acts).log.flush pre post hlog

example : ((init false false).run [.start, .made, .made, .made, .cancel, .stepDone, .stepDone, .stepDone]).log =
    [.created .backend, .created .eventerServer, .created (.engineRunner 0), .closed (.engineRunner 0), .flushed] ++
      .closed .eventerServer :: [] := by decide

/-- There is never more than one engine runner. -/
theorem C72_single (adminer monitor : Bool) (acts : List MainAct) (j k : Nat)
    (hj : .created (.engineRunner j) ∈ ((init adminer monitor).run acts).log)
    (hj' : .closed (.engineRunner j) ∉ ((init adminer monitor).run acts).log)
    (hk : .created (.engineRunner k) ∈ ((init adminer monitor).run acts).log)
    (hk' : .closed (.engineRunner k) ∉ ((init adminer monitor).run acts).log) : j = k := by
  have hi := inv_run adminer monitor acts
  exact one_run adminer monitor acts j k ((hi.alive _).2 ⟨hj, hj'⟩) ((hi.alive _).2 ⟨hk, hk'⟩)

/-- A second engine runner, made after the first one was closed. -/
example : ((init false true).run [.start, .made, .made, .made, .made, .bless, .unbless, .bless]).log =
    [.created .backend, .created .eventerServer, .created .clientRunner, .created .monitor, .created (.engineRunner 0),
      .closed (.engineRunner 0), .created (.engineRunner 1)] := by decide

/-- Once the server is told to stop, at any time of its life, it ends after at most seven awaits, if the monitor component closes
its engine runner. -/
theorem C72_ends (adminer monitor : Bool) (acts : List MainAct) :
    ((init adminer monitor).run (acts ++ .cancel :: (List.replicate 7 [.unbless, .stepDone]).flatten)).phase = .finished := by
  have hsplit : ∀ xs, (init adminer monitor).run (acts ++ .cancel :: xs) = ((init adminer monitor).run (acts ++ [.cancel])).run xs := by
    intro xs; simp [run]
  rw [hsplit]
  have hi := inv_run adminer monitor (acts ++ [.cancel])
  have h1 := one_run adminer monitor (acts ++ [.cancel])
  have hs := short_run adminer monitor (acts ++ [.cancel])
  cases hp : ((init adminer monitor).run (acts ++ [.cancel])).phase with
  | stopping rest => exact stopping_run hi h1 hp 7 (hs rest hp)
  | finished => exact finished_run hp 7
  | spawned =>
    rw [run_snoc] at hp
    exact absurd hp (cancel_phase _).1
  | making rest =>
    rw [run_snoc] at hp
    exact absurd hp ((cancel_phase _).2.1 rest)
  | running =>
    rw [run_snoc] at hp
    exact absurd hp (cancel_phase _).2.2

example : ((init true true).run ([.start, .made, .made, .made, .made, .made, .bless] ++ .cancel ::
    (List.replicate 7 [.unbless, .stepDone]).flatten)).log.length = 13 := by decide

end HatEvent
