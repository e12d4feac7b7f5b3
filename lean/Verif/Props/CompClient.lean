import Verif.Proof.CompClient

/-! # C76: runners of a component live within their connections; C77: a component does not give up -/

namespace HatEvent
open CompClient

/-- Two connections: the first one is lost, the second one is closed because the loop is cancelled. -/
def exCompLife : List CompClientAct :=
  [.start, .refuse, .wake, .connect, .make, .receive, .lose, .notice, .runnerClosed, .clientClosed, .wake, .connect, .make, .receive,
    .cancel, .runnerClosed, .clientClosed]

/-- In every history connections follow one another: a connection is made only after the clients of all previous ones were closed.  A
runner is made at most once for a connection, after it was made and while its client is not closed; nothing is closed twice. -/
theorem C76_order (acts : List CompClientAct) (pre post : List CompEntry) (e : CompEntry)
    (hlog : (run {} acts).log = pre ++ e :: post) : e.Fits pre :=
  (inv_run acts).fits pre e post hlog

example : (run {} exCompLife).log = [.connected 0, .runnerMade 0, .runnerClosed 0, .clientClosed 0] ++ .connected 1 ::
    [.runnerMade 1, .runnerClosed 1, .clientClosed 1] := by decide

/-- When a loop has ended, all its clients are closed. -/
theorem C76_clients (acts : List CompClientAct) (k : Nat) (hend : (run {} acts).place = .ended)
    (hk : .connected k ∈ (run {} acts).log) : .clientClosed k ∈ (run {} acts).log := by
  have hi := inv_run acts
  have hp := hi.place
  simp only [PlaceOk, hend] at hp
  exact hp k ((hi.conn k).1 hk)

example : (run {} exCompLife).place = .ended ∧ .connected 1 ∈ (run {} exCompLife).log := by decide

/-- The full claim: a runner is closed before its client is. -/
def C76_runner_claim : Prop :=
  ∀ (acts : List CompClientAct) (pre post : List CompEntry) (k : Nat), (run {} acts).log = pre ++ .clientClosed k :: post →
    .runnerMade k ∈ pre → .runnerClosed k ∈ pre

/-- It does not hold: a loop that is cancelled after the runner callback has returned and before the loop is resumed closes the client and
forgets the runner, which is never closed. -/
theorem C76_refuted : ¬ C76_runner_claim := by
  intro h
  have := h [.start, .connect, .make, .cancel, .clientClosed] [.connected 0, .runnerMade 0] [] 0 (by decide) (by decide)
  simp at this

/-- It holds if no loop is cancelled in that moment.  Missing: loops cancelled between the return of the runner callback and their resumption. -/
theorem C76_runner_partial (acts : List CompClientAct) (pre post : List CompEntry) (k : Nat)
    (hc : ∀ a b, acts = a ++ .cancel :: b → (run {} a).place ≠ .created)
    (hlog : (run {} acts).log = pre ++ .clientClosed k :: post) (hm : .runnerMade k ∈ pre) : .runnerClosed k ∈ pre :=
  (kept_run acts hc).closed pre _ post hlog k rfl hm

example : (run {} exCompLife).log = [.connected 0, .runnerMade 0, .runnerClosed 0, .clientClosed 0, .connected 1, .runnerMade 1,
    .runnerClosed 1] ++ .clientClosed 1 :: [] ∧ (∀ a b, exCompLife = a ++ .cancel :: b → (run {} a).place ≠ .created) := by
  refine ⟨by decide, fun a b h => ?_⟩
  have hl : a.length = 14 := by
    have h14 : ∀ n, exCompLife[n]? = some .cancel → n = 14 := by
      intro n hn
      have hlt : n < 17 := by
        rcases Nat.lt_or_ge n 17 with h' | h'
        · exact h'
        · rw [List.getElem?_eq_none (by simpa [exCompLife] using h')] at hn; cases hn
      revert hn
      revert n
      decide
    exact h14 _ (by rw [h]; simp)
  have ha : a = exCompLife.take 14 := by rw [h, ← hl]; simp
  rw [ha]
  decide

/-- Hence, when a loop has ended, all runners are closed. -/
theorem C76_runners_partial (acts : List CompClientAct) (k : Nat)
    (hc : ∀ a b, acts = a ++ .cancel :: b → (run {} a).place ≠ .created) (hend : (run {} acts).place = .ended)
    (hk : .runnerMade k ∈ (run {} acts).log) : .runnerClosed k ∈ (run {} acts).log := by
  obtain ⟨p1, q1, e1⟩ := List.append_of_mem hk
  have hm := (inv_run acts).fits _ _ _ e1
  have hcl := C76_clients acts k hend (by rw [e1]; simp [hm.1])
  obtain ⟨p2, q2, e2⟩ := List.append_of_mem hcl
  have hin : CompEntry.runnerMade k ∈ p2 := by
    rw [e1] at e2
    rcases List.append_eq_append_iff.1 e2 with ⟨c, h1, h2⟩ | ⟨c, h1, h2⟩
    · cases c with
      | nil => simp at h2
      | cons x c => simp only [List.cons_append, List.cons.injEq] at h2; rw [h1, ← h2.1]; simp
    · cases c with
      | nil => simp at h2
      | cons x c =>
        simp only [List.cons_append, List.cons.injEq] at h2
        rw [← h2.1] at h1
        exact absurd (by rw [h1]; simp) hm.2.1
  have := C76_runner_partial acts p2 q2 k hc e2 hin
  rw [e2]; simp [this]

/-- A loop cancelled while the client is being closed. -/
example : (run {} [.start, .connect, .make, .receive, .lose, .notice, .runnerClosed, .cancel, .clientClosed]).place = .ended ∧
    .runnerMade 0 ∈ (run {} [.start, .connect, .make, .receive, .lose, .notice, .runnerClosed, .cancel, .clientClosed]).log := by decide

/-! ### C77 -/

/-- A lost connection: runner and client are closed and the loop connects again. -/
theorem C77_reconnect (acts : List CompClientAct) (hp : (run {} acts).place = .running) :
    (run {} (acts ++ [.lose, .notice, .runnerClosed, .clientClosed, .wake])).place = .connecting ∧
    (run {} (acts ++ [.lose, .notice, .runnerClosed, .clientClosed, .wake])).compOpen = (run {} acts).compOpen ∧
    (run {} (acts ++ [.lose, .notice, .runnerClosed, .clientClosed, .wake])).log =
      (run {} acts).log ++ [.runnerClosed (run {} acts).cur, .clientClosed (run {} acts).cur] := by
  rw [run_append]
  generalize run {} acts = s at *
  obtain ⟨place, cancelled, compOpen, next, clientOpen, runnerOpen, log⟩ := s
  subst hp
  simp [run, step, notice, CompClient.runnerClosed, CompClient.clientClosed, wake, afterClient, cur]

example : (run {} [.start, .connect, .make, .receive]).place = .running := by decide

/-- The same if the runner closes because of the lost connection. -/
theorem C77_reconnect_closed (acts : List CompClientAct) (hp : (run {} acts).place = .running) :
    (run {} (acts ++ [.lose, .runnerCloses, .notice, .runnerClosed, .clientClosed, .wake])).place = .connecting ∧
    (run {} (acts ++ [.lose, .runnerCloses, .notice, .runnerClosed, .clientClosed, .wake])).compOpen = (run {} acts).compOpen := by
  rw [run_append]
  generalize run {} acts = s at *
  obtain ⟨place, cancelled, compOpen, next, clientOpen, runnerOpen, log⟩ := s
  subst hp
  simp [run, step, notice, CompClient.runnerClosed, CompClient.clientClosed, wake, afterClient]

example : (run {} [.start, .connect, .make, .receive]).place = .running := by decide

/-- A runner that closes while its connection is open closes the component. -/
theorem C77_runner (acts : List CompClientAct) (hp : (run {} acts).place = .running) (ho : (run {} acts).clientOpen = true) :
    (run {} (acts ++ [.runnerCloses, .notice])).compOpen = false := by
  rw [run_append]
  generalize run {} acts = s at *
  obtain ⟨place, cancelled, compOpen, next, clientOpen, runnerOpen, log⟩ := s
  subst hp
  subst ho
  simp [run, step, notice]

example : (run {} [.start, .connect, .make, .receive]).place = .running ∧
    (run {} [.start, .connect, .make, .receive]).clientOpen = true := by decide

/-- Nothing else does: refused and lost connections never close the component, as long as the runner callback does not raise and runners
close only when their connection is lost. -/
theorem C77_survives (acts : List CompClientAct) (h1 : .raise ∉ acts)
    (h2 : ∀ a b, acts = a ++ .runnerCloses :: b → (run {} a).clientOpen = false) : (run {} acts).compOpen = true :=
  (loyal_run acts h1 h2).1

example : (.raise : CompClientAct) ∉ exCompLife ∧ (.runnerCloses : CompClientAct) ∉ exCompLife := by decide

/-- The full claim: a client loop ends only if it was cancelled or the component is closed. -/
def C77_going_claim : Prop :=
  ∀ acts : List CompClientAct, (run {} (.start :: acts)).place = .ended →
    (run {} (.start :: acts)).cancelled = true ∨ (run {} (.start :: acts)).compOpen = false

/-- It does not hold: if the connection is lost while the runner callback runs, the loop ends.  The component stays open and neither connects again nor
closes, whatever happens, until monitor data of another server spawns another loop. -/
theorem C77_refuted : ¬ C77_going_claim ∧
    ∃ acts : List CompClientAct, .cancel ∉ acts ∧ .raise ∉ acts ∧ .runnerCloses ∉ acts ∧
      ∀ later, .start ∉ later → (run {} (acts ++ later)).compOpen = true ∧ (run {} (acts ++ later)).place = .ended ∧
        (run {} (acts ++ later)).log = [.connected 0, .clientClosed 0] := by
  constructor
  · intro h
    have := h [.connect, .lose, .interrupt, .clientClosed] (by decide)
    revert this
    decide
  · refine ⟨[.start, .connect, .lose, .interrupt, .clientClosed], by decide, by decide, by decide, fun later hl => ?_⟩
    rw [run_append]
    obtain ⟨h1, h2, h3⟩ := ended_run (s := run {} [.start, .connect, .lose, .interrupt, .clientClosed]) (by decide) later hl
    exact ⟨by rw [h3]; decide, h1, by rw [h2]; decide⟩

/-- It holds if no connection is lost while its runner callback runs.  Missing: connections lost in that time. -/
theorem C77_going_partial (acts : List CompClientAct) (hi : .interrupt ∉ acts)
    (hend : (run {} (.start :: acts)).place = .ended) :
    (run {} (.start :: acts)).cancelled = true ∨ (run {} (.start :: acts)).compOpen = false := by
  have h : Going ((run {} [.start]).run acts) := going_run (.inr (.inr (by decide))) acts hi
  rw [← run_append] at h
  rcases h with h | h | h
  · exact .inl h
  · exact .inr h
  · exact absurd hend h.1

example : (.interrupt : CompClientAct) ∉ [CompClientAct.connect, .raise, .clientClosed] ∧
    (run {} [.start, .connect, .raise, .clientClosed]).place = .ended := by decide

end HatEvent
