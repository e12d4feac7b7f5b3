import Verif.Spec.MainRunner
import Verif.Proof.Tactics
import Mathlib.Data.List.Induction

/-! # Facts about the main runner -/

namespace HatEvent
namespace Main

theorem run_snoc (s : Main) (acts : List MainAct) (a : MainAct) : s.run (acts ++ [a]) = (s.run acts).step a := by simp [run]

/-! ### Logs -/

/-- All engine runners were closed before a flush. -/
def Flushed (log : List MainEntry) : Prop :=
  ∃ a b, log = a ++ .flushed :: b ∧ ∀ k, .created (.engineRunner k) ∈ log → .closed (.engineRunner k) ∈ a

structure LogOk (log : List MainEntry) : Prop where
  made : ∀ pre p post, log = pre ++ .created p :: post → .created p ∉ pre
  closed : ∀ pre q post, log = pre ++ .closed q :: post → .created q ∈ pre ∧ .closed q ∉ pre
  users : ∀ pre q post, log = pre ++ .closed q :: post → ∀ p, MainPart.Uses p q → .created p ∈ log → .closed p ∈ pre
  flush : ∀ pre post, log = pre ++ .closed .eventerServer :: post →
    ∃ a b, pre = a ++ .flushed :: b ∧ ∀ k, .created (.engineRunner k) ∈ log → .closed (.engineRunner k) ∈ a

/-- A place in a longer list. -/
theorem split_snoc {log pre post : List MainEntry} {x e : MainEntry} (h : log ++ [e] = pre ++ x :: post) :
    (pre = log ∧ x = e ∧ post = []) ∨ ∃ post', log = pre ++ x :: post' ∧ post = post' ++ [e] := by
  rcases List.eq_nil_or_concat post with rfl | ⟨post', y, rfl⟩
  · have h' := List.append_inj' h rfl
    left
    exact ⟨h'.1.symm, by simpa using h'.2.symm, rfl⟩
  · right
    rw [List.concat_eq_append, ← List.cons_append, ← List.append_assoc] at h
    have h' := List.append_inj' h rfl
    exact ⟨post', h'.1, by rw [List.concat_eq_append, h'.2]⟩

theorem logOk_nil : LogOk [] := ⟨by simp, by simp, by simp, by simp⟩

theorem logOk_flushed {log : List MainEntry} (h : LogOk log) : LogOk (log ++ [.flushed]) := by
  have hm : ∀ p, MainEntry.created p ∈ log ++ [.flushed] → MainEntry.created p ∈ log := by
    intro p hp; simpa using hp
  constructor
  · intro pre p post e
    rcases split_snoc e with ⟨_, h', _⟩ | ⟨post', e', _⟩
    · cases h'
    · exact h.made pre p post' e'
  · intro pre q post e
    rcases split_snoc e with ⟨_, h', _⟩ | ⟨post', e', _⟩
    · cases h'
    · exact h.closed pre q post' e'
  · intro pre q post e p hu hp
    rcases split_snoc e with ⟨_, h', _⟩ | ⟨post', e', _⟩
    · cases h'
    · exact h.users pre q post' e' p hu (hm p hp)
  · intro pre post e
    rcases split_snoc e with ⟨_, h', _⟩ | ⟨post', e', _⟩
    · cases h'
    · obtain ⟨a, b, h1, h2⟩ := h.flush pre post' e'
      exact ⟨a, b, h1, fun k hk => h2 k (hm _ hk)⟩

theorem logOk_created {log : List MainEntry} (h : LogOk log) {p : MainPart} (hp : .created p ∉ log)
    (hu : ∀ q, MainPart.Uses p q → .closed q ∉ log) : LogOk (log ++ [.created p]) := by
  have hm : ∀ p', MainEntry.created p' ∈ log ++ [.created p] → MainEntry.created p' ∈ log ∨ p' = p := by
    intro p' hp'; simpa using hp'
  have hin : ∀ {pre post : List MainEntry} {x : MainEntry}, log = pre ++ x :: post → x ∈ log := by
    intro pre post x e; rw [e]; simp
  constructor
  · intro pre p' post e
    rcases split_snoc e with ⟨h1, h', _⟩ | ⟨post', e', _⟩
    · cases h'; rw [h1]; exact hp
    · exact h.made pre p' post' e'
  · intro pre q post e
    rcases split_snoc e with ⟨_, h', _⟩ | ⟨post', e', _⟩
    · cases h'
    · exact h.closed pre q post' e'
  · intro pre q post e p' hu' hp'
    rcases split_snoc e with ⟨_, h', _⟩ | ⟨post', e', _⟩
    · cases h'
    · rcases hm p' hp' with hp' | rfl
      · exact h.users pre q post' e' p' hu' hp'
      · exact absurd (hin e') (hu q hu')
  · intro pre post e
    rcases split_snoc e with ⟨_, h', _⟩ | ⟨post', e', _⟩
    · cases h'
    · obtain ⟨a, b, h1, h2⟩ := h.flush pre post' e'
      refine ⟨a, b, h1, fun k hk => ?_⟩
      rcases hm _ hk with hk | rfl
      · exact h2 k hk
      · exact absurd (hin e') (hu _ (.engineServer k))

theorem logOk_closed {log : List MainEntry} (h : LogOk log) {q : MainPart} (h1 : .created q ∈ log) (h2 : .closed q ∉ log)
    (hu : ∀ p, MainPart.Uses p q → .created p ∈ log → .closed p ∈ log) (hf : q = .eventerServer → Flushed log) :
    LogOk (log ++ [.closed q]) := by
  have hm : ∀ p, MainEntry.created p ∈ log ++ [.closed q] → MainEntry.created p ∈ log := by
    intro p hp; simpa using hp
  constructor
  · intro pre p post e
    rcases split_snoc e with ⟨_, h', _⟩ | ⟨post', e', _⟩
    · cases h'
    · exact h.made pre p post' e'
  · intro pre q' post e
    rcases split_snoc e with ⟨hp, h', _⟩ | ⟨post', e', _⟩
    · cases h'; rw [hp]; exact ⟨h1, h2⟩
    · exact h.closed pre q' post' e'
  · intro pre q' post e p hu' hp
    rcases split_snoc e with ⟨hpre, h', _⟩ | ⟨post', e', _⟩
    · cases h'; rw [hpre]; exact hu p hu' (hm p hp)
    · exact h.users pre q' post' e' p hu' (hm p hp)
  · intro pre post e
    rcases split_snoc e with ⟨hpre, h', _⟩ | ⟨post', e', _⟩
    · cases h'
      obtain ⟨a, b, h3, h4⟩ := hf rfl
      exact ⟨a, b, by rw [hpre, h3], fun k hk => h4 k (hm _ hk)⟩
    · obtain ⟨a, b, h3, h4⟩ := h.flush pre post' e'
      exact ⟨a, b, h3, fun k hk => h4 k (hm _ hk)⟩

/-! ### Invariant -/

/-- The place in `_stop`. -/
def rank : StopStep → Nat
  | .close (.engineRunner _) => 0
  | .close .clientRunner => 1
  | .close .monitor => 2
  | .close .adminerServer => 3
  | .flush => 4
  | .close .eventerServer => 5
  | .close .backend => 6

structure Stopping (s : Main) (rest : List StopStep) : Prop where
  alive : ∀ p, .close p ∈ rest → p ∈ s.alive
  own : ∀ p, .close p ∈ rest → p.isEngine = true → s.monitor = false
  left : ∀ p ∈ s.alive, (p.isEngine = true → s.monitor = false) → .close p ∈ rest
  sorted : rest.Pairwise fun a b => rank a < rank b
  flush : .eventerServer ∈ s.alive → .flush ∈ rest ∨ (Flushed s.log ∧ .monitor ∉ s.alive)

def PhaseOk (s : Main) : Prop :=
  match s.phase with
  | .spawned => s.log = [] ∧ s.alive = []
  | .making rest => rest ≠ [] ∧ ∃ done, s.toMake = done ++ rest ∧ s.log = done.map .created ∧ s.alive = done
  | .running => ∀ p, .closed p ∈ s.log → p.isEngine = true
  | .stopping rest => rest ≠ [] ∧ Stopping s rest
  | .finished => s.alive = []

structure Inv (s : Main) : Prop where
  log : LogOk s.log
  alive : ∀ p, p ∈ s.alive ↔ .created p ∈ s.log ∧ .closed p ∉ s.log
  numbers : ∀ k, .created (.engineRunner k) ∈ s.log → (s.monitor = true → k < s.nextEngine) ∧ (s.monitor = false → k = 0)
  conf : .monitor ∈ s.alive → s.monitor = true
  owner : ∀ k, .engineRunner k ∈ s.alive → s.monitor = true → .monitor ∈ s.alive
  below_ : .monitor ∈ s.alive → .closed .backend ∉ s.log ∧ .closed .eventerServer ∉ s.log
  phase : PhaseOk s

theorem toMake_nodup (s : Main) : s.toMake.Nodup := by
  unfold toMake
  cases s.adminer <;> cases s.monitor <;> decide

theorem mem_close {s : Main} {p q : MainPart} : q ∈ (s.close p).alive ↔ q ∈ s.alive ∧ q ≠ p := by
  simp [close, List.mem_filter]

/-- Closing of a part that is alive. -/
theorem alive_close {s : Main} (h : ∀ p, p ∈ s.alive ↔ .created p ∈ s.log ∧ .closed p ∉ s.log) (q p : MainPart) :
    p ∈ (s.close q).alive ↔ .created p ∈ (s.close q).log ∧ .closed p ∉ (s.close q).log := by
  rw [mem_close, h p]
  simp [close]
  tauto

theorem not_alive {s : Main} (h : Inv s) {p : MainPart} (ha : p ∉ s.alive) (hc : .created p ∈ s.log) : .closed p ∈ s.log := by
  by_contra hn
  exact ha ((h.alive p).2 ⟨hc, hn⟩)

theorem flushed_closed {log : List MainEntry} (h : Flushed log) (q : MainPart) : Flushed (log ++ [.closed q]) := by
  obtain ⟨a, b, h1, h2⟩ := h
  exact ⟨a, b ++ [.closed q], by rw [h1]; simp, fun k hk => h2 k (by simpa using hk)⟩

theorem flushed_flushed {log : List MainEntry} (h : Flushed log) : Flushed (log ++ [.flushed]) := by
  obtain ⟨a, b, h1, h2⟩ := h
  exact ⟨a, b ++ [.flushed], by rw [h1]; simp, fun k hk => h2 k (by simpa using hk)⟩

/-- `_stop` goes on. -/
theorem inv_proceed {s : Main} {rest : List StopStep} (h1 : LogOk s.log)
    (h2 : ∀ p, p ∈ s.alive ↔ .created p ∈ s.log ∧ .closed p ∉ s.log)
    (h3 : ∀ k, .created (.engineRunner k) ∈ s.log → (s.monitor = true → k < s.nextEngine) ∧ (s.monitor = false → k = 0))
    (h4 : .monitor ∈ s.alive → s.monitor = true) (h5 : ∀ k, .engineRunner k ∈ s.alive → s.monitor = true → .monitor ∈ s.alive)
    (h6 : .monitor ∈ s.alive → .closed .backend ∉ s.log ∧ .closed .eventerServer ∉ s.log) (h7 : Stopping s rest) :
    Inv (s.proceed rest) := by
  unfold proceed
  cases rest with
  | nil =>
    refine ⟨h1, h2, h3, h4, h5, h6, ?_⟩
    show s.alive = []
    have hm : MainPart.monitor ∉ s.alive := fun hm => by
      have := h7.left _ hm (by simp [MainPart.isEngine]); cases this
    apply List.eq_nil_iff_forall_not_mem.2
    intro p hp
    by_cases he : p.isEngine = true → s.monitor = false
    · have := h7.left p hp he; cases this
    · cases p with
      | engineRunner k => exact hm (h5 k hp (by simpa [MainPart.isEngine] using he))
      | _ => simp [MainPart.isEngine] at he
  | cons x rest => exact ⟨h1, h2, h3, h4, h5, h6, by simp, h7.alive, h7.own, h7.left, h7.sorted, h7.flush⟩

theorem stopOrder_sorted : stopOrder.Pairwise fun a b => rank a < rank b := by
  unfold stopOrder rank; decide

theorem inv_stop {s : Main} (h : Inv s) : Inv s.stop := by
  refine inv_proceed h.log h.alive h.numbers h.conf h.owner h.below_ ⟨?_, ?_, ?_, ?_, ?_⟩
  · intro p hp
    have hw := (List.mem_filter.1 hp).2
    cases p <;> simp [wanted] at hw
    all_goals first | exact hw | exact hw.1
  · intro p hp he
    have hw := (List.mem_filter.1 hp).2
    cases p <;> simp [wanted, MainPart.isEngine] at hw he ⊢
    exact hw.2
  · intro p hp he
    refine List.mem_filter.2 ⟨?_, ?_⟩
    · cases p with
      | engineRunner k =>
        have := (h.numbers k ((h.alive _).1 hp).1).2 (he rfl)
        subst this
        simp [stopOrder]
      | _ => simp [stopOrder]
    · cases p with
      | engineRunner k => simp [wanted, hp, he rfl]
      | _ => simp [wanted, hp]
  · exact stopOrder_sorted.sublist List.filter_sublist
  · intro hp
    exact .inl (List.mem_filter.2 ⟨by simp [stopOrder], by simp [wanted, hp]⟩)

/-- While the first step of `_stop` is done everything of a lower rank is gone. -/
theorem lower_gone {s : Main} {x : StopStep} {rest : List StopStep} (h : Stopping s (x :: rest)) {p : MainPart}
    (hr : rank (.close p) < rank x) (he : p.isEngine = true → s.monitor = false) : p ∉ s.alive := by
  intro hp
  rcases List.mem_cons.1 (h.left p hp he) with e | hm
  · rw [← e] at hr; exact absurd hr (Nat.lt_irrefl _)
  · have := (List.pairwise_cons.1 h.sorted).1 _ hm
    omega

theorem engine_gone {s : Main} (hi : Inv s) {x : StopStep} {rest : List StopStep} (h : Stopping s (x :: rest))
    (hr : 2 < rank x) (k : Nat) : MainPart.engineRunner k ∉ s.alive := by
  intro hp
  cases hm : s.monitor with
  | true => exact lower_gone h (p := .monitor) hr (by simp [MainPart.isEngine]) (hi.owner k hp hm)
  | false => exact lower_gone h (p := .engineRunner k) (Nat.lt_of_le_of_lt (Nat.zero_le 2) hr) (fun _ => hm) hp

theorem monitor_gone {s : Main} {x : StopStep} {rest : List StopStep} (h : Stopping s (x :: rest))
    (hr : 2 < rank x) : MainPart.monitor ∉ s.alive := lower_gone h hr (by simp [MainPart.isEngine])

/-- A step of `_stop` that closes a part. -/
theorem inv_close {s : Main} (hi : Inv s) {p : MainPart} {rest : List StopStep} (h : Stopping s (.close p :: rest))
    (hown : p = .monitor → s.hasEngine = false) : Inv ((s.close p).proceed rest) := by
  have hp : p ∈ s.alive := h.alive p (by simp)
  have hcp := (hi.alive p).1 hp
  have hsort := List.pairwise_cons.1 h.sorted
  have hlog : ∀ q, MainEntry.created q ∈ (s.close p).log ↔ .created q ∈ s.log := by intro q; simp [close]
  have hne : ∀ q, .close q ∈ rest → q ≠ p := by
    rintro q hq rfl
    exact absurd (hsort.1 _ hq) (Nat.lt_irrefl _)
  refine inv_proceed ?_ (alive_close hi.alive p) ?_ ?_ ?_ ?_ ⟨?_, fun q hq => h.own q (List.mem_cons_of_mem _ hq), ?_, hsort.2, ?_⟩
  · refine logOk_closed hi.log hcp.1 hcp.2 ?_ ?_
    · intro u hu hc
      refine not_alive hi ?_ hc
      cases hu with
      | serverBackend => exact lower_gone h (by decide) (by simp [MainPart.isEngine])
      | clientsBackend => exact lower_gone h (by decide) (by simp [MainPart.isEngine])
      | engineBackend k => exact engine_gone hi h (by decide) k
      | engineServer k => exact engine_gone hi h (by decide) k
    · rintro rfl
      rcases h.flush hp with hf | hf
      · rcases List.mem_cons.1 hf with e | hm
        · cases e
        · have := hsort.1 _ hm
          simp [rank] at this
      · exact hf.1
  · intro k hk
    exact hi.numbers k ((hlog _).1 hk)
  · intro hm; exact hi.conf (mem_close.1 hm).1
  · intro k hk hmon
    have hk' := (mem_close.1 hk).1
    refine mem_close.2 ⟨hi.owner k hk' hmon, ?_⟩
    intro e
    have hn := hown e.symm
    have : s.hasEngine = true := List.any_eq_true.2 ⟨_, hk', rfl⟩
    rw [hn] at this; cases this
  · intro hm
    have hm' := (mem_close.1 hm).1
    have hb := hi.below_ hm'
    have hp1 : p ≠ .backend := by rintro rfl; exact monitor_gone h (by decide) hm'
    have hp2 : p ≠ .eventerServer := by rintro rfl; exact monitor_gone h (by decide) hm'
    simp [close, hb.1, hb.2, hp1.symm, hp2.symm]
  · intro q hq
    exact mem_close.2 ⟨h.alive q (List.mem_cons_of_mem _ hq), hne q hq⟩
  · intro q hq he
    obtain ⟨h1, h2⟩ := mem_close.1 hq
    rcases List.mem_cons.1 (h.left q h1 he) with e | hm
    · cases e; exact absurd rfl h2
    · exact hm
  · intro hs
    obtain ⟨h1, h2⟩ := mem_close.1 hs
    rcases h.flush h1 with hf | hf
    · rcases List.mem_cons.1 hf with e | hm
      · cases e
      · exact .inl hm
    · exact .inr ⟨flushed_closed hf.1 p, fun hm => hf.2 (mem_close.1 hm).1⟩

theorem inv_flush {s : Main} (hi : Inv s) {rest : List StopStep} (h : Stopping s (.flush :: rest)) :
    Inv (s.flush.proceed rest) := by
  have hsort := List.pairwise_cons.1 h.sorted
  have hc : ∀ q, MainEntry.created q ∈ s.flush.log ↔ .created q ∈ s.log := by intro q; simp [Main.flush]
  have hd : ∀ q, MainEntry.closed q ∈ s.flush.log ↔ .closed q ∈ s.log := by intro q; simp [Main.flush]
  refine inv_proceed (logOk_flushed hi.log) ?_ ?_ hi.conf hi.owner ?_ ⟨?_, fun q hq => h.own q (List.mem_cons_of_mem _ hq), ?_, hsort.2, ?_⟩
  · intro p; rw [hc, hd]; exact hi.alive p
  · intro k hk; exact hi.numbers k ((hc _).1 hk)
  · intro hm; rw [hd, hd]; exact hi.below_ hm
  · intro p hp; exact h.alive p (List.mem_cons_of_mem _ hp)
  · intro p hp he
    rcases List.mem_cons.1 (h.left p hp he) with e | hm
    · cases e
    · exact hm
  · intro _
    have hg : MainPart.monitor ∉ s.alive := monitor_gone h (by decide)
    refine .inr ⟨⟨s.log, [], rfl, fun k hk => ?_⟩, hg⟩
    exact not_alive hi (engine_gone hi h (by decide) k) ((hc _).1 hk)

theorem inv_made {s : Main} (hi : Inv s) {p : MainPart} {rest : List MainPart} (hp : s.phase = .making (p :: rest)) :
    Inv (s.made p rest) := by
  have hph := hi.phase
  unfold PhaseOk at hph
  rw [hp] at hph
  obtain ⟨-, done, hm, hl, ha⟩ := hph
  have hnd := toMake_nodup s
  rw [hm] at hnd
  have hpd : p ∉ done := fun h => (List.nodup_append.1 hnd).2.2 p h p (by simp) rfl
  have hcl : ∀ q, MainEntry.closed q ∉ s.log := by rw [hl]; simp
  have hcr : ∀ q, MainEntry.created q ∈ s.log ↔ q ∈ done := by rw [hl]; simp
  have hlog : (s.made p rest).log = s.log ++ [.created p] := rfl
  have hal : (s.made p rest).alive = s.alive ++ [p] := rfl
  have hmem : ∀ q ∈ done ++ [p], q ∈ s.toMake := by
    intro q hq; rw [hm]
    rcases List.mem_append.1 hq with h | h
    · exact List.mem_append_left _ h
    · exact List.mem_append_right _ (by simp [List.mem_singleton.1 h])
  have hmk : ∀ k, MainPart.engineRunner k ∈ s.toMake → s.monitor = false ∧ k = 0 := by
    intro k hk
    unfold toMake at hk
    cases hmon : s.monitor <;> cases had : s.adminer <;> rw [hmon, had] at hk <;> simp at hk <;> simp [hk]
  have hmm : MainPart.monitor ∈ s.toMake → s.monitor = true := by
    intro hk
    unfold toMake at hk
    cases hmon : s.monitor <;> cases had : s.adminer <;> rw [hmon, had] at hk <;> simp at hk <;> rfl
  refine ⟨?_, ?_, ?_, ?_, ?_, ?_, ?_⟩
  · rw [hlog]
    exact logOk_created hi.log (by rw [hcr]; exact hpd) (fun q _ => hcl q)
  · intro q
    rw [hlog, hal, ha]
    simp [hcr, hcl]
  · intro k hk
    rw [hlog] at hk
    have hk' : MainPart.engineRunner k ∈ done ++ [p] := by
      rcases List.mem_append.1 hk with h | h
      · exact List.mem_append_left _ ((hcr _).1 h)
      · simp at h; simp [h]
    obtain ⟨h1, h2⟩ := hmk k (hmem _ hk')
    refine ⟨fun h => ?_, fun _ => h2⟩
    rw [show (s.made p rest).monitor = s.monitor from rfl, h1] at h; cases h
  · intro h
    rw [hal, ha] at h
    exact hmm (hmem _ h)
  · intro k hk hmon
    rw [hal, ha] at hk
    have := (hmk k (hmem _ hk)).1
    rw [show (s.made p rest).monitor = s.monitor from rfl, this] at hmon; cases hmon
  · intro _
    rw [hlog]; simp [hcl]
  · unfold PhaseOk
    rw [show (s.made p rest).phase = afterMade rest from rfl]
    cases rest with
    | nil =>
      show ∀ q, MainEntry.closed q ∈ (s.made p []).log → _
      intro q hq
      rw [hlog] at hq
      simp [hcl] at hq
    | cons r rest =>
      show _ ≠ _ ∧ _
      refine ⟨by simp, done ++ [p], ?_, ?_, ?_⟩
      · show s.toMake = _
        rw [hm]; simp
      · rw [hlog, hl]; simp
      · rw [hal, ha]

/-- The phases allow changes of engine runners of the monitor component. -/
theorem inv_bless {s : Main} (hi : Inv s) : Inv s.bless := by
  unfold bless
  split
  swap
  · exact hi
  next hb =>
  obtain ⟨hm, he⟩ := hb
  have hmon := hi.conf hm
  have hnew : MainEntry.created (.engineRunner s.nextEngine) ∉ s.log := fun h =>
    absurd ((hi.numbers _ h).1 hmon) (Nat.lt_irrefl _)
  have hcl : MainEntry.closed (.engineRunner s.nextEngine) ∉ s.log := by
    intro h
    obtain ⟨pre, post, e⟩ := List.append_of_mem h
    exact hnew (by rw [e]; exact List.mem_append_left _ (hi.log.closed pre _ post e).1)
  refine ⟨?_, ?_, ?_, ?_, ?_, ?_, ?_⟩
  · refine logOk_created hi.log hnew ?_
    intro q hq
    cases hq with
    | engineBackend => exact (hi.below_ hm).1
    | engineServer => exact (hi.below_ hm).2
  · intro q
    show q ∈ s.alive ++ [_] ↔ _ ∈ s.log ++ [_] ∧ _ ∉ s.log ++ [_]
    by_cases hq : q = .engineRunner s.nextEngine
    · subst hq; simp [hcl]
    · have := hi.alive q
      simp [hq, this]
  · intro k hk
    have hk : _ ∈ s.log ++ [MainEntry.created (.engineRunner s.nextEngine)] := hk
    refine ⟨fun _ => ?_, fun h => by rw [show s.monitor = false from h] at hmon; cases hmon⟩
    show k < s.nextEngine + 1
    rcases List.mem_append.1 hk with h | h
    · have := (hi.numbers k h).1 hmon; omega
    · simp at h; omega
  · intro _; exact hmon
  · intro k _ _; exact List.mem_append_left _ hm
  · intro _
    have := hi.below_ hm
    show _ ∉ s.log ++ [_] ∧ _ ∉ s.log ++ [_]
    simp [this.1, this.2]
  · have hph := hi.phase
    unfold PhaseOk at hph ⊢
    rw [show ({ s.create (.engineRunner s.nextEngine) with nextEngine := s.nextEngine + 1 } : Main).phase = s.phase from rfl]
    cases hp : s.phase with
    | spawned => rw [hp] at hph; rw [hph.2] at hm; cases hm
    | making rest =>
      rw [hp] at hph
      obtain ⟨hne, done, h1, h2, h3⟩ := hph
      exfalso
      rw [h3] at hm
      have hnd := toMake_nodup s
      have hlast : s.toMake = s.toMake.dropLast ++ [.monitor] := by
        unfold toMake; rw [hmon]; cases s.adminer <;> rfl
      obtain ⟨d1, d2, rfl⟩ := List.append_of_mem hm
      obtain ⟨r, x, rfl⟩ := (List.eq_nil_or_concat rest).resolve_left hne
      rw [List.concat_eq_append, ← List.append_assoc] at h1
      have hx : x = .monitor := by
        have := List.append_inj' (h1.symm.trans hlast) rfl
        simpa using this.2
      rw [h1, hx] at hnd
      exact (List.nodup_append.1 hnd).2.2 .monitor (by simp) .monitor (by simp) rfl
    | running =>
      rw [hp] at hph
      show ∀ p, _ ∈ s.log ++ [_] → _
      intro p h
      exact hph p (by simpa using h)
    | stopping rest =>
      rw [hp] at hph
      obtain ⟨hne, h⟩ := hph
      refine ⟨hne, ?_, h.own, ?_, h.sorted, ?_⟩
      · intro p hpr; exact List.mem_append_left _ (h.alive p hpr)
      · intro p hpa hpe
        rcases List.mem_append.1 hpa with h' | h'
        · exact h.left p h' hpe
        · rw [List.mem_singleton.1 h'] at hpe
          have := hpe rfl
          rw [show s.monitor = false from this] at hmon; cases hmon
      · intro hs
        have hs' : MainPart.eventerServer ∈ s.alive := by
          rcases List.mem_append.1 hs with h' | h'
          · exact h'
          · simp at h'
        rcases h.flush hs' with h' | h'
        · exact .inl h'
        · exact absurd hm h'.2
    | finished => rw [hp] at hph; rw [show s.alive = [] from hph] at hm; cases hm

theorem inv_unbless {s : Main} (hi : Inv s) : Inv s.unbless := by
  unfold unbless
  split
  swap
  · exact hi
  next hm =>
  split
  swap
  · exact hi
  next q hq =>
  have hqa := List.mem_of_find?_eq_some hq
  have hqe := List.find?_some hq
  have hmon := hi.conf hm
  obtain ⟨k, rfl⟩ : ∃ k, q = .engineRunner k := by cases q <;> simp [MainPart.isEngine] at hqe; exact ⟨_, rfl⟩
  have hcp := (hi.alive _).1 hqa
  have hmem : ∀ p, p ∈ s.alive → p.isEngine = false → p ∈ (s.close (.engineRunner k)).alive := by
    intro p hp he
    refine mem_close.2 ⟨hp, ?_⟩
    rintro rfl; cases he
  refine ⟨?_, alive_close hi.alive _, ?_, ?_, ?_, ?_, ?_⟩
  · exact logOk_closed hi.log hcp.1 hcp.2 (fun p hu => by cases hu) (by simp)
  · intro j hj
    exact hi.numbers j (by simpa [close] using hj)
  · intro h; exact hmon
  · intro j hj _; exact hmem _ hm rfl
  · intro _
    have := hi.below_ hm
    simp [close, this.1, this.2]
  · have hph := hi.phase
    unfold PhaseOk at hph ⊢
    rw [show (s.close (.engineRunner k)).phase = s.phase from rfl]
    cases hp : s.phase with
    | spawned => rw [hp] at hph; rw [hph.2] at hm; cases hm
    | making rest =>
      rw [hp] at hph
      obtain ⟨hne, done, h1, h2, h3⟩ := hph
      exfalso
      rw [h3] at hqa
      have hk : MainPart.engineRunner k ∈ s.toMake := by rw [h1]; exact List.mem_append_left _ hqa
      unfold toMake at hk
      rw [hmon] at hk
      cases had : s.adminer <;> rw [had] at hk <;> simp at hk
    | running =>
      rw [hp] at hph
      intro p h
      have h : _ ∈ s.log ++ [MainEntry.closed (.engineRunner k)] := h
      rcases List.mem_append.1 h with h | h
      · exact hph p h
      · simp at h; rw [h]; rfl
    | stopping rest =>
      rw [hp] at hph
      obtain ⟨hne, h⟩ := hph
      refine ⟨hne, ?_, h.own, ?_, h.sorted, ?_⟩
      · intro p hpr
        refine mem_close.2 ⟨h.alive p hpr, ?_⟩
        rintro rfl
        have := h.own _ hpr rfl
        rw [hmon] at this; cases this
      · intro p hpa hpe
        exact h.left p (mem_close.1 hpa).1 hpe
      · intro hs
        rcases h.flush (mem_close.1 hs).1 with h' | h'
        · exact .inl h'
        · exact .inr ⟨flushed_closed h'.1 _, fun hh => h'.2 (mem_close.1 hh).1⟩
    | finished => rw [hp] at hph; rw [show s.alive = [] from hph] at hm; cases hm

theorem inv_step {s : Main} (hi : Inv s) (a : MainAct) : Inv (s.step a) := by
  have hph := hi.phase
  unfold PhaseOk at hph
  unfold step
  split
  · next hp =>
    rw [hp] at hph
    refine ⟨hi.log, hi.alive, hi.numbers, hi.conf, hi.owner, hi.below_, ?_⟩
    refine ⟨?_, [], rfl, hph.1, hph.2⟩
    show s.toMake ≠ []
    simp [toMake]
  · next hp =>
    rw [hp] at hph
    exact ⟨hi.log, hi.alive, hi.numbers, hi.conf, hi.owner, hi.below_, hph.2⟩
  · next hp => exact inv_made hi hp
  · exact inv_stop hi
  · exact inv_stop hi
  · exact inv_stop hi
  · next x rest hp =>
    rw [hp] at hph
    unfold stepDone
    split
    · split
      · exact hi
      · next he => exact inv_close hi hph.2 (fun _ => by simpa using he)
    · next p hne => exact inv_close hi hph.2 (fun e => absurd e hne)
    · exact inv_flush hi hph.2
  · exact inv_bless hi
  · exact inv_unbless hi
  · exact hi

theorem inv_init (adminer monitor : Bool) : Inv (init adminer monitor) :=
  ⟨logOk_nil, by simp [init], by simp [init], by simp [init], by simp [init], by simp [init], by simp [PhaseOk, init]⟩

theorem inv_run (adminer monitor : Bool) (acts : List MainAct) : Inv ((init adminer monitor).run acts) := by
  induction acts using List.reverseRecOn with
  | nil => exact inv_init adminer monitor
  | append_singleton acts a ih => rw [run_snoc]; exact inv_step ih a

/-! ### The end of `_stop` -/

/-- There is at most one engine runner. -/
def One (s : Main) : Prop := ∀ j k, .engineRunner j ∈ s.alive → .engineRunner k ∈ s.alive → j = k

theorem one_close {s : Main} (h : One s) (p : MainPart) : One (s.close p) :=
  fun j k hj hk => h j k (mem_close.1 hj).1 (mem_close.1 hk).1

theorem alive_proceed (s : Main) (rest : List StopStep) : (s.proceed rest).alive = s.alive := by
  unfold proceed; split <;> rfl

theorem one_proceed {s : Main} (h : One s) (rest : List StopStep) : One (s.proceed rest) := by
  unfold One; rw [alive_proceed]; exact h

theorem one_step {s : Main} (hi : Inv s) (h : One s) (a : MainAct) : One (s.step a) := by
  have hph := hi.phase
  unfold PhaseOk at hph
  unfold step
  split
  · exact h
  · exact h
  · next p rest hp =>
    rw [hp] at hph
    obtain ⟨-, done, hm, hl, ha⟩ := hph
    have key : ∀ k, MainPart.engineRunner k ∈ (s.made p rest).alive → k = 0 := by
      intro k hk
      have hk : MainPart.engineRunner k ∈ s.alive ++ [p] := hk
      have hk' : MainPart.engineRunner k ∈ s.toMake := by
        rw [hm]
        rcases List.mem_append.1 hk with h' | h'
        · rw [ha] at h'; exact List.mem_append_left _ h'
        · exact List.mem_append_right _ (by simp [List.mem_singleton.1 h'])
      unfold toMake at hk'
      cases hmon : s.monitor <;> cases had : s.adminer <;> rw [hmon, had] at hk' <;> simp at hk' <;> exact hk'
    exact fun j k hj hk => (key j hj).trans (key k hk).symm
  · exact one_proceed h _
  · exact one_proceed h _
  · exact one_proceed h _
  · unfold stepDone
    split
    · split
      · exact h
      · exact one_proceed (one_close h _) _
    · exact one_proceed (one_close h _) _
    · exact one_proceed (show One s.flush from h) _
  · unfold bless
    split
    · next hb =>
      have hno : ∀ k, MainPart.engineRunner k ∉ s.alive := fun k hk => by
        have : s.hasEngine = true := List.any_eq_true.2 ⟨_, hk, rfl⟩
        rw [hb.2] at this; cases this
      have key : ∀ k, MainPart.engineRunner k ∈ s.alive ++ [MainPart.engineRunner s.nextEngine] → k = s.nextEngine := by
        intro k hk
        rcases List.mem_append.1 hk with h' | h'
        · exact absurd h' (hno k)
        · simpa using h'
      exact fun j k hj hk => (key j hj).trans (key k hk).symm
    · exact h
  · unfold unbless
    split
    · split
      · exact one_close h _
      · exact h
    · exact h
  · exact h

theorem one_run (adminer monitor : Bool) (acts : List MainAct) : One ((init adminer monitor).run acts) := by
  induction acts using List.reverseRecOn with
  | nil => simp [One, run, init]
  | append_singleton acts a ih => rw [run_snoc]; exact one_step (inv_run adminer monitor acts) ih a

theorem unbless_hasEngine {s : Main} (h : One s) (hm : .monitor ∈ s.alive) : s.unbless.hasEngine = false := by
  unfold unbless
  rw [if_pos hm]
  split
  · next p hp =>
    have hpe := List.find?_some hp
    have hpa := List.mem_of_find?_eq_some hp
    unfold hasEngine
    rw [List.any_eq_false]
    intro q hq hqe
    obtain ⟨h1, h2⟩ := mem_close.1 hq
    cases p with
    | engineRunner j =>
      cases q with
      | engineRunner k => exact h2 (by rw [h k j h1 hpa])
      | _ => cases hqe
    | _ => cases hpe
  · next hn =>
    unfold hasEngine
    rw [List.any_eq_false]
    exact fun q hq => by simpa using List.find?_eq_none.1 hn q hq

theorem unbless_phase (s : Main) : s.unbless.phase = s.phase := by
  unfold unbless
  split
  · split <;> rfl
  · rfl

theorem proceed_phase (s : Main) (rest : List StopStep) :
    (s.proceed rest).phase = if rest = [] then .finished else .stopping rest := by
  cases rest <;> rfl

/-- One await of `_stop`, when the monitor component closes its engine runner. -/
theorem stepDone_phase {s : Main} (hi : Inv s) (h1 : One s) {x : StopStep} {rest : List StopStep}
    (hp : s.phase = .stopping (x :: rest)) :
    ((s.step .unbless).step .stepDone).phase = if rest = [] then .finished else .stopping rest := by
  have hs : s.step .unbless = s.unbless := by unfold step; split <;> simp_all
  have hp' : s.unbless.phase = .stopping (x :: rest) := by rw [unbless_phase, hp]
  have hst : Stopping s (x :: rest) := by
    have := hi.phase; unfold PhaseOk at this; rw [hp] at this; exact this.2
  rw [hs]
  have : s.unbless.step .stepDone = s.unbless.stepDone x rest := by unfold step; rw [hp']
  rw [this]
  unfold stepDone
  split
  · rw [unbless_hasEngine h1 (hst.alive _ (by simp))]
    exact proceed_phase _ _
  · exact proceed_phase _ _
  · exact proceed_phase _ _

theorem finished_run {s : Main} (h : s.phase = .finished) (n : Nat) :
    (s.run (List.replicate n [MainAct.unbless, .stepDone]).flatten).phase = .finished := by
  induction n generalizing s with
  | zero => exact h
  | succ n ih =>
    rw [List.replicate_succ, List.flatten_cons, run, List.foldl_append]
    refine ih ?_
    have hs : s.step .unbless = s.unbless := by unfold step; split <;> simp_all
    have h' : s.unbless.phase = .finished := by rw [unbless_phase, h]
    show ((s.step .unbless).step .stepDone).phase = _
    rw [hs]
    unfold step; rw [h']; exact h'

theorem stopping_run {s : Main} (hi : Inv s) (h1 : One s) {rest : List StopStep} (hp : s.phase = .stopping rest) (n : Nat)
    (hn : rest.length ≤ n) : (s.run (List.replicate n [MainAct.unbless, .stepDone]).flatten).phase = .finished := by
  induction n generalizing s rest with
  | zero =>
    have := hi.phase; unfold PhaseOk at this; rw [hp] at this
    exact absurd (List.length_eq_zero_iff.1 (Nat.le_zero.1 hn)) this.1
  | succ n ih =>
    cases rest with
    | nil => have := hi.phase; unfold PhaseOk at this; rw [hp] at this; exact absurd rfl this.1
    | cons x rest =>
      have h2 := stepDone_phase hi h1 hp
      rw [List.replicate_succ, List.flatten_cons, run, List.foldl_append]
      show (((s.step .unbless).step .stepDone).run _).phase = _
      have hi' := inv_step (inv_step hi .unbless) .stepDone
      have h1' := one_step (inv_step hi .unbless) (one_step hi h1 .unbless) .stepDone
      split at h2
      · exact finished_run h2 n
      · exact ih hi' h1' h2 (by simpa using hn)

/-- How long the rest of `_stop` is. -/
def Short (s : Main) : Prop := ∀ rest, s.phase = .stopping rest → rest.length ≤ 7

theorem short_proceed (s : Main) {rest : List StopStep} (h : rest.length ≤ 7) : Short (s.proceed rest) := by
  intro r hr
  rw [proceed_phase] at hr
  split at hr <;> cases hr
  exact h

theorem short_stop (s : Main) : Short s.stop := short_proceed s (by
  refine Nat.le_trans (List.length_filter_le _ _) ?_
  decide)

theorem short_step {s : Main} (h : Short s) (a : MainAct) : Short (s.step a) := by
  unfold step
  split
  · intro r hr; cases hr
  · intro r hr; cases hr
  · next p rest _ => intro r hr; cases rest <;> cases hr
  · exact short_stop s
  · exact short_stop s
  · exact short_stop s
  · next x rest hp =>
    have hl : rest.length ≤ 7 := Nat.le_of_succ_le (h _ hp)
    unfold stepDone
    split
    · split
      · exact h
      · exact short_proceed _ hl
    · exact short_proceed _ hl
    · exact short_proceed _ hl
  · unfold bless; split
    · exact h
    · exact h
  · unfold Short; rw [unbless_phase]; exact h
  · exact h

theorem short_run (adminer monitor : Bool) (acts : List MainAct) : Short ((init adminer monitor).run acts) := by
  induction acts using List.reverseRecOn with
  | nil => intro r hr; cases hr
  | append_singleton acts a ih => rw [run_snoc]; exact short_step ih a

theorem proceed_not (s : Main) (rest : List StopStep) :
    (s.proceed rest).phase ≠ .spawned ∧ (∀ r, (s.proceed rest).phase ≠ .making r) ∧ (s.proceed rest).phase ≠ .running := by
  cases rest <;> simp [proceed]

theorem cancel_phase (s : Main) :
    (s.step .cancel).phase ≠ .spawned ∧ (∀ r, (s.step .cancel).phase ≠ .making r) ∧ (s.step .cancel).phase ≠ .running := by
  cases hp : s.phase with
  | spawned => simp [step, hp]
  | making r => have := proceed_not s (stopOrder.filter s.wanted); simpa [step, hp, stop] using this
  | running => have := proceed_not s (stopOrder.filter s.wanted); simpa [step, hp, stop] using this
  | stopping r => simp [step, hp]
  | finished => simp [step, hp]

/-! ### The order of creation -/

/-- Everything is created after what it uses, and the monitor component after what an engine runner uses. -/
structure Founded (s : Main) : Prop where
  used : ∀ pre p post, s.log = pre ++ .created p :: post → ∀ q, MainPart.Uses p q → .created q ∈ pre
  monitor : .monitor ∈ s.alive → .created .backend ∈ s.log ∧ .created .eventerServer ∈ s.log

theorem toMake_uses {s : Main} {done rest : List MainPart} {p q : MainPart} (h : s.toMake = done ++ p :: rest)
    (hu : MainPart.Uses p q ∨ p = .monitor ∧ (q = .backend ∨ q = .eventerServer)) : q ∈ done := by
  unfold toMake at h
  cases hm : s.monitor <;> cases ha : s.adminer <;> rw [hm, ha] at h <;> simp at h
  all_goals
    rcases done with _ | ⟨a, _ | ⟨b, _ | ⟨c, _ | ⟨d, _ | ⟨e, l⟩⟩⟩⟩⟩ <;> simp at h
    all_goals
      first
      | (obtain ⟨rfl, h⟩ := h; rcases hu with hu | hu <;> [cases hu; simp at hu])
      | (obtain ⟨rfl, rfl, h⟩ := h; rcases hu with hu | hu <;> [cases hu; simp at hu] <;> simp)
      | (obtain ⟨rfl, rfl, rfl, h⟩ := h; rcases hu with hu | hu <;> [cases hu; simp at hu] <;> simp_all)
      | (obtain ⟨rfl, rfl, rfl, rfl, h⟩ := h; rcases hu with hu | hu <;> [cases hu; simp at hu] <;> simp_all)
      | (obtain ⟨rfl, rfl, rfl, rfl, rfl, h⟩ := h; rcases hu with hu | hu <;> [cases hu; simp at hu] <;> simp_all)
      | skip
  all_goals tauto

theorem founded_same {s : Main} (h : Founded s) {t : Main} (e : MainEntry) (hl : t.log = s.log ∨ t.log = s.log ++ [e])
    (he : ∀ p, e ≠ .created p) (ha : .monitor ∈ t.alive → .monitor ∈ s.alive) : Founded t := by
  have hsub : ∀ x ∈ s.log, x ∈ t.log := by
    rcases hl with hl | hl <;> rw [hl]
    · exact fun _ h => h
    · exact fun _ h => List.mem_append_left _ h
  refine ⟨?_, fun hm => ⟨hsub _ (h.monitor (ha hm)).1, hsub _ (h.monitor (ha hm)).2⟩⟩
  intro pre p post e' q hu
  rcases hl with hl | hl
  · exact h.used pre p post (hl ▸ e') q hu
  · rw [hl] at e'
    rcases split_snoc e' with ⟨_, h', _⟩ | ⟨post', e'', _⟩
    · exact absurd h'.symm (he p)
    · exact h.used pre p post' e'' q hu

theorem founded_proceed {s : Main} (h : Founded s) (rest : List StopStep) : Founded (s.proceed rest) :=
  founded_same h .flushed (.inl (by unfold proceed; split <;> rfl)) (by simp) (by rw [alive_proceed]; exact id)

theorem founded_close {s : Main} (h : Founded s) (p : MainPart) : Founded (s.close p) :=
  founded_same h (.closed p) (.inr rfl) (by simp) (fun hm => (mem_close.1 hm).1)

theorem founded_create {s : Main} (h : Founded s) {p : MainPart} (hp : ∀ q, MainPart.Uses p q → .created q ∈ s.log)
    (hm : p = .monitor → .created .backend ∈ s.log ∧ .created .eventerServer ∈ s.log) : Founded (s.create p) := by
  refine ⟨?_, ?_⟩
  · intro pre p' post e q hu
    rcases split_snoc e with ⟨hpre, h', _⟩ | ⟨post', e', _⟩
    · cases h'; rw [hpre]; exact hp q hu
    · exact h.used pre p' post' e' q hu
  · intro hm'
    have : .created .backend ∈ s.log ∧ .created .eventerServer ∈ s.log := by
      rcases List.mem_append.1 hm' with h' | h'
      · exact h.monitor h'
      · exact hm (List.mem_singleton.1 h').symm
    exact ⟨List.mem_append_left _ this.1, List.mem_append_left _ this.2⟩

theorem founded_step {s : Main} (hi : Inv s) (h : Founded s) (a : MainAct) : Founded (s.step a) := by
  have hph := hi.phase
  unfold PhaseOk at hph
  unfold step
  split
  · exact ⟨h.used, h.monitor⟩
  · exact ⟨h.used, h.monitor⟩
  · next p rest hp =>
    rw [hp] at hph
    obtain ⟨-, done, hm, hl, ha⟩ := hph
    have := founded_create h (p := p) (fun q hu => by rw [hl]; simpa using toMake_uses hm (.inl hu))
      (fun e => by rw [hl]; simpa using ⟨toMake_uses hm (.inr ⟨e, .inl rfl⟩), toMake_uses hm (.inr ⟨e, .inr rfl⟩)⟩)
    exact ⟨this.used, this.monitor⟩
  · exact founded_proceed h _
  · exact founded_proceed h _
  · exact founded_proceed h _
  · unfold stepDone
    split
    · split
      · exact h
      · exact founded_proceed (founded_close h _) _
    · exact founded_proceed (founded_close h _) _
    · exact founded_proceed (founded_same h (t := s.flush) .flushed (.inr rfl) (by simp) id) _
  · unfold bless
    split
    · next hb =>
      have := founded_create h (p := .engineRunner s.nextEngine) (fun q hu => by
        cases hu
        exacts [(h.monitor hb.1).1, (h.monitor hb.1).2]) (by simp)
      exact ⟨this.used, this.monitor⟩
    · exact h
  · unfold unbless
    split
    · split
      · exact founded_close h _
      · exact h
    · exact h
  · exact h

theorem founded_run (adminer monitor : Bool) (acts : List MainAct) : Founded ((init adminer monitor).run acts) := by
  induction acts using List.reverseRecOn with
  | nil => exact ⟨by simp [run, init], by simp [run, init]⟩
  | append_singleton acts a ih => rw [run_snoc]; exact founded_step (inv_run adminer monitor acts) ih a

end Main
end HatEvent
