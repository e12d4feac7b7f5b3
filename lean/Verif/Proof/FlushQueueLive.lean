import Verif.Proof.FlushQueueCalls
import Verif.Proof.WireLive

/-!
# Progress of the flush loop
-/

namespace HatEvent
open Spec
namespace FlushQueue
variable {s : FlushQueue}

/-- How the loop may go on. -/
inductive LoopMoves (s : FlushQueue) (a : QueueAct) : FlushAt → Prop
  | stay (hs : a ≠ .start ∨ s.loop ≠ .spawned) (hd : a ≠ .drain ∨ s.loop ≠ .waiting ∧ ∀ i, s.loop ≠ .got i)
      (hb : a ≠ .begin ∨ (∀ i, s.loop ≠ .ready i) ∧ s.loop ≠ .closing none)
      (he : (∀ ok, a ≠ .done ok) ∨ (∀ i l, s.loop ≠ .flushing i l) ∧ ∀ l, s.loop ≠ .closing (some l))
      (hst : a ≠ .stop ∨ s.isOpen = true ∨ s.loop ≠ .waiting ∧ ∀ i, s.loop ≠ .got i) : LoopMoves s a s.loop
  | start (h : s.loop = .spawned) : LoopMoves s a .waiting
  | never (h : s.loop = .spawned) : LoopMoves s a .never
  | get (item : Option Nat) (rest : List (Option Nat)) (h : s.loop = .waiting) (hq : s.queue = item :: rest) (ha : a = .get) :
      LoopMoves s a (.got item)
  | drainW (h : s.loop = .waiting) : LoopMoves s a (.ready s.queue)
  | drainG (item : Option Nat) (h : s.loop = .got item) : LoopMoves s a (.ready (item :: s.queue))
  | beginF (items : List (Option Nat)) (h : s.loop = .ready items) : LoopMoves s a (.flushing items s.registered)
  | beginC (h : s.loop = .closing none) : LoopMoves s a (.closing (some s.registered))
  | doneW (items : List (Option Nat)) (lists : List (List Event)) (h : s.loop = .flushing items lists) (ho : s.isOpen = true) (ha : a = .done true) : LoopMoves s a .waiting
  | over (h : s.loop = .waiting ∨ (∃ item, s.loop = .got item) ∨ ∃ items lists, s.loop = .flushing items lists) : LoopMoves s a (.closing none)
  | ended (lists : List (List Event)) (h : s.loop = .closing (some lists)) (he : (s.step a).envOpen = false) : LoopMoves s a .ended

theorem putRegister_loop (k : Nat) (events : List Event) : (s.putRegister k events).loop = s.loop := by
  simp only [putRegister, tell, setCall]; split_ifs <;> rfl

theorem putFlush_loop (k seen : Nat) : (s.putFlush k seen).loop = s.loop := by
  simp only [putFlush, setCall]; split_ifs <;> rfl

theorem loopMoves_step (s : FlushQueue) (a : QueueAct) : LoopMoves s a (s.step a).loop := by
  have hstay : ∀ {l}, l = s.loop → a ≠ .start → a ≠ .drain → a ≠ .begin → (∀ ok, a ≠ .done ok) → a ≠ .stop → LoopMoves s a l := by
    intro l h h1 h2 h3 h4 h5
    exact h ▸ .stay (.inl h1) (.inl h2) (.inl h3) (.inl h4) (.inl h5)
  cases a with
  | register events =>
    refine hstay ?_ nofun nofun nofun nofun nofun
    simp only [step, register, store]
    split
    · split
      · rw [putRegister_loop]
      · rfl
    · rfl
  | flush => exact hstay (by simp only [step, flush]; rw [putFlush_loop]) nofun nofun nofun nofun nofun
  | enter k =>
    refine hstay ?_ nofun nofun nofun nofun nofun
    simp only [step, enter]
    split
    · rw [putRegister_loop]
    · rw [putFlush_loop]
    · rfl
  | called k =>
    refine hstay ?_ nofun nofun nofun nofun nofun
    simp only [step, called]; split <;> rfl
  | cancel k =>
    refine hstay ?_ nofun nofun nofun nofun nofun
    simp only [step, cancel]; split <;> rfl
  | start =>
    cases hl : s.loop with
    | spawned => simp only [step, start, hl]; exact .start hl
    | _ =>
      have : (s.step .start).loop = s.loop := by simp only [step, start, hl]
      rw [this]
      exact .stay (.inr (by rw [hl]; exact nofun)) (.inl nofun) (.inl nofun) (.inl nofun) (.inl nofun)
  | get =>
    cases hl : s.loop with
    | waiting =>
      cases hq : s.queue with
      | nil =>
        refine hstay ?_ nofun nofun nofun nofun nofun
        simp only [step, get, hl, hq]
      | cons item rest => simp only [step, get, hl, hq]; exact .get item rest hl hq rfl
    | _ =>
      refine hstay ?_ nofun nofun nofun nofun nofun
      simp only [step, get, hl]
  | drain =>
    cases hl : s.loop with
    | waiting => simp only [step, drain, hl]; exact .drainW hl
    | got item => simp only [step, drain, hl]; exact .drainG item hl
    | _ =>
      have : (s.step .drain).loop = s.loop := by simp only [step, drain, hl]
      rw [this]
      exact .stay (.inl nofun) (.inr (by rw [hl]; exact ⟨nofun, nofun⟩)) (.inl nofun) (.inl nofun) (.inl nofun)
  | begin =>
    cases hl : s.loop with
    | ready items => simp only [step, begin, hl]; exact .beginF items hl
    | closing lists =>
      cases lists with
      | none => simp only [step, begin, hl]; exact .beginC hl
      | some l =>
        have : (s.step .begin).loop = s.loop := by simp only [step, begin, hl]
        rw [this]
        exact .stay (.inl nofun) (.inl nofun) (.inr (by rw [hl]; exact ⟨nofun, nofun⟩)) (.inl nofun) (.inl nofun)
    | _ =>
      have : (s.step .begin).loop = s.loop := by simp only [step, begin, hl]
      rw [this]
      exact .stay (.inl nofun) (.inl nofun) (.inr (by rw [hl]; exact ⟨nofun, nofun⟩)) (.inl nofun) (.inl nofun)
  | done ok =>
    cases hl : s.loop with
    | flushing items lists =>
      cases ok with
      | true =>
        simp only [step, done, hl, flushedOk, if_true]
        split
        · next ho => exact .doneW items lists hl ho rfl
        · exact .over (.inr (.inr ⟨_, _, hl⟩))
      | false =>
        simp only [step, done, hl, Bool.false_eq_true, if_false]
        exact .over (.inr (.inr ⟨_, _, hl⟩))
    | closing lists =>
      cases lists with
      | none =>
        have : (s.step (.done ok)).loop = s.loop := by simp only [step, done, hl]
        rw [this]
        exact .stay (.inl nofun) (.inl nofun) (.inl nofun) (.inr (by rw [hl]; exact ⟨nofun, nofun⟩)) (.inl nofun)
      | some l =>
        have : (s.step (.done ok)).loop = .ended := by simp only [step, done, hl]
        rw [this]
        exact .ended l hl (by simp only [step, done, hl])
    | _ =>
      have : (s.step (.done ok)).loop = s.loop := by simp only [step, done, hl]
      rw [this]
      exact .stay (.inl nofun) (.inl nofun) (.inl nofun) (.inr (by rw [hl]; exact ⟨nofun, nofun⟩)) (.inl nofun)
  | close => exact hstay rfl nofun nofun nofun nofun nofun
  | stop =>
    cases ho : s.isOpen with
    | true =>
      have : (s.step .stop).loop = s.loop := by simp only [step, stop, ho, if_true]
      rw [this]
      exact .stay (.inl nofun) (.inl nofun) (.inl nofun) (.inl nofun) (.inr (.inl ho))
    | false =>
      cases hl : s.loop with
      | spawned =>
        have : (s.step .stop).loop = .never := by simp [step, stop, ho, hl]
        rw [this]
        exact .never hl
      | waiting =>
        have : (s.step .stop).loop = .closing none := by simp [step, stop, ho, hl, finalise]
        rw [this]
        exact .over (.inl hl)
      | got item =>
        have : (s.step .stop).loop = .closing none := by simp [step, stop, ho, hl, finalise]
        rw [this]
        exact .over (.inr (.inl ⟨_, hl⟩))
      | _ =>
        have : (s.step .stop).loop = s.loop := by simp [step, stop, ho, hl]
        rw [this]
        exact .stay (.inl nofun) (.inl nofun) (.inl nofun) (.inl nofun) (.inr (.inr (by rw [hl]; exact ⟨nofun, nofun⟩)))

/-- A closed backend stays closed. -/
theorem closed_step (s : FlushQueue) (a : QueueAct) (h : s.isOpen = false) : (s.step a).isOpen = false := by
  cases a with
  | register events => simp [step, register, h, setCall]
  | flush =>
    simp only [step, flush, putFlush, setCall]
    split_ifs <;> simp [h]
  | enter k =>
    simp only [step, enter, putRegister, putFlush, tell, setCall]
    split
    · split_ifs <;> simp [h]
    · split_ifs <;> simp [h]
    · exact h
  | called k => simp only [step, called, setCall]; split <;> exact h
  | cancel k => simp only [step, cancel, setCall]; split <;> exact h
  | start => simp only [step, start]; split <;> exact h
  | get => simp only [step, get]; split <;> exact h
  | drain => simp only [step, drain]; split <;> exact h
  | begin => simp only [step, begin]; split <;> exact h
  | done ok =>
    simp only [step, done]
    split
    · split
      · simp [flushedOk, h, finalise]
      · rfl
    · exact h
    · exact h
  | close => rfl
  | stop =>
    simp only [step, stop, h, Bool.false_eq_true, if_false]
    split <;> simp [finalise, h]

/-- How far a call of `flush` that waits for its future is. -/
def stage (k : Nat) : FlushAt → Nat
  | .spawned => 6
  | .ready items => if some k ∈ items then 2 else 5
  | .flushing items _ => if some k ∈ items then 1 else 4
  | .waiting => 3
  | .got _ => 3
  | _ => 0

/-- What brings such a call further. -/
def helpAt (n : Nat) (a : QueueAct) : Prop :=
  match n with
  | 6 => a = .start
  | 5 => a = .begin
  | 4 => ∃ ok, a = .done ok
  | 3 => a = .drain
  | 2 => a = .begin
  | 1 => ∃ ok, a = .done ok
  | _ => False

theorem done_resolves {items : List (Option Nat)} {lists : List (List Event)} (hl : s.loop = .flushing items lists) {k seen : Nat} (hm : some k ∈ items)
    (hc : s.calls k = .flushWaiting seen) (ok : Bool) : ∃ r, (s.step (.done ok)).calls k = .finished r := by
  cases ok with
  | true =>
    cases ho : s.isOpen with
    | true => exact ⟨.done, by simp [step, done, hl, flushedOk, resolve, ho, hc, hm]⟩
    | false => exact ⟨.closed, by simp [step, done, hl, flushedOk, finalise, resolve, ho, hc, hm]⟩
  | false => exact ⟨.closed, by simp [step, done, hl, finalise, resolve, hc, hm]⟩

theorem waits_step (hg : Good s) {k seen : Nat} (hc : s.calls k = .flushWaiting seen) (a : QueueAct) (hn : (s.step a).loop ≠ .never) :
    (∃ r, (s.step a).calls k = .finished r) ∨ (s.step a).calls k = .flushWaiting seen ∧ stage k (s.step a).loop ≤ stage k s.loop ∧
      (helpAt (stage k s.loop) a → stage k (s.step a).loop < stage k s.loop) := by
  have hm := moves_step s a k
  have hw : (∃ r, (s.step a).calls k = .finished r) ∨ (s.step a).calls k = .flushWaiting seen := by
    generalize (s.step a).calls k = c at hm
    cases hm with
    | stay => exact .inr hc
    | reg events _ hk' => exact absurd (hg.lt hc nofun) (by omega)
    | flush _ hk' => exact absurd (hg.lt hc nofun) (by omega)
    | enterReg events e => rw [hc] at e; cases e
    | failReg events e => exact .inl ⟨_, rfl⟩
    | enterFlush seen e => rw [hc] at e; cases e
    | failFlush seen e => exact .inl ⟨_, rfl⟩
    | called events e => exact .inl ⟨_, rfl⟩
    | cancel => exact .inl ⟨_, rfl⟩
    | flushed => exact .inl ⟨_, rfl⟩
    | refused seen e => exact .inl ⟨_, rfl⟩
  rcases hw with h | h
  · exact .inl h
  by_cases hd : ∃ items lists ok, s.loop = .flushing items lists ∧ some k ∈ items ∧ a = .done ok
  · obtain ⟨items, lists, ok, h1, h2, rfl⟩ := hd
    exact .inl (done_resolves h1 h2 hc ok)
  refine .inr ⟨h, ?_⟩
  have hin := (hg.waiting k seen hc).1
  have hin' := ((hg.step a).waiting k seen h).1
  have hover : (s.step a).loop.isOver = false := by
    cases ho : (s.step a).loop.isOver with
    | false => rfl
    | true =>
      rw [(hg.step a).emptyQ ho] at hin'
      cases hl : (s.step a).loop <;> simp_all [FlushAt.isOver, FlushAt.held]
  have hl := loopMoves_step s a
  generalize (s.step a).loop = l at hl hover hn
  cases hl with
  | stay hs hd' hb he hst =>
    refine ⟨Nat.le_refl _, fun hh => ?_⟩
    exfalso
    cases e : s.loop with
    | spawned => rcases hs with h | h
                 · exact h (by simpa [helpAt, stage, e] using hh)
                 · exact h e
    | never => simp [helpAt, stage, e] at hh
    | waiting => rcases hd' with h | h
                 · exact h (by simpa [helpAt, stage, e] using hh)
                 · exact h.1 e
    | got i => rcases hd' with h | h
               · exact h (by simpa [helpAt, stage, e] using hh)
               · exact h.2 _ e
    | ready items =>
      rcases hb with h | h
      · apply h
        by_cases hk : some k ∈ items <;> simpa [helpAt, stage, e, hk] using hh
      · exact h.1 _ e
    | flushing items lists =>
      rcases he with h | h
      · have : ∃ ok, a = .done ok := by
          by_cases hk : some k ∈ items <;> simpa [helpAt, stage, e, hk] using hh
        obtain ⟨ok, hok⟩ := this
        exact h ok hok
      · exact h.1 _ _ e
    | closing l => simp [helpAt, stage, e] at hh
    | ended => simp [helpAt, stage, e] at hh
  | start e => rw [e]; simp [stage]
  | never e => exact absurd rfl hn
  | get item rest e hq ha =>
    rw [e]
    refine ⟨Nat.le_refl _, fun hh => ?_⟩
    have : a = .drain := by simpa [helpAt, stage] using hh
    rw [ha] at this
    cases this
  | drainW e =>
    rw [e] at hin ⊢
    have : some k ∈ s.queue := by simpa [FlushAt.held] using hin
    simp [stage, this]
  | drainG item e =>
    rw [e] at hin ⊢
    have : some k ∈ item :: s.queue := by
      simp only [FlushAt.held, List.mem_append, List.mem_singleton] at hin
      rcases hin with h | h
      · exact List.mem_cons_of_mem _ h
      · rw [h]; exact List.mem_cons_self
    simp [stage, this]
  | beginF items e =>
    rw [e]
    by_cases hk : some k ∈ items <;> simp [stage, hk]
  | beginC e => simp [FlushAt.isOver] at hover
  | doneW items lists e ho ha =>
    rw [e]
    have : ¬ some k ∈ items := fun hk => hd ⟨items, lists, true, e, hk, ha⟩
    simp [stage, this]
  | over => simp [FlushAt.isOver] at hover
  | ended => simp [FlushAt.isOver] at hover

/-- A measure of progress that does not grow and is made smaller again and again. -/
theorem descend {α : Type} {P Q : Nat → Prop} {f : Nat → Nat} {H : Nat → α → Prop} {acts : Nat → α}
    (hstep : ∀ p, P p → Q (p + 1) ∨ P (p + 1) ∧ f (p + 1) ≤ f p ∧ (H (f p) (acts p) → f (p + 1) < f p))
    (hoft : ∀ p, P p → ∀ m, ∃ q, m ≤ q ∧ H (f p) (acts q)) : ∀ n m, f m = n → P m → ∃ p, m ≤ p ∧ Q p := by
  intro n
  induction n using Nat.strong_induction_on with
  | _ n ih =>
    intro m hf hP
    have key : ∃ p, m ≤ p ∧ (Q p ∨ P p ∧ f p < n) := by
      refine until_done (acts := acts) (A := H n) (P := fun p => P p ∧ f p = n) ⟨hP, hf⟩ ?_ ?_ ?_
      · intro p _ ⟨h1, h2⟩
        rcases hstep p h1 with h | ⟨h3, h4, h5⟩
        · exact .inr (.inl h)
        · rcases Nat.lt_or_ge (f (p + 1)) n with h | h
          · exact .inr (.inr ⟨h3, h⟩)
          · exact .inl ⟨h3, by omega⟩
      · exact hf ▸ hoft m hP m
      · intro p _ ⟨h1, h2⟩ ha
        rcases hstep p h1 with h | ⟨h3, h4, h5⟩
        · exact .inl h
        · have := h5 (h2 ▸ ha)
          exact .inr ⟨h3, by omega⟩
    obtain ⟨p, hp, h | ⟨h1, h2⟩⟩ := key
    · exact ⟨p, hp, h⟩
    · obtain ⟨q, hq, h⟩ := ih _ h2 p rfl h1
      exact ⟨q, by omega, h⟩

/-- How far the loop of a closed backend is. -/
def closeStage : FlushAt → Nat
  | .spawned => 6
  | .waiting => 5
  | .got _ => 5
  | .ready _ => 4
  | .flushing _ _ => 3
  | .closing none => 2
  | .closing (some _) => 1
  | _ => 0

/-- What brings it further. -/
def closeHelp (n : Nat) (a : QueueAct) : Prop :=
  match n with
  | 6 => a = .start
  | 5 => a = .stop
  | 4 => a = .begin
  | 3 => ∃ ok, a = .done ok
  | 2 => a = .begin
  | 1 => ∃ ok, a = .done ok
  | _ => False

theorem closes_step (ho : s.isOpen = false) (a : QueueAct) (hn : (s.step a).loop ≠ .never) (he : s.loop ≠ .ended) :
    ((s.step a).loop = .ended ∧ (s.step a).envOpen = false) ∨ (s.step a).loop ≠ .ended ∧
      closeStage (s.step a).loop ≤ closeStage s.loop ∧ (closeHelp (closeStage s.loop) a → closeStage (s.step a).loop < closeStage s.loop) := by
  have hl := loopMoves_step s a
  generalize (s.step a).loop = l at hl hn
  cases hl with
  | stay hs hd' hb he' hst =>
    refine .inr ⟨he, Nat.le_refl _, fun hh => ?_⟩
    exfalso
    cases e : s.loop with
    | spawned => rcases hs with h | h
                 · exact h (by simpa [closeHelp, closeStage, e] using hh)
                 · exact h e
    | never => exact hn e
    | waiting =>
      have : a = .stop := by simpa [closeHelp, closeStage, e] using hh
      rcases hst with h | h | h
      · exact h this
      · rw [ho] at h; cases h
      · exact h.1 e
    | got i =>
      have : a = .stop := by simpa [closeHelp, closeStage, e] using hh
      rcases hst with h | h | h
      · exact h this
      · rw [ho] at h; cases h
      · exact h.2 _ e
    | ready items =>
      rcases hb with h | h
      · exact h (by simpa [closeHelp, closeStage, e] using hh)
      · exact h.1 _ e
    | flushing items lists =>
      have : ∃ ok, a = .done ok := by simpa [closeHelp, closeStage, e] using hh
      obtain ⟨ok, hok⟩ := this
      rcases he' with h | h
      · exact h ok hok
      · exact h.1 _ _ e
    | closing l =>
      cases l with
      | none =>
        rcases hb with h | h
        · exact h (by simpa [closeHelp, closeStage, e] using hh)
        · exact h.2 e
      | some l =>
        have : ∃ ok, a = .done ok := by simpa [closeHelp, closeStage, e] using hh
        obtain ⟨ok, hok⟩ := this
        rcases he' with h | h
        · exact h ok hok
        · exact h.2 _ e
    | ended => exact he e
  | start e => rw [e]; exact .inr ⟨nofun, by simp [closeStage]⟩
  | never e => exact absurd rfl hn
  | get item rest e hq ha =>
    rw [e]
    refine .inr ⟨nofun, Nat.le_refl _, fun hh => ?_⟩
    have : a = .stop := by simpa [closeHelp, closeStage] using hh
    rw [ha] at this
    cases this
  | drainW e => rw [e]; exact .inr ⟨nofun, by simp [closeStage]⟩
  | drainG item e => rw [e]; exact .inr ⟨nofun, by simp [closeStage]⟩
  | beginF items e => rw [e]; exact .inr ⟨nofun, by simp [closeStage]⟩
  | beginC e => rw [e]; exact .inr ⟨nofun, by simp [closeStage]⟩
  | doneW items lists e ho' ha => rw [ho] at ho'; cases ho'
  | over h =>
    refine .inr ⟨nofun, ?_⟩
    rcases h with e | ⟨i, e⟩ | ⟨i, l, e⟩ <;> rw [e] <;> simp [closeStage]
  | ended lists h he => exact .inl ⟨rfl, he⟩

/-- The end of the loop is final. -/
theorem ended_step (a : QueueAct) (h : s.loop = .ended) : (s.step a).loop = .ended := by
  have hl := loopMoves_step s a
  generalize (s.step a).loop = l at hl
  cases hl with
  | stay => exact h
  | over h' => rcases h' with e | ⟨i, e⟩ | ⟨i, l, e⟩ <;> rw [h] at e <;> cases e
  | ended => rfl
  | _ => simp_all

/-- The environment is closed at the end of the loop only, and is not opened again. -/
theorem env_step (s : FlushQueue) (a : QueueAct) : (s.step a).envOpen = s.envOpen ∨ (s.step a).envOpen = false ∧ ∃ l, s.loop = .closing (some l) := by
  cases a with
  | register events =>
    simp only [step, register, store, putRegister, tell, setCall]
    split_ifs <;> exact .inl rfl
  | flush =>
    simp only [step, flush, putFlush, setCall]
    split_ifs <;> exact .inl rfl
  | enter k =>
    simp only [step, enter, putRegister, putFlush, tell, setCall]
    split
    · split_ifs <;> exact .inl rfl
    · split_ifs <;> exact .inl rfl
    · exact .inl rfl
  | called k => simp only [step, called, setCall]; split <;> exact .inl rfl
  | cancel k => simp only [step, cancel, setCall]; split <;> exact .inl rfl
  | start => simp only [step, start]; split <;> exact .inl rfl
  | get => simp only [step, get]; split <;> exact .inl rfl
  | drain => simp only [step, drain]; split <;> exact .inl rfl
  | begin => simp only [step, begin]; split <;> exact .inl rfl
  | done ok =>
    simp only [step, done, flushedOk, finalise, resolve]
    split
    · split_ifs <;> exact .inl rfl
    · next l e => exact .inr ⟨rfl, l, e⟩
    · exact .inl rfl
  | close => exact .inl rfl
  | stop =>
    simp only [step, stop, finalise, resolve]
    split
    · exact .inl rfl
    · split <;> exact .inl rfl

theorem env_run (capacity limit : Nat) (acts : List QueueAct) (h : ((init capacity limit).run acts).loop = .ended) :
    ((init capacity limit).run acts).envOpen = false := by
  induction acts using List.reverseRecOn with
  | nil => cases h
  | append_singleton l a ih =>
    rw [run_snoc] at h ⊢
    have hl := loopMoves_step ((init capacity limit).run l) a
    rw [h] at hl
    generalize e : FlushAt.ended = l' at hl
    cases hl with
    | stay => exact (env_step _ _).elim (fun h => h.trans (ih e.symm)) And.left
    | ended _ _ he => exact he
    | _ => cases e

/-- How a call of `register` that waits for room goes on. -/
theorem regPutting_step {s : FlushQueue} (hg : Good s) {k : Nat} {events : List Event} (h : s.calls k = .regPutting events) (a : QueueAct) :
    ((s.step a).calls k = .regPutting events ∧ ¬ (a = .enter k ∧ s.full = false)) ∨ (s.step a).calls k = .regCalling events ∨ ∃ r, (s.step a).calls k = .finished r := by
  by_cases ha : a = .enter k ∧ s.full = false
  · obtain ⟨rfl, hf⟩ := ha
    right
    simp only [step, enter, h]
    rw [putRegister_calls, if_pos rfl, hf]
    cases s.queueOpen
    · exact .inr ⟨_, rfl⟩
    · exact .inl rfl
  · have hm := moves_step s a k
    have hlt := hg.lt h nofun
    generalize (s.step a).calls k = c at hm
    cases hm with
    | stay => exact .inl ⟨h, ha⟩
    | reg _ _ hk => omega
    | flush _ hk => omega
    | enterReg e' e => rw [h] at e; cases e; exact .inr (.inl rfl)
    | enterFlush _ e => rw [h] at e; cases e
    | _ => exact .inr (.inr ⟨_, rfl⟩)

/-- How a call of `flush` that waits for room goes on. -/
theorem flushPutting_step {s : FlushQueue} (hg : Good s) {k seen : Nat} (h : s.calls k = .flushPutting seen) (a : QueueAct) :
    ((s.step a).calls k = .flushPutting seen ∧ ¬ (a = .enter k ∧ s.full = false)) ∨ (s.step a).calls k = .flushWaiting seen ∨ ∃ r, (s.step a).calls k = .finished r := by
  by_cases ha : a = .enter k ∧ s.full = false
  · obtain ⟨rfl, hf⟩ := ha
    right
    simp only [step, enter, h]
    rw [putFlush_calls, if_pos rfl, hf]
    cases s.queueOpen
    · exact .inr ⟨_, rfl⟩
    · exact .inl rfl
  · have hm := moves_step s a k
    have hlt := hg.lt h nofun
    generalize (s.step a).calls k = c at hm
    cases hm with
    | stay => exact .inl ⟨h, ha⟩
    | reg _ _ hk => omega
    | flush _ hk => omega
    | enterReg e' e => rw [h] at e; cases e
    | enterFlush _ e => rw [h] at e; cases e; exact .inr (.inl rfl)
    | _ => exact .inr (.inr ⟨_, rfl⟩)

/-- How a call of `register` that waits for the callback goes on. -/
theorem regCalling_step {s : FlushQueue} (hg : Good s) {k : Nat} {events : List Event} (h : s.calls k = .regCalling events) (a : QueueAct) :
    ((s.step a).calls k = .regCalling events ∧ a ≠ .called k) ∨ ∃ r, (s.step a).calls k = .finished r := by
  by_cases ha : a = .called k
  · subst ha
    exact .inr ⟨.done, by simp [step, called, h, setCall]⟩
  · have hm := moves_step s a k
    have hlt := hg.lt h nofun
    generalize (s.step a).calls k = c at hm
    cases hm with
    | stay => exact .inl ⟨h, ha⟩
    | reg _ _ hk => omega
    | flush _ hk => omega
    | enterReg e' e => rw [h] at e; cases e
    | enterFlush _ e => rw [h] at e; cases e
    | _ => exact .inr ⟨_, rfl⟩

/-- A loop that was cancelled before it started does nothing. -/
theorem never_step {s : FlushQueue} (hg : Good s) (h : s.loop = .never) {k seen : Nat} (hc : s.calls k = .flushWaiting seen) (he : s.envOpen = true) {a : QueueAct}
    (ha : a ≠ .cancel k) : (s.step a).loop = .never ∧ (s.step a).calls k = .flushWaiting seen ∧ (s.step a).envOpen = true := by
  have hl : (s.step a).loop = .never := by
    have hl := loopMoves_step s a
    generalize (s.step a).loop = l at hl
    cases hl with
    | stay => exact h
    | never => rfl
    | over h' => rcases h' with e | ⟨i, e⟩ | ⟨i, l, e⟩ <;> rw [h] at e <;> cases e
    | _ => simp_all
  refine ⟨hl, ?_, ?_⟩
  · have hlt := hg.lt hc nofun
    have hin := (hg.waiting k seen hc).1
    have hw : (s.step a).calls k = s.calls k ∨ (a = .stop ∨ ∃ ok, a = .done ok) := by
      cases a with
      | register events => exact .inl (register_calls events (by omega))
      | flush => exact .inl (flush_calls (by omega))
      | enter j =>
        by_cases hj : j = k
        · subst hj; left; simp only [step, enter, hc]
        · left
          simp only [step, enter]
          split
          · rw [putRegister_calls, if_neg (Ne.symm hj)]
          · rw [putFlush_calls, if_neg (Ne.symm hj)]
          · rfl
      | called j =>
        left
        simp only [step, called]
        split
        · next e he =>
          rw [setCall_calls, if_neg]
          rintro rfl
          rw [hc] at he; cases he
        · rfl
      | cancel j =>
        left
        simp only [step, cancel]
        split
        · rfl
        · rfl
        · rw [setCall_calls, if_neg]
          rintro rfl
          exact ha rfl
      | start => left; simp only [step, start, h]
      | get => left; simp only [step, get, h]
      | drain => left; simp only [step, drain, h]
      | begin => left; simp only [step, begin, h]
      | done ok => exact .inr (.inr ⟨ok, rfl⟩)
      | close => exact .inl rfl
      | stop => exact .inr (.inl rfl)
    rcases hw with e | rfl | ⟨ok, rfl⟩
    · rw [e, hc]
    · simp only [step, stop, h]
      split <;> exact hc
    · simp only [step, done, h, hc]
  · rcases env_step s a with e | ⟨_, l, e⟩
    · rw [e, he]
    · rw [h] at e; cases e

end FlushQueue
end HatEvent
