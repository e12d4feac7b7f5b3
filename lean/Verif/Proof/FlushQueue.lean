import Verif.Spec.FlushQueue
import Verif.Proof.Tactics
import Mathlib.Data.List.Induction

/-!
# Invariants of the flush queue
-/

namespace HatEvent
open Spec

namespace FlushAt

/-- Items the loop has taken. -/
def held : FlushAt → List (Option Nat)
  | .got item => [item]
  | .ready items => items
  | .flushing items _ => items
  | _ => []

/-- Lists a flush is writing. -/
def lists : FlushAt → List (List Event)
  | .flushing _ lists => lists
  | .closing (some lists) => lists
  | _ => []

/-- The loop is at its end. -/
def isOver : FlushAt → Bool
  | .closing _ => true
  | .ended => true
  | _ => false

end FlushAt

namespace FlushQueue

/-- What always holds. -/
structure Good (s : FlushQueue) : Prop where
  openQ : s.queueOpen = !s.loop.isOver
  openB : s.isOpen = true → s.loop.isOver = false
  emptyQ : s.loop.isOver = true → s.queue = []
  fresh : ∀ k, s.nextCall ≤ k → s.calls k = .absent
  items : ∀ k, some k ∈ s.queue ++ s.loop.held → (∃ seen, s.calls k = .flushWaiting seen) ∨ ∃ r, s.calls k = .finished r
  waiting : ∀ k seen, s.calls k = .flushWaiting seen → some k ∈ s.queue ++ s.loop.held ∧ seen ≤ s.accepted.length
  putting : ∀ k seen, s.calls k = .flushPutting seen → seen ≤ s.accepted.length
  inFlush : ∀ items lists, s.loop = .flushing items lists → ∀ k seen, some k ∈ items → s.calls k = .flushWaiting seen →
    seen ≤ (s.flushed ++ lists).length
  split : s.queueOpen = true → s.accepted = s.flushed ++ s.loop.lists ++ s.registered

theorem good_init (capacity limit : Nat) : Good (init capacity limit) where
  openQ := rfl
  openB _ := rfl
  emptyQ h := by cases h
  fresh _ _ := rfl
  items k h := by cases h
  waiting k seen h := by cases h
  putting k seen h := by cases h
  inFlush items lists h := by cases h
  split _ := rfl

variable {s : FlushQueue}

theorem Good.lt (h : Good s) {k : Nat} {c : QueueCall} (hc : s.calls k = c) (hn : c ≠ .absent) : k < s.nextCall := by
  by_contra hlt
  exact hn (by rw [← hc]; exact h.fresh k (by omega))

/-- A call moves on, not to waiting for its future. -/
theorem Good.setCall (h : Good s) {k : Nat} {c : QueueCall} (hk : k < s.nextCall) (hw : ∀ seen, c ≠ .flushWaiting seen)
    (hp : ∀ seen, c = .flushPutting seen → seen ≤ s.accepted.length)
    (hi : some k ∈ s.queue ++ s.loop.held → ∃ r, c = .finished r) : Good (s.setCall k c) where
  openQ := h.openQ
  openB := h.openB
  emptyQ := h.emptyQ
  fresh j hj := by
    simp only [FlushQueue.setCall] at hj ⊢
    rw [if_neg (by omega)]
    exact h.fresh j hj
  items j hj := by
    simp only [FlushQueue.setCall] at hj ⊢
    by_cases e : j = k
    · subst e
      rw [if_pos rfl]
      exact .inr (hi hj)
    · rw [if_neg e]
      exact h.items j hj
  waiting j seen hj := by
    simp only [FlushQueue.setCall] at hj ⊢
    by_cases e : j = k
    · rw [if_pos e] at hj
      exact absurd hj (hw seen)
    · rw [if_neg e] at hj
      exact h.waiting j seen hj
  putting j seen hj := by
    simp only [FlushQueue.setCall] at hj ⊢
    by_cases e : j = k
    · rw [if_pos e] at hj
      exact hp seen hj
    · rw [if_neg e] at hj
      exact h.putting j seen hj
  inFlush items lists hl j seen hm hj := by
    simp only [FlushQueue.setCall] at hj hl ⊢
    by_cases e : j = k
    · rw [if_pos e] at hj
      exact absurd hj (hw seen)
    · rw [if_neg e] at hj
      exact h.inFlush items lists hl j seen hm hj
  split := h.split

/-- Calls that are not in the queue. -/
theorem Good.notIn (h : Good s) {k : Nat} (h1 : ∀ seen, s.calls k ≠ .flushWaiting seen) (h2 : ∀ r, s.calls k ≠ .finished r) :
    some k ∉ s.queue ++ s.loop.held := by
  intro hm
  rcases h.items k hm with ⟨seen, e⟩ | ⟨r, e⟩
  · exact h1 seen e
  · exact h2 r e

/-- A request without future is put. -/
theorem Good.putNone (h : Good s) (hq : s.queueOpen = true) : Good { s with queue := s.queue ++ [none] } where
  openQ := h.openQ
  openB := h.openB
  emptyQ ho := by
    have := h.openQ
    rw [hq, show s.loop.isOver = true from ho] at this
    cases this
  fresh := h.fresh
  items k hk := h.items k (by simpa using hk)
  waiting k seen hk := by
    obtain ⟨h1, h2⟩ := h.waiting k seen hk
    exact ⟨by simpa using h1, h2⟩
  putting := h.putting
  inFlush := h.inFlush
  split := h.split

theorem Good.tell (h : Good s) {k : Nat} {events : List Event} (hk : k < s.nextCall) (hi : some k ∉ s.queue ++ s.loop.held) :
    Good (s.tell k events) := by
  have := h.setCall (k := k) (c := .regCalling events) hk nofun nofun (fun hm => absurd hm hi)
  exact { this with }

theorem Good.putRegister (h : Good s) {k : Nat} {events : List Event} (hk : k < s.nextCall) (hi : some k ∉ s.queue ++ s.loop.held) :
    Good (s.putRegister k events) := by
  unfold FlushQueue.putRegister
  split
  · next hq =>
    split
    · exact h.setCall hk nofun nofun fun hm => absurd hm hi
    · exact (h.putNone hq).tell hk (by simpa using hi)
  · exact h.setCall hk nofun nofun fun _ => ⟨_, rfl⟩

theorem Good.putFlush (h : Good s) {k seen : Nat} (hk : k < s.nextCall) (hi : some k ∉ s.queue ++ s.loop.held) (hs : seen ≤ s.accepted.length) :
    Good (s.putFlush k seen) := by
  unfold FlushQueue.putFlush
  split
  · next hq =>
    split
    · exact h.setCall hk nofun (fun _ e => by cases e; exact hs) fun hm => absurd hm hi
    · have hno : s.loop.isOver = false := by
        have := h.openQ
        rw [hq] at this
        cases ho : s.loop.isOver
        · rfl
        · rw [ho] at this; cases this
      exact {
        openQ := h.openQ
        openB := h.openB
        emptyQ := fun ho => by
          have ho : s.loop.isOver = true := ho
          rw [hno] at ho; cases ho
        fresh := fun j hj => by
          simp only [FlushQueue.setCall] at hj ⊢
          rw [if_neg (by omega)]
          exact h.fresh j hj
        items := fun j hj => by
          simp only [FlushQueue.setCall] at hj ⊢
          by_cases e : j = k
          · rw [if_pos e]; exact .inl ⟨_, rfl⟩
          · rw [if_neg e]
            refine h.items j ?_
            simpa [e] using hj
        waiting := fun j sn hj => by
          simp only [FlushQueue.setCall] at hj ⊢
          by_cases e : j = k
          · rw [if_pos e] at hj
            cases hj
            exact ⟨by simp [e], hs⟩
          · rw [if_neg e] at hj
            obtain ⟨h1, h2⟩ := h.waiting j sn hj
            refine ⟨?_, h2⟩
            simp only [List.mem_append] at h1 ⊢
            tauto
        putting := fun j sn hj => by
          simp only [FlushQueue.setCall] at hj ⊢
          by_cases e : j = k
          · rw [if_pos e] at hj; cases hj
          · rw [if_neg e] at hj; exact h.putting j sn hj
        inFlush := fun items lists hl j sn hm hj => by
          simp only [FlushQueue.setCall] at hj hl ⊢
          by_cases e : j = k
          · subst e
            refine absurd ?_ hi
            rw [hl]
            exact List.mem_append_right _ hm
          · rw [if_neg e] at hj
            exact h.inFlush items lists hl j sn hm hj
        split := h.split }
  · exact h.setCall hk nofun nofun fun _ => ⟨_, rfl⟩

theorem Good.next (h : Good s) : Good { s with nextCall := s.nextCall + 1 } :=
  { h with fresh := fun k hk => h.fresh k (by have : s.nextCall + 1 ≤ k := hk; omega) }

theorem Good.notIn_next (h : Good s) : some s.nextCall ∉ s.queue ++ s.loop.held :=
  h.notIn (by rw [h.fresh _ (Nat.le_refl _)]; exact nofun) (by rw [h.fresh _ (Nat.le_refl _)]; exact nofun)

theorem Good.register (h : Good s) (events : List Event) : Good (s.register events) := by
  unfold FlushQueue.register
  simp only
  split
  · unfold FlushQueue.store
    simp only
    have hg : Good { s with nextCall := s.nextCall + 1, registered := s.registered ++ [events], accepted := s.accepted ++ [events], count := s.count + events.length } :=
      { h.next with
        waiting := fun k seen hk => by
          obtain ⟨h1, h2⟩ := h.waiting k seen hk
          exact ⟨h1, by simp; omega⟩
        putting := fun k seen hk => by
          have := h.putting k seen hk
          simp; omega
        split := fun hq => by
          show s.accepted ++ [events] = _
          rw [h.split hq]
          simp }
    split
    · exact hg.putRegister (by simp) h.notIn_next
    · exact hg.tell (by simp) h.notIn_next
  · exact h.next.setCall (by simp) nofun nofun fun _ => ⟨_, rfl⟩

theorem Good.flush (h : Good s) : Good s.flush :=
  h.next.putFlush (by simp) h.notIn_next (Nat.le_refl _)

theorem Good.enter (h : Good s) (k : Nat) : Good (s.enter k) := by
  unfold FlushQueue.enter
  split
  · next events e => exact h.putRegister (h.lt e nofun) (h.notIn (by rw [e]; exact nofun) (by rw [e]; exact nofun))
  · next seen e => exact h.putFlush (h.lt e nofun) (h.notIn (by rw [e]; exact nofun) (by rw [e]; exact nofun)) (h.putting k seen e)
  · exact h

theorem Good.called (h : Good s) (k : Nat) : Good (s.called k) := by
  unfold FlushQueue.called
  split
  · next events e => exact h.setCall (h.lt e nofun) nofun nofun fun _ => ⟨_, rfl⟩
  · exact h

theorem Good.cancel (h : Good s) (k : Nat) : Good (s.cancel k) := by
  unfold FlushQueue.cancel
  split
  · exact h
  · exact h
  · next h1 h2 =>
    exact h.setCall (h.lt rfl h1) nofun nofun fun _ => ⟨_, rfl⟩

/-- Futures get a result. -/
theorem resolve_calls (items : List (Option Nat)) (r : QueueEnd) (k : Nat) :
    (s.resolve items r).calls k = s.calls k ∨
      (s.resolve items r).calls k = .finished r ∧ some k ∈ items ∧ ∃ seen, s.calls k = .flushWaiting seen := by
  simp only [resolve]
  split
  · next seen e =>
    split
    · next hm => exact .inr ⟨rfl, hm, seen, e⟩
    · exact .inl e.symm
  · exact .inl rfl

theorem resolve_waiting {items : List (Option Nat)} {r : QueueEnd} {k seen : Nat} (h : (s.resolve items r).calls k = .flushWaiting seen) :
    s.calls k = .flushWaiting seen ∧ some k ∉ items := by
  simp only [resolve] at h
  split at h
  · next sn e =>
    split at h
    · cases h
    · next hm => cases h; exact ⟨e, hm⟩
  · next hne => exact absurd h (hne _)

theorem resolve_absent {items : List (Option Nat)} {r : QueueEnd} {k : Nat} (h : s.calls k = .absent) : (s.resolve items r).calls k = .absent := by
  simp only [resolve, h]

theorem resolve_putting {items : List (Option Nat)} {r : QueueEnd} {k seen : Nat} (h : (s.resolve items r).calls k = .flushPutting seen) :
    s.calls k = .flushPutting seen := by
  rcases resolve_calls (s := s) items r k with e | ⟨e, _⟩
  · rw [← e]; exact h
  · rw [e] at h; cases h

theorem Good.finalise (h : Good s) (items : List (Option Nat)) (hi : items = s.loop.held) : Good (s.finalise items) where
  openQ := rfl
  openB ho := by cases ho
  emptyQ _ := rfl
  fresh k hk := resolve_absent (h.fresh k hk)
  items k hk := by cases hk
  waiting k seen hk := by
    obtain ⟨h1, h2⟩ := resolve_waiting hk
    have := (h.waiting k seen h1).1
    rw [hi] at h2
    exact absurd (by simp only [List.mem_append] at this ⊢; tauto) h2
  putting k seen hk := h.putting k seen (resolve_putting hk)
  inFlush items lists hl := by cases hl
  split hq := by cases hq

theorem Good.start (h : Good s) : Good s.start := by
  unfold FlushQueue.start
  split
  · next e =>
    rw [show s = { s with loop := .spawned } by rw [← e]] at h
    exact {
      openQ := h.openQ, openB := h.openB, emptyQ := h.emptyQ, fresh := h.fresh, items := h.items, waiting := h.waiting, putting := h.putting
      inFlush := fun _ _ e => by cases e
      split := h.split }
  · exact h

theorem Good.get (h : Good s) : Good s.get := by
  unfold FlushQueue.get
  split
  · next item rest e1 e2 =>
    have hm : ∀ k, some k ∈ rest ++ [item] ↔ some k ∈ s.queue ++ s.loop.held := by
      intro k; rw [e1, e2]; simp [FlushAt.held, or_comm]
    exact {
      openQ := by rw [h.openQ, e1]; rfl
      openB := fun _ => rfl
      emptyQ := fun e => by cases e
      fresh := h.fresh
      items := fun k hk => h.items k ((hm k).1 hk)
      waiting := fun k seen hk => ⟨(hm k).2 (h.waiting k seen hk).1, (h.waiting k seen hk).2⟩
      putting := h.putting
      inFlush := fun _ _ e => by cases e
      split := fun hq => by rw [h.split hq, e1]; rfl }
  · exact h

theorem Good.drain (h : Good s) : Good s.drain := by
  unfold FlushQueue.drain
  split
  · next e1 =>
    have hm : ∀ k, some k ∈ [] ++ s.queue ↔ some k ∈ s.queue ++ s.loop.held := by
      intro k; rw [e1]; simp [FlushAt.held]
    exact {
      openQ := by rw [h.openQ, e1]; rfl
      openB := fun _ => rfl
      emptyQ := fun e => by cases e
      fresh := h.fresh
      items := fun k hk => h.items k ((hm k).1 hk)
      waiting := fun k seen hk => ⟨(hm k).2 (h.waiting k seen hk).1, (h.waiting k seen hk).2⟩
      putting := h.putting
      inFlush := fun _ _ e => by cases e
      split := fun hq => by rw [h.split hq, e1]; rfl }
  · next item e1 =>
    have hm : ∀ k, some k ∈ [] ++ (item :: s.queue) ↔ some k ∈ s.queue ++ s.loop.held := by
      intro k; rw [e1]; simp [FlushAt.held, or_comm]
    exact {
      openQ := by rw [h.openQ, e1]; rfl
      openB := fun _ => rfl
      emptyQ := fun e => by cases e
      fresh := h.fresh
      items := fun k hk => h.items k ((hm k).1 hk)
      waiting := fun k seen hk => ⟨(hm k).2 (h.waiting k seen hk).1, (h.waiting k seen hk).2⟩
      putting := h.putting
      inFlush := fun _ _ e => by cases e
      split := fun hq => by rw [h.split hq, e1]; rfl }
  · exact h

theorem Good.begin (h : Good s) : Good s.begin := by
  unfold FlushQueue.begin
  split
  · next items e1 =>
    have hq : s.queueOpen = true := by rw [h.openQ, e1]; rfl
    have hs := h.split hq
    rw [e1] at hs
    exact {
      openQ := by rw [h.openQ, e1]; rfl
      openB := fun _ => rfl
      emptyQ := fun e => by cases e
      fresh := h.fresh
      items := fun k hk => h.items k (by rw [e1]; exact hk)
      waiting := fun k seen hk => by
        have := h.waiting k seen hk
        rw [e1] at this
        exact this
      putting := h.putting
      inFlush := fun _ _ e k seen _ hk => by
        cases e
        have := (h.waiting k seen hk).2
        rw [hs] at this
        simpa [FlushAt.lists] using this
      split := fun _ => by
        show s.accepted = _
        rw [hs]
        simp [FlushAt.lists] }
  · next e1 =>
    exact {
      openQ := by rw [h.openQ, e1]; rfl
      openB := fun ho => by have := h.openB ho; rw [e1] at this; cases this
      emptyQ := fun _ => h.emptyQ (by rw [e1]; rfl)
      fresh := h.fresh
      items := fun k hk => h.items k (by rw [e1]; exact hk)
      waiting := fun k seen hk => by
        have := h.waiting k seen hk
        rw [e1] at this
        exact this
      putting := h.putting
      inFlush := fun _ _ e => by cases e
      split := fun hq => by
        have hq : s.queueOpen = true := hq
        rw [h.openQ, e1] at hq
        cases hq }
  · exact h

theorem Good.flushedMore (h : Good s) {items : List (Option Nat)} {lists : List (List Event)} (e : s.loop = .flushing items lists) :
    Good { s with flushed := s.flushed ++ lists, loop := .ready items } where
  openQ := by rw [h.openQ, e]; rfl
  openB _ := rfl
  emptyQ e := by cases e
  fresh := h.fresh
  items k hk := h.items k (by rw [e]; exact hk)
  waiting k seen hk := by
    have := h.waiting k seen hk
    rw [e] at this
    exact this
  putting := h.putting
  inFlush _ _ e := by cases e
  split hq := by
    show s.accepted = _
    rw [h.split hq, e]
    simp [FlushAt.lists]

theorem Good.done (h : Good s) (ok : Bool) : Good (s.done ok) := by
  unfold FlushQueue.done
  split
  · next items lists e1 =>
    have hf := h.flushedMore e1
    split
    · unfold FlushQueue.flushedOk
      simp only
      split
      · exact {
          openQ := hf.openQ
          openB := fun _ => rfl
          emptyQ := fun e => by cases e
          fresh := fun k hk => resolve_absent (s := { s with flushed := s.flushed ++ lists }) (h.fresh k hk)
          items := fun k hk => by
            have hk : some k ∈ s.queue := by simpa [FlushAt.held, resolve] using hk
            have := h.items k (List.mem_append_left _ hk)
            rcases resolve_calls (s := { s with flushed := s.flushed ++ lists }) items .done k with e | ⟨e, _⟩
            · rcases this with ⟨seen, e'⟩ | ⟨r, e'⟩
              · exact .inl ⟨seen, e.trans e'⟩
              · exact .inr ⟨r, e.trans e'⟩
            · exact .inr ⟨_, e⟩
          waiting := fun k seen hk => by
            obtain ⟨h1, h2⟩ := resolve_waiting hk
            obtain ⟨h3, h4⟩ := h.waiting k seen h1
            rw [e1] at h3
            refine ⟨?_, h4⟩
            simp only [FlushAt.held, List.mem_append] at h3
            simp only [FlushAt.held, resolve, List.append_nil]
            tauto
          putting := fun k seen hk => h.putting k seen (resolve_putting (s := { s with flushed := s.flushed ++ lists }) hk)
          inFlush := fun _ _ e => by cases e
          split := fun hq => hf.split hq }
      · have := hf.finalise items rfl
        exact this
    · exact h.finalise items (by rw [e1]; rfl)
  · next lists e1 =>
    exact {
      openQ := by rw [h.openQ, e1]; rfl
      openB := fun ho => by have := h.openB ho; rw [e1] at this; cases this
      emptyQ := fun _ => h.emptyQ (by rw [e1]; rfl)
      fresh := h.fresh
      items := fun k hk => h.items k (by rw [e1]; exact hk)
      waiting := fun k seen hk => by
        have := h.waiting k seen hk
        rw [e1] at this
        exact this
      putting := h.putting
      inFlush := fun _ _ e => by cases e
      split := fun hq => by
        have hq : s.queueOpen = true := hq
        rw [h.openQ, e1] at hq
        cases hq }
  · exact h

theorem Good.stop (h : Good s) : Good s.stop := by
  unfold FlushQueue.stop
  split
  · exact h
  · next ho =>
    split
    · next e1 =>
      exact {
        openQ := by rw [h.openQ, e1]; rfl
        openB := fun _ => rfl
        emptyQ := fun e => by cases e
        fresh := h.fresh
        items := fun k hk => h.items k (by rw [e1]; exact hk)
        waiting := fun k seen hk => by
          have := h.waiting k seen hk
          rw [e1] at this
          exact this
        putting := h.putting
        inFlush := fun _ _ e => by cases e
        split := fun hq => by rw [h.split hq, e1]; rfl }
    · next e1 => exact h.finalise _ (by rw [e1]; rfl)
    · next e1 => exact h.finalise _ (by rw [e1]; rfl)
    · exact h

theorem Good.step (h : Good s) (a : QueueAct) : Good (s.step a) := by
  cases a with
  | register events => exact h.register events
  | flush => exact h.flush
  | enter k => exact h.enter k
  | called k => exact h.called k
  | cancel k => exact h.cancel k
  | start => exact h.start
  | get => exact h.get
  | drain => exact h.drain
  | begin => exact h.begin
  | done ok => exact h.done ok
  | close => exact { h with openB := fun e => by cases e }
  | stop => exact h.stop

theorem run_snoc (s : FlushQueue) (l : List QueueAct) (a : QueueAct) : s.run (l ++ [a]) = (s.run l).step a := by
  simp [run, List.foldl_append]

theorem run_append (s : FlushQueue) (l m : List QueueAct) : s.run (l ++ m) = (s.run l).run m := by
  simp [run, List.foldl_append]

theorem Good.run (h : Good s) (acts : List QueueAct) : Good (s.run acts) := by
  induction acts using List.reverseRecOn with
  | nil => exact h
  | append_singleton l a ih => rw [run_snoc]; exact ih.step a

theorem good_run (capacity limit : Nat) (acts : List QueueAct) : Good ((init capacity limit).run acts) := (good_init capacity limit).run acts

end FlushQueue
end HatEvent
