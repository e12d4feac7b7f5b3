import Verif.Proof.FlushQueueBound
import Verif.Proof.FlushQueueLive
import Verif.Proof.Forever

/-!
# The flush queue of the backend (C95, C96)
-/

namespace HatEvent
open Spec FlushQueue

/-! ## C95 -/

theorem room_run (capacity limit : Nat) (acts : List QueueAct) : Room ((FlushQueue.init capacity limit).run acts) := by
  induction acts using List.reverseRecOn with
  | nil => exact ⟨fun _ => Nat.zero_le _, fun _ => Nat.zero_le _, rfl⟩
  | append_singleton l a ih => rw [FlushQueue.run_snoc]; exact room_step ih a

theorem sizes_run (capacity limit : Nat) (acts : List QueueAct) :
    ((FlushQueue.init capacity limit).run acts).capacity = capacity ∧ ((FlushQueue.init capacity limit).run acts).limit = limit := by
  induction acts using List.reverseRecOn with
  | nil => exact ⟨rfl, rfl⟩
  | append_singleton l a ih =>
    rw [FlushQueue.run_snoc]
    have := sizes_step ((FlushQueue.init capacity limit).run l) a
    exact ⟨this.1.trans ih.1, this.2.trans ih.2⟩

/-- **C95** The number of events that were registered and that no flush has begun to write stays bounded, however long flushes take and however many calls are made: `register`
waits.  `capacity` is the size of the queue, `limit` the number of events from which on flushes are requested, `B` the length of the longest list that is registered and `P` the
number of callers of `register` that wait at the same time. -/
theorem C95_bound {capacity limit B P : Nat} (hc : 0 < capacity) (acts : List QueueAct)
    (hB : ∀ events, .register events ∈ acts → events.length ≤ B) (hn : NoCancel acts) (hp : AtMostWaiting capacity limit P acts) :
    unflushed ((FlushQueue.init capacity limit).run acts) ≤ limit + B * (2 * capacity + 1 + P) := by
  rw [← (room_run capacity limit acts).count]
  suffices key : Bounded B ((FlushQueue.init capacity limit).run acts) ∧
      ((FlushQueue.init capacity limit).run acts).count ≤ limit + B * (2 * capacity + 1 + P) from key.2
  induction acts using List.reverseRecOn with
  | nil => exact ⟨fun _ => Nat.zero_le _, Nat.zero_le _⟩
  | append_singleton l a ih =>
    obtain ⟨h1, h2⟩ := ih (fun e he => hB e (List.mem_append_left _ he)) (fun k hk => hn k (List.mem_append_left _ hk))
      fun before hb => hp before (hb.trans (List.prefix_append l [a]))
    have hg := good_run capacity limit l
    have hb := bounded_step hg h1 a (fun e he => hB e (by simp [he])) (fun k hk => hn k (by simp [hk]))
    rw [FlushQueue.run_snoc]
    refine ⟨hb, ?_⟩
    rcases count_step ((FlushQueue.init capacity limit).run l) a with h | ⟨events, rfl, ho⟩
    · omega
    · have hq : (((FlushQueue.init capacity limit).run l).step (.register events)).queueOpen = true :=
        register_open (by rw [hg.openQ, hg.openB ho]; rfl) events
      have hcount := hb hq
      have hr := room_run capacity limit (l ++ [.register events])
      have hw := hp _ (List.prefix_refl _)
      have hs := sizes_run capacity limit (l ++ [.register events])
      rw [FlushQueue.run_snoc] at hr hw hs
      rw [waitingRegs_length] at hw
      rw [hs.2] at hcount
      refine Nat.le_trans hcount (Nat.add_le_add_left (Nat.mul_le_mul_left _ ?_) _)
      unfold FlushQueue.out
      have e1 := nones_le (((FlushQueue.init capacity limit).run l).step (.register events)).queue
      have e2 := nones_le (taken (((FlushQueue.init capacity limit).run l).step (.register events)).loop)
      have e3 := hr.queue (by rw [hs.1]; exact hc)
      have e4 := hr.taken (by rw [hs.1]; exact hc)
      rw [hs.1] at e3 e4
      omega

/-- An event. -/
def exQueued : Event := ⟨⟨1, 1, 1⟩, ["a"], ⟨0, 0⟩, none, none⟩

/-- Registrations during a flush: the third one waits. -/
def exBusyQueue : List QueueAct :=
  [.start, .drain, .begin, .register [exQueued], .register [exQueued, exQueued], .register [exQueued]]

example : (∀ events, .register events ∈ exBusyQueue → events.length ≤ 2) ∧ NoCancel exBusyQueue ∧ AtMostWaiting 1 1 1 exBusyQueue ∧
    waitingRegs ((FlushQueue.init 1 1).run exBusyQueue) = [2] ∧ unflushed ((FlushQueue.init 1 1).run exBusyQueue) = 4 := by
  refine ⟨?_, ?_, ?_, rfl, rfl⟩
  · intro events h
    simp only [exBusyQueue, List.mem_cons, reduceCtorEq, QueueAct.register.injEq, List.not_mem_nil, or_false, false_or] at h
    rcases h with rfl | rfl | rfl <;> decide
  · intro k h
    simp [exBusyQueue] at h
  · intro before hb
    rw [List.prefix_iff_eq_take.1 hb]
    match before.length with
    | 0 | 1 | 2 | 3 | 4 | 5 => decide
    | n + 6 =>
      rw [List.take_of_length_le (by simp [exBusyQueue])]
      decide

/-- What a call of `flush` waits for. -/
inductive FlushOwn (s : FlushQueue) (before : List (List Event)) : QueueCall → Prop
  | putting : FlushOwn s before (.flushPutting before.length)
  | waiting : FlushOwn s before (.flushWaiting before.length)
  | finished {r : QueueEnd} (h : r = .done → before <+: s.flushed) : FlushOwn s before (.finished r)

theorem flushOwn_step {s : FlushQueue} (hg : Good s) {before : List (List Event)} (hb : before <+: s.accepted) {k : Nat} (hk : k < s.nextCall)
    (h : FlushOwn s before (s.calls k)) (a : QueueAct) : FlushOwn (s.step a) before ((s.step a).calls k) := by
  obtain ⟨g1, g2, _⟩ := grows_step s a
  have hm := moves_step s a k
  generalize (s.step a).calls k = c at hm
  cases hm with
  | stay =>
    generalize s.calls k = c at h
    cases h with
    | putting => exact .putting
    | waiting => exact .waiting
    | finished h => exact .finished fun e => (h e).trans g2
  | reg events _ hk' => omega
  | flush _ hk' => omega
  | enterReg events e => rw [e] at h; cases h
  | failReg events e => rw [e] at h; cases h
  | enterFlush seen e =>
    rw [e] at h
    cases h
    exact .waiting
  | failFlush seen e => exact .finished nofun
  | called events e => rw [e] at h; cases h
  | cancel => exact .finished nofun
  | flushed seen e items lists hl hmem ha ho hf =>
    rw [e] at h
    cases h
    refine .finished fun _ => ?_
    have hq : s.queueOpen = true := by rw [hg.openQ, hg.openB ho]; rfl
    have hlen := hg.inFlush items lists hl k _ hmem e
    have hsplit := hg.split hq
    rw [hf]
    refine List.prefix_of_prefix_length_le hb ?_ hlen
    rw [hsplit, hl]
    exact List.prefix_append _ _
  | refused seen e => exact .finished nofun

/-- **C95** When a call of `flush` returns, everything registered before the call has been written, also if the call had to wait for room in the queue. -/
theorem C95_flush (capacity limit : Nat) (before after : List QueueAct) {k : Nat} (hk : k = ((FlushQueue.init capacity limit).run before).nextCall)
    (h : ((FlushQueue.init capacity limit).run (before ++ .flush :: after)).calls k = .finished .done) :
    ((FlushQueue.init capacity limit).run before).accepted <+: ((FlushQueue.init capacity limit).run (before ++ .flush :: after)).flushed := by
  suffices key : ∀ after, FlushOwn ((FlushQueue.init capacity limit).run (before ++ .flush :: after)) ((FlushQueue.init capacity limit).run before).accepted
      (((FlushQueue.init capacity limit).run (before ++ .flush :: after)).calls k) ∧
      ((FlushQueue.init capacity limit).run before).accepted <+: ((FlushQueue.init capacity limit).run (before ++ .flush :: after)).accepted ∧
      k < ((FlushQueue.init capacity limit).run (before ++ .flush :: after)).nextCall by
    have := (key after).1
    rw [h] at this
    cases this with
    | finished h => exact h rfl
  intro after
  clear h
  induction after using List.reverseRecOn with
  | nil =>
    rw [FlushQueue.run_snoc]
    have hm := moves_step ((FlushQueue.init capacity limit).run before) .flush k
    have hg := (good_run capacity limit before).fresh k (by omega)
    refine ⟨?_, (grows_step _ _).1, ?_⟩
    · simp only [FlushQueue.step, FlushQueue.flush]
      rw [putFlush_calls, if_pos hk]
      split
      · split
        · exact .putting
        · exact .waiting
      · exact .finished nofun
    · rw [hk]
      simp only [FlushQueue.step, FlushQueue.flush, putFlush, setCall]
      split_ifs <;> exact Nat.lt_succ_self _
  | append_singleton l a ih =>
    obtain ⟨h1, h2, h3⟩ := ih
    rw [show before ++ .flush :: (l ++ [a]) = (before ++ .flush :: l) ++ [a] by simp, FlushQueue.run_snoc]
    obtain ⟨g1, g2, g3⟩ := grows_step ((FlushQueue.init capacity limit).run (before ++ .flush :: l)) a
    exact ⟨flushOwn_step (good_run capacity limit _) h2 h3 h1 a, h2.trans g1, by omega⟩

/-- A call of `flush` that waits for room. -/
example : ((FlushQueue.init 1 1).run ([.start, .flush, .register [exQueued]] ++ .flush :: [.drain, .enter 2, .begin, .done true, .drain, .begin, .done true])).calls 2 =
    .finished .done ∧ ((FlushQueue.init 1 1).run [.start, .flush, .register [exQueued]]).accepted = [[exQueued]] := ⟨rfl, rfl⟩

/-- Nothing is left behind as long as no flush fails. -/
structure AllKept (s : FlushQueue) : Prop where
  split : s.accepted = s.flushed ++ s.loop.lists ++ s.registered
  last : s.loop.isOver = true → s.loop = .closing none ∨ s.registered = []

theorem allKept_step {s : FlushQueue} (hg : Good s) (h : AllKept s) {a : QueueAct} (ha : a ≠ .done false) : AllKept (s.step a) := by
  have hput : ∀ (s : FlushQueue) k events, AllKept s → AllKept (s.putRegister k events) := by
    intro s k events h
    unfold putRegister
    split_ifs
    · exact ⟨h.split, h.last⟩
    · exact ⟨h.split, h.last⟩
    · exact ⟨h.split, h.last⟩
  have hputF : ∀ (s : FlushQueue) k seen, AllKept s → AllKept (s.putFlush k seen) := by
    intro s k seen h
    unfold putFlush
    split_ifs
    · exact ⟨h.split, h.last⟩
    · exact ⟨h.split, h.last⟩
    · exact ⟨h.split, h.last⟩
  have hfin : ∀ (s : FlushQueue) items, s.accepted = s.flushed ++ s.registered → AllKept (s.finalise items) := by
    intro s items h
    exact ⟨by show s.accepted = s.flushed ++ [] ++ s.registered; rw [h]; simp, fun _ => .inl rfl⟩
  cases a with
  | register events =>
    simp only [FlushQueue.step, FlushQueue.register]
    split
    · next ho =>
      have h' : AllKept { s with nextCall := s.nextCall + 1, registered := s.registered ++ [events], accepted := s.accepted ++ [events], count := s.count + events.length } :=
        ⟨by show s.accepted ++ [events] = _; rw [h.split]; simp, fun e => by
          have e : s.loop.isOver = true := e
          rw [hg.openB ho] at e; cases e⟩
      simp only [FlushQueue.store]
      split
      · exact hput _ _ _ h'
      · exact ⟨h'.split, h'.last⟩
    · exact ⟨h.split, h.last⟩
  | flush => exact hputF _ _ _ ⟨h.split, h.last⟩
  | enter k =>
    simp only [FlushQueue.step, FlushQueue.enter]
    split
    · exact hput _ _ _ h
    · exact hputF _ _ _ h
    · exact h
  | called k =>
    simp only [FlushQueue.step, FlushQueue.called]
    split
    · exact ⟨h.split, h.last⟩
    · exact h
  | cancel k =>
    simp only [FlushQueue.step, FlushQueue.cancel]
    split
    · exact h
    · exact h
    · exact ⟨h.split, h.last⟩
  | start =>
    cases hl : s.loop with
    | spawned =>
      have hs := h.split
      simp only [FlushQueue.step, FlushQueue.start, hl] at hs ⊢
      exact ⟨hs, nofun⟩
    | _ => simp only [FlushQueue.step, FlushQueue.start, hl]; exact h
  | get =>
    cases hl : s.loop with
    | waiting =>
      have hs := h.split
      cases hq : s.queue with
      | nil => simp only [FlushQueue.step, FlushQueue.get, hl, hq]; exact h
      | cons item rest =>
        simp only [FlushQueue.step, FlushQueue.get, hl, hq] at hs ⊢
        exact ⟨hs, nofun⟩
    | _ => simp only [FlushQueue.step, FlushQueue.get, hl]; exact h
  | drain =>
    have hs := h.split
    cases hl : s.loop with
    | waiting =>
      simp only [FlushQueue.step, FlushQueue.drain, hl] at hs ⊢
      exact ⟨hs, nofun⟩
    | got item =>
      simp only [FlushQueue.step, FlushQueue.drain, hl] at hs ⊢
      exact ⟨hs, nofun⟩
    | _ => simp only [FlushQueue.step, FlushQueue.drain, hl]; exact h
  | begin =>
    have hs := h.split
    cases hl : s.loop with
    | ready items =>
      simp only [FlushQueue.step, FlushQueue.begin, hl] at hs ⊢
      exact ⟨by show s.accepted = s.flushed ++ s.registered ++ []; rw [hs]; simp [FlushAt.lists], nofun⟩
    | closing lists =>
      cases lists with
      | none =>
        simp only [FlushQueue.step, FlushQueue.begin, hl] at hs ⊢
        exact ⟨by show s.accepted = s.flushed ++ s.registered ++ []; rw [hs]; simp [FlushAt.lists], fun _ => .inr rfl⟩
      | some l => simp only [FlushQueue.step, FlushQueue.begin, hl]; exact h
    | _ => simp only [FlushQueue.step, FlushQueue.begin, hl]; exact h
  | done ok =>
    have hs := h.split
    cases ok with
    | false => exact absurd rfl ha
    | true =>
      cases hl : s.loop with
      | flushing items lists =>
        simp only [FlushQueue.step, FlushQueue.done, hl, if_true, FlushQueue.flushedOk] at hs ⊢
        split
        · exact ⟨by show s.accepted = s.flushed ++ lists ++ [] ++ s.registered; rw [hs]; simp [FlushAt.lists], nofun⟩
        · exact hfin _ _ (by show s.accepted = s.flushed ++ lists ++ s.registered; rw [hs]; rfl)
      | closing lists =>
        cases lists with
        | none => simp only [FlushQueue.step, FlushQueue.done, hl]; exact h
        | some l =>
          have hr : s.registered = [] := by
            rcases h.last (by rw [hl]; rfl) with e | e
            · rw [hl] at e; cases e
            · exact e
          simp only [FlushQueue.step, FlushQueue.done, hl, if_true] at hs ⊢
          exact ⟨by show s.accepted = s.flushed ++ l ++ [] ++ s.registered; rw [hs]; simp [FlushAt.lists], fun _ => .inr hr⟩
      | _ => simp only [FlushQueue.step, FlushQueue.done, hl]; exact h
  | close => exact ⟨h.split, h.last⟩
  | stop =>
    have hs := h.split
    simp only [FlushQueue.step, FlushQueue.stop]
    split
    · exact h
    · cases hl : s.loop with
      | spawned =>
        simp only [hl] at hs ⊢
        exact ⟨hs, nofun⟩
      | waiting =>
        simp only [hl] at hs ⊢
        exact hfin _ _ (by rw [hs]; simp [FlushAt.lists])
      | got item =>
        simp only [hl] at hs ⊢
        exact hfin _ _ (by rw [hs]; simp [FlushAt.lists])
      | _ => exact h

/-- **C95** If no flush fails, a backend whose flush loop has ended has written all that was registered, in order. -/
theorem C95_all (capacity limit : Nat) (acts : List QueueAct) (hf : .done false ∉ acts) (he : ((FlushQueue.init capacity limit).run acts).loop = .ended) :
    ((FlushQueue.init capacity limit).run acts).flushed = ((FlushQueue.init capacity limit).run acts).accepted := by
  have key : AllKept ((FlushQueue.init capacity limit).run acts) := by
    clear he
    induction acts using List.reverseRecOn with
    | nil => exact ⟨rfl, nofun⟩
    | append_singleton l a ih =>
      rw [FlushQueue.run_snoc]
      exact allKept_step (good_run capacity limit l) (ih fun h => hf (List.mem_append_left _ h)) fun e => hf (by simp [e])
  have hs := key.split
  rcases key.last (by rw [he]; rfl) with e | e
  · rw [he] at e; cases e
  · rw [hs, he, e]; simp [FlushAt.lists]

/-- Events registered while a flush runs and the backend is closed. -/
def exCloseQueue : List QueueAct :=
  [.start, .register [exQueued], .drain, .begin, .register [exQueued, exQueued], .close, .done true, .begin, .done true]

example : .done false ∉ exCloseQueue ∧ ((FlushQueue.init 1 1).run exCloseQueue).loop = .ended ∧
    ((FlushQueue.init 1 1).run exCloseQueue).flushed = [[exQueued], [exQueued, exQueued]] := by
  refine ⟨?_, rfl, rfl⟩
  simp [exCloseQueue]

/-- A flush goes on while callers of `register` give up, one after the other. -/
def givingUp : Nat → List QueueAct
  | 0 => [.start, .drain, .begin]
  | n + 1 => givingUp n ++ [.register [exQueued], .cancel n]

theorem cancel_not_putting {s : FlushQueue} {n : Nat} (events : List Event) : (s.cancel n).calls n ≠ .regPutting events := by
  unfold cancel
  cases h : s.calls n with
  | absent => simp only; rw [h]; exact nofun
  | finished r => simp only; rw [h]; exact nofun
  | _ => simp [FlushQueue.setCall]

theorem givingUp_spec (capacity limit n : Nat) : ((FlushQueue.init capacity limit).run (givingUp n)).isOpen = true ∧
    ((FlushQueue.init capacity limit).run (givingUp n)).nextCall = n ∧
    ((FlushQueue.init capacity limit).run (givingUp n)).registered = List.replicate n [exQueued] ∧
    (∀ k events, ((FlushQueue.init capacity limit).run (givingUp n)).calls k ≠ .regPutting events) ∧ AtMostWaiting capacity limit 1 (givingUp n) := by
  induction n with
  | zero =>
    refine ⟨rfl, rfl, rfl, (fun k events h => by cases h), fun before hb => ?_⟩
    rw [List.prefix_iff_eq_take.1 hb]
    match before.length with
    | 0 | 1 | 2 => exact Nat.zero_le _
    | n + 3 =>
      rw [List.take_of_length_le (by simp [givingUp])]
      exact Nat.zero_le _
  | succ n ih =>
    obtain ⟨h1, h2, h3, h4, h5⟩ := ih
    have hg := good_run capacity limit (givingUp n)
    generalize hs : (FlushQueue.init capacity limit).run (givingUp n) = s at h1 h2 h3 h4 hg
    have e1 : (FlushQueue.init capacity limit).run (givingUp n ++ [.register [exQueued]]) = s.step (.register [exQueued]) := by
      rw [FlushQueue.run_snoc, hs]
    have e2 : (FlushQueue.init capacity limit).run (givingUp (n + 1)) = (s.step (.register [exQueued])).step (.cancel n) := by
      rw [show givingUp (n + 1) = (givingUp n ++ [.register [exQueued]]) ++ [.cancel n] by simp [givingUp], FlushQueue.run_snoc, e1]
    have hreg : (s.step (.register [exQueued])).isOpen = true ∧ (s.step (.register [exQueued])).nextCall = n + 1 ∧
        (s.step (.register [exQueued])).registered = List.replicate (n + 1) [exQueued] := by
      have hr : s.registered ++ [[exQueued]] = List.replicate (n + 1) [exQueued] := by rw [h3, List.replicate_succ']
      simp only [FlushQueue.step, FlushQueue.register, h1, if_true, FlushQueue.store, putRegister, tell, FlushQueue.setCall]
      split_ifs <;> exact ⟨by first | exact h1 | rfl, by show s.nextCall + 1 = n + 1; rw [h2], hr⟩
    have hother : ∀ k, k ≠ n → (s.step (.register [exQueued])).calls k = s.calls k := fun k hk => register_calls _ (by rw [h2]; exact hk)
    have hcancel : ((s.step (.register [exQueued])).step (.cancel n)).isOpen = true ∧ ((s.step (.register [exQueued])).step (.cancel n)).nextCall = n + 1 ∧
        ((s.step (.register [exQueued])).step (.cancel n)).registered = List.replicate (n + 1) [exQueued] := by
      generalize s.step (.register [exQueued]) = t at hreg
      simp only [FlushQueue.step, FlushQueue.cancel, FlushQueue.setCall]
      split <;> exact hreg
    have hnone : ∀ k events, ((s.step (.register [exQueued])).step (.cancel n)).calls k ≠ .regPutting events := by
      intro k events
      by_cases hk : k = n
      · subst hk
        exact cancel_not_putting events
      · have : ((s.step (.register [exQueued])).step (.cancel n)).calls k = (s.step (.register [exQueued])).calls k := by
          generalize s.step (.register [exQueued]) = t
          simp only [FlushQueue.step, FlushQueue.cancel, FlushQueue.setCall]
          split
          · rfl
          · rfl
          · simp [hk]
        rw [this, hother k hk]
        exact h4 k events
    refine ⟨e2 ▸ hcancel.1, e2 ▸ hcancel.2.1, e2 ▸ hcancel.2.2, e2 ▸ hnone, ?_⟩
    intro before hb
    rw [show givingUp (n + 1) = (givingUp n ++ [.register [exQueued]]) ++ [.cancel n] by simp [givingUp]] at hb
    rcases List.prefix_concat_iff.1 hb with rfl | hb
    · rw [FlushQueue.run_snoc, e1, waitingRegs_length, putCount, List.filter_eq_nil_iff.2]
      · exact Nat.zero_le _
      · intro k _ hk
        cases hc : ((s.step (.register [exQueued])).step (.cancel n)).calls k with
        | regPutting events => exact hnone k events hc
        | _ => rw [hc] at hk; cases hk
    rcases List.prefix_concat_iff.1 hb with rfl | hb
    · rw [e1, waitingRegs_length, hreg.2.1, putCount_succ]
      have : putCount (s.step (.register [exQueued])).calls n = 0 := by
        rw [putCount, List.filter_eq_nil_iff.2]
        · rfl
        · intro k hk hp
          rw [hother k (by have := List.mem_range.1 hk; omega)] at hp
          cases hc : s.calls k with
          | regPutting events => exact h4 k events hc
          | _ => rw [hc] at hp; cases hp
      rw [this]
      split <;> omega
    · exact h5 before hb

/-- **C95** The hypothesis that no call is cancelled is needed: callers that give up leave their events behind, so that there is no bound, although there is never more than one caller
that waits and lists have one event. -/
theorem C95_cancelled (capacity limit N : Nat) : ∃ acts, (∀ events, .register events ∈ acts → events.length ≤ 1) ∧ AtMostWaiting capacity limit 1 acts ∧
    N ≤ unflushed ((FlushQueue.init capacity limit).run acts) := by
  obtain ⟨-, -, h3, -, h5⟩ := givingUp_spec capacity limit N
  refine ⟨givingUp N, ?_, h5, ?_⟩
  · clear h3 h5
    induction N with
    | zero => intro events h; simp [givingUp] at h
    | succ n ih =>
      intro events h
      simp only [givingUp, List.mem_append, List.mem_cons, QueueAct.register.injEq, reduceCtorEq, List.not_mem_nil, or_false] at h
      rcases h with h | rfl
      · exact ih events h
      · exact Nat.le_refl _
  · unfold unflushed
    rw [h3]
    simp

/-! ## C96 -/

theorem filled (capacity limit n : Nat) (h : n ≤ capacity) :
    ∃ calls, (∀ k, n ≤ k → calls k = .absent) ∧ (FlushQueue.init capacity limit).run (.start :: List.replicate n .flush) =
      { capacity := capacity, limit := limit, loop := .waiting, nextCall := n, queue := (List.range n).map some, calls := calls } := by
  induction n with
  | zero => exact ⟨fun _ => .absent, fun _ _ => rfl, rfl⟩
  | succ n ih =>
    obtain ⟨calls, h1, h2⟩ := ih (by omega)
    refine ⟨fun i => if i = n then .flushWaiting 0 else calls i, fun k hk => ?_, ?_⟩
    · simp only
      rw [if_neg (by omega)]
      exact h1 k (by omega)
    · rw [List.replicate_succ', ← List.cons_append, FlushQueue.run_snoc, h2]
      have hf : ¬ (0 < capacity ∧ capacity ≤ n) := by omega
      simp [FlushQueue.step, FlushQueue.flush, putFlush, FlushQueue.init, full, hf, FlushQueue.setCall, List.range_succ]

/-- **C96** What is claimed of the order of callbacks does not hold: if the queue is full when a call of `register` needs a flush, a later call may put its request
first, and the registered events callback gets the lists of events in the other order. -/
theorem C96_order_refuted {capacity : Nat} (hc : 0 < capacity) (limit : Nat) (first second : List Event) (hl : limit < first.length) :
    ∃ acts, NoCancel acts ∧ ((FlushQueue.init capacity limit).run acts).accepted = [first, second] ∧
      ((FlushQueue.init capacity limit).run acts).told = [second, first] := by
  obtain ⟨calls, h1, h2⟩ := filled capacity limit capacity (Nat.le_refl _)
  refine ⟨(.start :: List.replicate capacity .flush) ++ [.register first, .drain, .register second, .begin, .done true, .drain, .enter capacity], ?_, ?_⟩
  · intro k h
    simp [List.mem_replicate] at h
  · rw [FlushQueue.run_append, h2]
    have e1 : limit < first.length + second.length := by omega
    have e2 : capacity ≠ 0 := by omega
    simp [FlushQueue.run, FlushQueue.step, FlushQueue.register, FlushQueue.init, FlushQueue.store, putRegister, full, hl, hc, FlushQueue.setCall, FlushQueue.drain, e1, tell,
      FlushQueue.enter, e2, FlushQueue.begin, FlushQueue.done, flushedOk, FlushQueue.resolve]

/-- **C96** If a request does not find room and the backend is closed, `register` raises `QueueClosedError` although its events were stored and are flushed; the
registered events callback is not called with them. -/
theorem C96_error_refuted {capacity : Nat} (hc : 0 < capacity) (limit : Nat) (events : List Event) (hl : limit < events.length) :
    ∃ acts, NoCancel acts ∧ (∀ ok, .done ok ∈ acts → ok = true) ∧ ((FlushQueue.init capacity limit).run acts).calls capacity = .finished .queueClosed ∧
      ((FlushQueue.init capacity limit).run acts).flushed = [events] ∧ ((FlushQueue.init capacity limit).run acts).told = [] := by
  obtain ⟨calls, h1, h2⟩ := filled capacity limit capacity (Nat.le_refl _)
  refine ⟨(.start :: List.replicate capacity .flush) ++ [.register events, .close, .stop, .enter capacity, .begin, .done true], ?_, ?_, ?_⟩
  · intro k h
    simp [List.mem_replicate] at h
  · intro ok h
    simpa [List.mem_replicate] using h
  · rw [FlushQueue.run_append, h2]
    simp [FlushQueue.run, FlushQueue.step, FlushQueue.register, FlushQueue.init, FlushQueue.store, putRegister, full, hl, hc, FlushQueue.setCall, FlushQueue.stop, FlushQueue.finalise,
      FlushQueue.resolve, FlushQueue.enter, FlushQueue.begin, FlushQueue.done]

/-- The hypotheses of both theorems. -/
example : 0 < 2 ∧ 1 < [exQueued, exQueued].length := by decide

theorem nobody_waits {capacity limit : Nat} {acts : List QueueAct} (h : AtMostWaiting capacity limit 0 acts) {before : List QueueAct} (hb : before <+: acts) (k : Nat)
    (events : List Event) : ((FlushQueue.init capacity limit).run before).calls k ≠ .regPutting events := by
  intro hc
  have hg := good_run capacity limit before
  have h0 := List.eq_nil_of_length_eq_zero (Nat.le_zero.1 (h before hb))
  have : k ∈ waitingRegs ((FlushQueue.init capacity limit).run before) := by
    unfold waitingRegs
    rw [List.mem_filter]
    exact ⟨List.mem_range.2 (hg.lt hc nofun), by rw [hc]⟩
  rw [h0] at this
  cases this

/-- **C96, partial** If no call of `register` finds the queue full, the callback gets all lists in the order in which they were registered.  Missing: calls that wait for room
(`C96_order_refuted`). -/
theorem C96_order_partial {capacity limit : Nat} (acts : List QueueAct) (h : AtMostWaiting capacity limit 0 acts) :
    ((FlushQueue.init capacity limit).run acts).told = ((FlushQueue.init capacity limit).run acts).accepted := by
  induction acts using List.reverseRecOn with
  | nil => rfl
  | append_singleton l a ih =>
    have ih := ih fun before hb => h before (hb.trans (List.prefix_append _ _))
    have hno := nobody_waits h (List.prefix_append l [a])
    have hno' := nobody_waits h (List.prefix_refl (l ++ [a]))
    have hg := good_run capacity limit l
    rw [FlushQueue.run_snoc] at hno' ⊢
    have ht := tells_step ((FlushQueue.init capacity limit).run l) a
    generalize ((FlushQueue.init capacity limit).run l).step a = s' at ht hno'
    cases ht with
    | none ha ht => rw [ha, ht, ih]
    | stored events hr ho ha ht hc =>
      rcases hc with hc | hc
      · exact absurd hc (hno' _ _)
      · rw [hg.openQ, hg.openB ho] at hc
        cases hc
    | told events hr ho ha ht => rw [ha, ht, ih]
    | entered k events he hc => exact absurd hc (hno _ _)

/-- What holds if calls of `register` are made one by one. -/
structure TellsInOrder (s : FlushQueue) : Prop where
  one : ∀ j k, Registering (s.calls j) → Registering (s.calls k) → j = k
  told : s.told.Sublist s.accepted
  next : ∀ k events, s.calls k = .regPutting events → (s.told ++ [events]).Sublist s.accepted

theorem registering_step {s : FlushQueue} {a : QueueAct} {k : Nat} (h : Registering ((s.step a).calls k)) :
    Registering (s.calls k) ∨ k = s.nextCall ∧ ∃ events, a = .register events := by
  have hm := moves_step s a k
  generalize (s.step a).calls k = c at hm h
  cases hm with
  | stay => exact .inl h
  | reg events _ hk ha => exact .inr ⟨hk, events, ha⟩
  | flush _ _ _ hc => rcases hc with rfl | rfl | rfl <;> cases h
  | enterReg events e => rw [e]; exact .inl trivial
  | _ => cases h

theorem putting_step {s : FlushQueue} {a : QueueAct} {k : Nat} {events : List Event} (h : (s.step a).calls k = .regPutting events) :
    s.calls k = .regPutting events ∨ k = s.nextCall ∧ a = .register events := by
  have hm := moves_step s a k
  generalize hc : (s.step a).calls k = c at hm
  have hc : QueueCall.regPutting events = c := h.symm.trans hc
  clear h
  cases hm with
  | stay => exact .inl hc.symm
  | reg events' _ hk ha hc' =>
    subst hc
    rcases hc' with e | e | ⟨e, _⟩ | ⟨e, _⟩ <;> cases e
    exact .inr ⟨hk, ha⟩
  | flush _ _ _ hc' => subst hc; rcases hc' with e | e | e <;> cases e
  | _ => cases hc

theorem inOrder_step {s : FlushQueue} (hg : Good s) (h : TellsInOrder s) {a : QueueAct} (ha : ∀ events, a = .register events → ∀ k, ¬ Registering (s.calls k)) :
    TellsInOrder (s.step a) := by
  have hone : ∀ j k, Registering ((s.step a).calls j) → Registering ((s.step a).calls k) → j = k := by
    intro j k hj hk
    rcases registering_step hj with hj | ⟨hj, e, he⟩
    · rcases registering_step hk with hk | ⟨hk, e, he⟩
      · exact h.one j k hj hk
      · exact absurd hj (ha e he j)
    · rcases registering_step hk with hk | ⟨hk, e', he'⟩
      · exact absurd hk (ha e he k)
      · rw [hj, hk]
  have hput : ∀ k events, (s.step a).calls k = .regPutting events → (s.calls k = .regPutting events ∨ k = s.nextCall ∧ a = .register events) := fun _ _ => putting_step
  have ht := tells_step s a
  generalize s.step a = s' at ht hone hput
  cases ht with
  | none e1 e2 hr hf =>
    refine ⟨hone, by rw [e1, e2]; exact h.told, fun k events hk => ?_⟩
    rw [e1, e2]
    rcases hput k events hk with hk' | ⟨hk', e⟩
    · exact h.next k events hk'
    · rw [hk', hf _ e] at hk
      cases hk
  | stored events hr ho e1 e2 hc hn =>
    refine ⟨hone, by rw [e1, e2]; exact h.told.trans (List.sublist_append_left _ _), fun k events' hk => ?_⟩
    rw [e1, e2]
    rcases hput k events' hk with hk' | ⟨hk', e⟩
    · exact absurd (by rw [hk']; trivial) (ha events hr k)
    · rw [hr] at e
      cases e
      exact h.told.append (List.Sublist.refl _)
  | told events hr ho e1 e2 hf =>
    refine ⟨hone, by rw [e1, e2]; exact h.told.append (List.Sublist.refl _), fun k events' hk => ?_⟩
    rcases hput k events' hk with hk' | ⟨hk', e⟩
    · exact absurd (by rw [hk']; trivial) (ha events hr k)
    · rw [hk', hf] at hk
      cases hk
  | entered k events he hc e1 e2 hc' =>
    refine ⟨hone, by rw [e1, e2]; exact h.next k events hc, fun j events' hj => ?_⟩
    have : j = k := hone j k (by rw [hj]; trivial) (by rw [hc']; trivial)
    subst this
    rw [hc'] at hj
    cases hj

/-- **C96, partial** If calls of `register` are made one by one, the callback gets lists in the order in which they were registered.  Missing: calls at the same time
(`C96_order_refuted`). -/
theorem C96_onebyone_partial {capacity limit : Nat} (acts : List QueueAct) (h : OneByOne capacity limit acts) :
    ((FlushQueue.init capacity limit).run acts).told.Sublist ((FlushQueue.init capacity limit).run acts).accepted := by
  suffices key : TellsInOrder ((FlushQueue.init capacity limit).run acts) from key.told
  induction acts using List.reverseRecOn with
  | nil => exact ⟨fun j k h => h.elim, List.Sublist.refl _, fun _ _ h => by cases h⟩
  | append_singleton l a ih =>
    rw [FlushQueue.run_snoc]
    refine inOrder_step (good_run capacity limit l) (ih fun b e hb => h b e (hb.trans (List.prefix_append _ _))) ?_
    rintro events rfl
    exact h l events (List.prefix_refl _)

/-- A call that waits for room is not overtaken. -/
def exOneByOne : List QueueAct :=
  [.start, .register [exQueued, exQueued], .called 0, .register [], .drain, .enter 1, .called 1, .begin, .done true, .register [exQueued]]

example : OneByOne 1 1 exOneByOne ∧ ¬ AtMostWaiting 1 1 0 exOneByOne ∧ ((FlushQueue.init 1 1).run exOneByOne).told = [[exQueued, exQueued], [], [exQueued]] := by
  refine ⟨?_, fun h => ?_, rfl⟩
  · intro before events hb
    match before with
    | [b0] =>
      simp only [exOneByOne, List.cons_append, List.nil_append, List.cons_prefix_cons] at hb
      obtain ⟨rfl, -⟩ := hb
      exact fun k h => h
    | [b0, b1, b2] =>
      simp only [exOneByOne, List.cons_append, List.nil_append, List.cons_prefix_cons] at hb
      obtain ⟨rfl, rfl, rfl, -⟩ := hb
      exact fun k h => match k with
        | 0 => h
        | k + 1 => h
    | [b0, b1, b2, b3, b4, b5, b6, b7, b8] =>
      simp only [exOneByOne, List.cons_append, List.nil_append, List.cons_prefix_cons] at hb
      obtain ⟨rfl, rfl, rfl, rfl, rfl, rfl, rfl, rfl, rfl, -⟩ := hb
      exact fun k h => match k with
        | 0 => h
        | 1 => h
        | k + 2 => h
    | [] | [_, _] | [_, _, _, _] | [_, _, _, _, _] | [_, _, _, _, _, _] | [_, _, _, _, _, _, _] | [_, _, _, _, _, _, _, _] => simp [exOneByOne] at hb
    | _ :: _ :: _ :: _ :: _ :: _ :: _ :: _ :: _ :: _ :: _ => simp [exOneByOne] at hb
  · exact absurd (h (exOneByOne.take 4) (List.take_prefix _ _)) (by decide)

/-- What a call of `register` may be. -/
inductive RegOwn (wasOpen : Bool) : QueueCall → Prop
  | putting (events : List Event) (h : wasOpen = true) : RegOwn wasOpen (.regPutting events)
  | calling (events : List Event) (h : wasOpen = true) : RegOwn wasOpen (.regCalling events)
  | refused (h : wasOpen = false) : RegOwn wasOpen (.finished .closed)
  | finished {r : QueueEnd} (h : wasOpen = true) (hr : r ≠ .closed) : RegOwn wasOpen (.finished r)

theorem regOwn_step {s : FlushQueue} {o : Bool} {k : Nat} (hk : k < s.nextCall) (h : RegOwn o (s.calls k)) (a : QueueAct) : RegOwn o ((s.step a).calls k) := by
  have hm := moves_step s a k
  generalize (s.step a).calls k = c at hm
  cases hm with
  | stay => exact h
  | reg events _ hk' => omega
  | flush _ hk' => omega
  | enterReg events e =>
    rw [e] at h
    cases h with
    | putting _ h => exact .calling events h
  | failReg events e =>
    rw [e] at h
    cases h with
    | putting _ h => exact .finished h nofun
  | enterFlush seen e => rw [e] at h; cases h
  | failFlush seen e => rw [e] at h; cases h
  | called events e =>
    rw [e] at h
    cases h with
    | calling _ h => exact .finished h nofun
  | cancel h1 h2 =>
    generalize s.calls k = c at h h1 h2
    cases h with
    | putting _ h => exact .finished h nofun
    | calling _ h => exact .finished h nofun
    | refused h => exact absurd rfl (h2 _)
    | finished h hr => exact absurd rfl (h2 _)
  | flushed seen e => rw [e] at h; cases h
  | refused seen e => rw [e] at h; cases h

/-- **C96** If `register` raises `BackendClosedError`, nothing was stored and the callback was not called; if it ends in another way, its events were stored at once. -/
theorem C96_closed (capacity limit : Nat) (before after : List QueueAct) (events : List Event) {k : Nat}
    (hk : k = ((FlushQueue.init capacity limit).run before).nextCall) {r : QueueEnd}
    (h : ((FlushQueue.init capacity limit).run (before ++ .register events :: after)).calls k = .finished r) :
    (r = .closed ∧ ((FlushQueue.init capacity limit).run (before ++ [.register events])).accepted = ((FlushQueue.init capacity limit).run before).accepted ∧
      ((FlushQueue.init capacity limit).run (before ++ [.register events])).told = ((FlushQueue.init capacity limit).run before).told) ∨
    r ≠ .closed ∧ ((FlushQueue.init capacity limit).run (before ++ [.register events])).accepted = ((FlushQueue.init capacity limit).run before).accepted ++ [events] := by
  have key : ∀ after, RegOwn ((FlushQueue.init capacity limit).run before).isOpen
      (((FlushQueue.init capacity limit).run (before ++ .register events :: after)).calls k) ∧
      k < ((FlushQueue.init capacity limit).run (before ++ .register events :: after)).nextCall := by
    intro after
    clear h
    induction after using List.reverseRecOn with
    | nil =>
      rw [FlushQueue.run_snoc]
      have hg := good_run capacity limit before
      generalize (FlushQueue.init capacity limit).run before = s at hk hg
      constructor
      · have hm := moves_step s (.register events) k
        generalize hc : (s.step (.register events)).calls k = c at hm
        cases hm with
        | stay =>
          rw [hg.fresh k (by omega)] at hc
          have ht := tells_step s (.register events)
          rw [hk] at hc
          generalize s.step (.register events) = s' at hc ht
          cases ht with
          | none ha ht hr hf => rw [hf _ rfl] at hc; cases hc
          | stored e hr ho ha ht hc' =>
            rcases hc' with h | h
            · rw [h] at hc; cases hc
            · rw [hg.openQ, hg.openB ho] at h; cases h
          | told e hr ho ha ht hf => rw [hf] at hc; cases hc
          | entered _ _ he => cases he
        | reg events' _ _ ha hc' =>
          cases ha
          rcases hc' with rfl | rfl | ⟨rfl, h1, h2⟩ | ⟨rfl, h1⟩
          · refine .putting _ ?_
            cases ho : s.isOpen with
            | true => rfl
            | false => simp [FlushQueue.step, FlushQueue.register, ho, FlushQueue.setCall, hk] at hc
          · refine .calling _ ?_
            cases ho : s.isOpen with
            | true => rfl
            | false => simp [FlushQueue.step, FlushQueue.register, ho, FlushQueue.setCall, hk] at hc
          · exact .finished h1 nofun
          · exact .refused h1
        | flush _ _ ha => cases ha
        | enterReg _ _ ha => cases ha
        | failReg _ _ ha => cases ha
        | enterFlush _ _ ha => cases ha
        | failFlush _ _ ha => cases ha
        | called _ _ ha => cases ha
        | cancel _ _ ha => cases ha
        | flushed _ _ _ _ _ _ ha => cases ha
        | refused seen e => rw [hg.fresh k (by omega)] at e; cases e
      · rw [hk]
        simp only [FlushQueue.step, FlushQueue.register, FlushQueue.store, putRegister, tell, FlushQueue.setCall]
        split_ifs <;> exact Nat.lt_succ_self _
    | append_singleton l a ih =>
      rw [show before ++ .register events :: (l ++ [a]) = (before ++ .register events :: l) ++ [a] by simp, FlushQueue.run_snoc]
      have g3 := (grows_step ((FlushQueue.init capacity limit).run (before ++ .register events :: l)) a).2.2
      exact ⟨regOwn_step ih.2 ih.1 a, by omega⟩
  have hr := (key after).1
  rw [h] at hr
  rw [FlushQueue.run_snoc]
  have ht := tells_step ((FlushQueue.init capacity limit).run before) (.register events)
  generalize ((FlushQueue.init capacity limit).run before).step (.register events) = s' at ht
  cases hr with
  | refused ho =>
    cases ht with
    | none ha ht => exact .inl ⟨rfl, ha, ht⟩
    | stored _ _ h => rw [ho] at h; cases h
    | told _ _ h => rw [ho] at h; cases h
    | entered _ _ he => cases he
  | finished ho hr =>
    cases ht with
    | none ha ht hf => rw [hf _ rfl] at ho; cases ho
    | stored e he _ ha => cases he; exact .inr ⟨hr, ha⟩
    | told e he _ ha => cases he; exact .inr ⟨hr, ha⟩
    | entered _ _ he => cases he

example : ((FlushQueue.init 1 1).run ([.start, .close] ++ .register [exQueued] :: [.stop])).calls 0 = .finished .closed ∧
    ((FlushQueue.init 1 1).run ([.start, .register []] ++ .register [exQueued] :: [.called 1])).calls 1 = .finished .done := ⟨rfl, rfl⟩

/-- **C96, partial** If no call of `register` finds the queue full, none raises `QueueClosedError`.  Missing: calls that wait for room (`C96_error_refuted`). -/
theorem C96_error_partial {capacity limit : Nat} (acts : List QueueAct) (h : AtMostWaiting capacity limit 0 acts) (k : Nat) :
    ((FlushQueue.init capacity limit).run acts).calls k ≠ .finished .queueClosed := by
  induction acts using List.reverseRecOn with
  | nil => exact nofun
  | append_singleton l a ih =>
    have ih := ih fun before hb => h before (hb.trans (List.prefix_append _ _))
    have hno := nobody_waits h (List.prefix_append l [a])
    have hg := good_run capacity limit l
    rw [FlushQueue.run_snoc]
    intro hc
    have hm := moves_step ((FlushQueue.init capacity limit).run l) a k
    generalize (((FlushQueue.init capacity limit).run l).step a).calls k = c at hm hc
    cases hm with
    | stay => exact ih hc
    | reg events _ _ _ hc' =>
      subst hc
      rcases hc' with e | e | ⟨_, h1, h2⟩ | ⟨e, _⟩
      · cases e
      · cases e
      · rw [hg.openQ, hg.openB h1] at h2; cases h2
      · cases e
    | flush _ _ _ hc' => subst hc; rcases hc' with e | e | e <;> cases e
    | failReg events e => exact hno _ _ e
    | _ => cases hc

/-- Calls of `register` that do not wait. -/
def exNoWait : List QueueAct := [.start, .register [exQueued, exQueued], .drain, .register [exQueued], .begin, .called 0, .close, .done true, .register []]

example : AtMostWaiting 1 1 0 exNoWait ∧ ((FlushQueue.init 1 1).run exNoWait).told = [[exQueued, exQueued], [exQueued]] := by
  refine ⟨?_, rfl⟩
  intro before hb
  rw [List.prefix_iff_eq_take.1 hb]
  match before.length with
  | 0 | 1 | 2 | 3 | 4 | 5 | 6 | 7 | 8 => decide
  | n + 9 =>
    rw [List.take_of_length_le (by simp [exNoWait])]
    decide

/-! ### Calls end -/

section
variable {capacity limit : Nat} {acts : Nat → QueueAct}

theorem runTo_succ (n : Nat) : (FlushQueue.init capacity limit).run (upTo acts (n + 1)) = ((FlushQueue.init capacity limit).run (upTo acts n)).step (acts n) := by
  rw [upTo_succ, FlushQueue.run_snoc]

/-- **C96** A call of `flush` that waits for its result ends, if the flush loop was not cancelled before it started. -/
theorem C96_flush_ends (hgo : FlushGoesOn acts) (hn : ∀ n, ((FlushQueue.init capacity limit).run (upTo acts n)).loop ≠ .never) {n k seen : Nat}
    (h : ((FlushQueue.init capacity limit).run (upTo acts n)).calls k = .flushWaiting seen) :
    ∃ m, n ≤ m ∧ ∃ r, ((FlushQueue.init capacity limit).run (upTo acts m)).calls k = .finished r := by
  refine descend (P := fun p => ((FlushQueue.init capacity limit).run (upTo acts p)).calls k = .flushWaiting seen)
    (f := fun p => stage k ((FlushQueue.init capacity limit).run (upTo acts p)).loop) (H := helpAt) (acts := acts) ?_ ?_ _ n rfl h
  · intro p hp
    have := waits_step (good_run capacity limit (upTo acts p)) hp (acts p) (by rw [← runTo_succ]; exact hn _)
    rw [← runTo_succ] at this
    exact this
  · intro p hp m
    have hg := good_run capacity limit (upTo acts p)
    have hin := (hg.waiting k seen hp).1
    have hnv := hn p
    cases e : ((FlushQueue.init capacity limit).run (upTo acts p)).loop with
    | spawned => exact hgo.start m
    | never => exact absurd e hnv
    | waiting => exact hgo.drain m
    | got i => exact hgo.drain m
    | ready items =>
      by_cases hk : some k ∈ items <;> simp only [stage, hk, if_true, if_false] <;> exact hgo.begin m
    | flushing items lists =>
      by_cases hk : some k ∈ items <;> simp only [stage, hk, if_true, if_false] <;> exact hgo.done m
    | closing l =>
      rw [hg.emptyQ (by rw [e]; rfl), e] at hin
      cases hin
    | ended =>
      rw [hg.emptyQ (by rw [e]; rfl), e] at hin
      cases hin

/-- **C96** Each call of `register` and each call of `flush` ends, if the flush loop goes on and was not cancelled before it started, if a call that waits for room gets its turn
at times when there is room, and if callbacks end. -/
theorem C96_ends (hgo : FlushGoesOn acts) (hn : ∀ n, ((FlushQueue.init capacity limit).run (upTo acts n)).loop ≠ .never) {n k : Nat}
    (hput : PutGoesOn (fun p => (FlushQueue.init capacity limit).run (upTo acts p)) acts k)
    (h : ((FlushQueue.init capacity limit).run (upTo acts n)).calls k ≠ .absent) :
    ∃ m, n ≤ m ∧ ∃ r, ((FlushQueue.init capacity limit).run (upTo acts m)).calls k = .finished r := by
  have hg : ∀ p, Good ((FlushQueue.init capacity limit).run (upTo acts p)) := fun p => good_run capacity limit _
  have hcalling : ∀ n events, ((FlushQueue.init capacity limit).run (upTo acts n)).calls k = .regCalling events →
      ∃ m, n ≤ m ∧ ∃ r, ((FlushQueue.init capacity limit).run (upTo acts m)).calls k = .finished r := by
    intro n events h
    refine until_done (acts := acts) (A := fun a => a = .called k)
      (P := fun p => ((FlushQueue.init capacity limit).run (upTo acts p)).calls k = .regCalling events) h ?_ (hput.called n) ?_
    · intro p _ hp
      have := regCalling_step (hg p) hp (acts p)
      rw [← runTo_succ] at this
      exact this.imp And.left id
    · intro p _ hp ha
      have := regCalling_step (hg p) hp (acts p)
      rw [← runTo_succ] at this
      exact this.resolve_left fun h => h.2 ha
  cases hc : ((FlushQueue.init capacity limit).run (upTo acts n)).calls k with
  | absent => exact absurd hc h
  | finished r => exact ⟨n, Nat.le_refl _, r, hc⟩
  | flushWaiting seen => exact C96_flush_ends hgo hn hc
  | regCalling events => exact hcalling n events hc
  | regPutting events =>
    have key : ∃ m, n ≤ m ∧ (((FlushQueue.init capacity limit).run (upTo acts m)).calls k = .regCalling events ∨
        ∃ r, ((FlushQueue.init capacity limit).run (upTo acts m)).calls k = .finished r) := by
      refine until_done (acts := fun p => (acts p, ((FlushQueue.init capacity limit).run (upTo acts p)).full)) (A := fun x => x.1 = .enter k ∧ x.2 = false)
        (P := fun p => ((FlushQueue.init capacity limit).run (upTo acts p)).calls k = .regPutting events) hc ?_ (hput.enter n) ?_
      · intro p _ hp
        have := regPutting_step (hg p) hp (acts p)
        rw [← runTo_succ] at this
        exact this.imp And.left id
      · intro p _ hp ha
        have := regPutting_step (hg p) hp (acts p)
        rw [← runTo_succ] at this
        exact this.resolve_left fun h => h.2 ha
    obtain ⟨m, hm, h | h⟩ := key
    · obtain ⟨q, hq, h⟩ := hcalling m events h
      exact ⟨q, by omega, h⟩
    · exact ⟨m, hm, h⟩
  | flushPutting seen =>
    have key : ∃ m, n ≤ m ∧ (((FlushQueue.init capacity limit).run (upTo acts m)).calls k = .flushWaiting seen ∨
        ∃ r, ((FlushQueue.init capacity limit).run (upTo acts m)).calls k = .finished r) := by
      refine until_done (acts := fun p => (acts p, ((FlushQueue.init capacity limit).run (upTo acts p)).full)) (A := fun x => x.1 = .enter k ∧ x.2 = false)
        (P := fun p => ((FlushQueue.init capacity limit).run (upTo acts p)).calls k = .flushPutting seen) hc ?_ (hput.enter n) ?_
      · intro p _ hp
        have := flushPutting_step (hg p) hp (acts p)
        rw [← runTo_succ] at this
        exact this.imp And.left id
      · intro p _ hp ha
        have := flushPutting_step (hg p) hp (acts p)
        rw [← runTo_succ] at this
        exact this.resolve_left fun h => h.2 ha
    obtain ⟨m, hm, h | h⟩ := key
    · obtain ⟨q, hq, h⟩ := C96_flush_ends hgo hn h
      exact ⟨q, by omega, h⟩
    · exact ⟨m, hm, h⟩

/-- **C96** After it was closed, the backend ends its flush loop and closes its environment for good, if the loop was not cancelled before it started. -/
theorem C96_closes (hgo : FlushGoesOn acts) (hn : ∀ n, ((FlushQueue.init capacity limit).run (upTo acts n)).loop ≠ .never) {n : Nat}
    (hc : ((FlushQueue.init capacity limit).run (upTo acts n)).isOpen = false) :
    ∃ m, ∀ p, m ≤ p → ((FlushQueue.init capacity limit).run (upTo acts p)).loop = .ended ∧ ((FlushQueue.init capacity limit).run (upTo acts p)).envOpen = false := by
  have key : ∃ m, ((FlushQueue.init capacity limit).run (upTo acts m)).loop = .ended := by
    by_cases he : ((FlushQueue.init capacity limit).run (upTo acts n)).loop = .ended
    · exact ⟨n, he⟩
    · have key := descend (P := fun p => ((FlushQueue.init capacity limit).run (upTo acts p)).isOpen = false ∧
          ((FlushQueue.init capacity limit).run (upTo acts p)).loop ≠ .ended)
        (Q := fun p => ((FlushQueue.init capacity limit).run (upTo acts p)).loop = .ended)
        (f := fun p => closeStage ((FlushQueue.init capacity limit).run (upTo acts p)).loop) (H := closeHelp) (acts := acts) ?_ ?_ _ n rfl ⟨hc, he⟩
      · obtain ⟨m, _, h⟩ := key
        exact ⟨m, h⟩
      · intro p ⟨h1, h2⟩
        have h3 := closes_step h1 (acts p) (by rw [← runTo_succ]; exact hn _) h2
        have h4 := closed_step _ (acts p) h1
        rw [← runTo_succ] at h3 h4
        rcases h3 with h | ⟨h5, h6⟩
        · exact .inl h.1
        · exact .inr ⟨⟨h4, h5⟩, h6⟩
      · intro p ⟨h1, h2⟩ m
        have hnv := hn p
        cases e : ((FlushQueue.init capacity limit).run (upTo acts p)).loop with
        | spawned => exact hgo.start m
        | never => exact absurd e hnv
        | waiting => exact hgo.stop m
        | got i => exact hgo.stop m
        | ready items => exact hgo.begin m
        | flushing items lists => exact hgo.done m
        | closing l =>
          cases l with
          | none => exact hgo.begin m
          | some l => exact hgo.done m
        | ended => exact absurd e h2
  obtain ⟨m, hm⟩ := key
  have hall : ∀ p, m ≤ p → ((FlushQueue.init capacity limit).run (upTo acts p)).loop = .ended := by
    intro p hp
    induction p, hp using Nat.le_induction with
    | base => exact hm
    | succ p _ ih =>
      rw [runTo_succ]
      exact ended_step _ ih
  exact ⟨m, fun p hp => ⟨hall p hp, env_run capacity limit _ (hall p hp)⟩⟩

end

/-- **C96** If the backend is closed before its flush loop starts, a call of `flush` waits for ever, and the environment is never closed. -/
theorem C96_unstarted_refuted (capacity limit : Nat) (after : List QueueAct) (h : .cancel 0 ∉ after) :
    ((FlushQueue.init capacity limit).run ([.flush, .close, .stop] ++ after)).calls 0 = .flushWaiting 0 ∧
      ((FlushQueue.init capacity limit).run ([.flush, .close, .stop] ++ after)).envOpen = true := by
  suffices key : ((FlushQueue.init capacity limit).run ([.flush, .close, .stop] ++ after)).loop = .never ∧
      ((FlushQueue.init capacity limit).run ([.flush, .close, .stop] ++ after)).calls 0 = .flushWaiting 0 ∧
      ((FlushQueue.init capacity limit).run ([.flush, .close, .stop] ++ after)).envOpen = true from key.2
  induction after using List.reverseRecOn with
  | nil =>
    rcases Nat.decEq capacity 0 with hc | rfl <;>
    simp [*, FlushQueue.run, FlushQueue.step, FlushQueue.flush, putFlush, FlushQueue.init, full, FlushQueue.setCall, FlushQueue.stop, Nat.not_le_of_gt]
  | append_singleton l a ih =>
    obtain ⟨h1, h2, h3⟩ := ih fun h' => h (List.mem_append_left _ h')
    rw [← List.append_assoc, FlushQueue.run_snoc]
    exact never_step (good_run capacity limit _) h1 h2 h3 fun e => h (by simp [e])

example : QueueAct.cancel 0 ∉ [.start, .enter 0, .drain, .begin, .done true, .cancel 1] := by simp

/-! ### Schedules for the theorems on calls -/

/-- A queue of one place: `register` waits for room while a flush is requested; then the backend is closed. -/
def exQueuePre : List QueueAct :=
  [.start, .flush, .register [exQueued, exQueued], .drain, .enter 1, .begin, .called 1, .done true, .drain, .begin, .done true, .close, .stop, .begin, .done true]

def exQueueCycle : List QueueAct := [.start, .enter 1, .called 1, .drain, .begin, .done true, .stop]

theorem exQueueCycle_pos : exQueueCycle ≠ [] := nofun

/-- The schedule. -/
def exQueueActs : Nat → QueueAct := exForever exQueuePre exQueueCycle exQueueCycle_pos

/-- Nothing happens after the end. -/
theorem queueIdle {s : FlushQueue} (h1 : s.loop = .ended) (h2 : s.calls 1 = .finished .done) (h3 : s.isOpen = false) : ∀ a ∈ exQueueCycle, s.step a = s := by
  intro a ha
  simp only [exQueueCycle, List.mem_cons, List.not_mem_nil, or_false] at ha
  rcases ha with rfl | rfl | rfl | rfl | rfl | rfl | rfl
  · simp [FlushQueue.step, FlushQueue.start, h1]
  · simp [FlushQueue.step, FlushQueue.enter, h2]
  · simp [FlushQueue.step, FlushQueue.called, h2]
  · simp [FlushQueue.step, FlushQueue.drain, h1]
  · simp [FlushQueue.step, FlushQueue.begin, h1]
  · simp [FlushQueue.step, FlushQueue.done, h1]
  · simp [FlushQueue.step, FlushQueue.stop, h1, h3]

/-- Hypotheses of `C96_ends`, `C96_flush_ends` and `C96_closes`. -/
example : FlushGoesOn exQueueActs ∧ (∀ n, ((FlushQueue.init 1 1).run (upTo exQueueActs n)).loop ≠ .never) ∧
    PutGoesOn (fun p => (FlushQueue.init 1 1).run (upTo exQueueActs p)) exQueueActs 1 ∧
    (∃ n events, ((FlushQueue.init 1 1).run (upTo exQueueActs n)).calls 1 = .regPutting events) ∧
    (∃ n, ((FlushQueue.init 1 1).run (upTo exQueueActs n)).calls 0 = .flushWaiting 0) ∧
    ∃ n, ((FlushQueue.init 1 1).run (upTo exQueueActs n)).isOpen = false := by
  have hst := exForever_states (hc := exQueueCycle_pos) (step := FlushQueue.step) (s := FlushQueue.init 1 1) (pre := exQueuePre) (queueIdle rfl rfl rfl)
  have often : ∀ a ∈ exQueueCycle, Often exQueueActs a := fun a ha => exForever_often ha
  refine ⟨⟨?_, ?_, ?_, ?_, ?_⟩, ?_, ⟨?_, ?_⟩, ⟨3, [exQueued, exQueued], rfl⟩, ⟨2, rfl⟩, ⟨12, rfl⟩⟩
  · exact often _ (by simp [exQueueCycle])
  · exact often _ (by simp [exQueueCycle])
  · exact often _ (by simp [exQueueCycle])
  · intro n
    obtain ⟨m, h1, h2⟩ := often (.done true) (by simp [exQueueCycle]) n
    exact ⟨m, h1, true, h2⟩
  · exact often _ (by simp [exQueueCycle])
  · intro n
    obtain ⟨h, hp, he, -⟩ := hst n
    show ((upTo exQueueActs n).foldl FlushQueue.step _).loop ≠ _
    rw [show upTo exQueueActs n = upTo (exForever exQueuePre exQueueCycle exQueueCycle_pos) n from rfl, he, List.prefix_iff_eq_take.1 hp]
    match h.length with
    | 0 | 1 | 2 | 3 | 4 | 5 | 6 | 7 | 8 | 9 | 10 | 11 | 12 | 13 | 14 => exact nofun
    | n + 15 =>
      rw [List.take_of_length_le (by simp [exQueuePre])]
      exact nofun
  · intro n
    obtain ⟨m, h1, h2⟩ := often (.enter 1) (by simp [exQueueCycle]) (n + 15)
    refine ⟨m, by omega, h2, ?_⟩
    obtain ⟨h, hp, he, hl⟩ := hst m
    show FlushQueue.full ((upTo exQueueActs m).foldl FlushQueue.step _) = false
    rw [show upTo exQueueActs m = upTo (exForever exQueuePre exQueueCycle exQueueCycle_pos) m from rfl, he,
      List.prefix_iff_eq_take.1 hp, List.take_of_length_le (by rw [hl]; simp [exQueuePre]; omega)]
    rfl
  · exact often _ (by simp [exQueueCycle])

end HatEvent
