import Verif.Proof.FlushQueue

/-!
# What happens to calls of `register` and `flush`
-/

namespace HatEvent
open Spec
namespace FlushQueue
variable {s : FlushQueue}

theorem setCall_calls (k : Nat) (c : QueueCall) (j : Nat) : (s.setCall k c).calls j = if j = k then c else s.calls j := rfl

/-- Effect of `put` in `register` on calls. -/
theorem putRegister_calls (k : Nat) (events : List Event) (j : Nat) :
    (s.putRegister k events).calls j = if j = k then
      (if s.queueOpen then (if s.full then .regPutting events else .regCalling events) else .finished .queueClosed) else s.calls j := by
  unfold putRegister
  split
  · split <;> rfl
  · rfl

/-- Effect of `put` in `flush` on calls. -/
theorem putFlush_calls (k seen : Nat) (j : Nat) :
    (s.putFlush k seen).calls j = if j = k then
      (if s.queueOpen then (if s.full then .flushPutting seen else .flushWaiting seen) else .finished .closed) else s.calls j := by
  unfold putFlush
  split
  · split <;> rfl
  · rfl

/-- Effect of `register` on other calls. -/
theorem register_calls (events : List Event) {j : Nat} (hj : j ≠ s.nextCall) : (s.register events).calls j = s.calls j := by
  unfold register store
  simp only
  split
  · split
    · rw [putRegister_calls, if_neg hj]
    · simp [tell, setCall, hj]
  · simp [setCall, hj]

theorem flush_calls {j : Nat} (hj : j ≠ s.nextCall) : s.flush.calls j = s.calls j := by
  unfold flush
  rw [putFlush_calls, if_neg hj]

theorem finalise_calls (items : List (Option Nat)) (j : Nat) : (s.finalise items).calls j = (s.resolve (items ++ s.queue) .closed).calls j := rfl

theorem done_calls (ok : Bool) (j : Nat) : (s.done ok).calls j = s.calls j ∨
    ∃ seen r, s.calls j = .flushWaiting seen ∧ (s.done ok).calls j = .finished r ∧
      (r = .closed ∨ r = .done ∧ ∃ items lists, s.loop = .flushing items lists ∧ some j ∈ items ∧ (s.done ok).flushed = s.flushed ++ lists ∧ ok = true ∧
        s.isOpen = true) := by
  unfold done
  split
  · next items lists e =>
    split
    · next hok =>
      unfold flushedOk
      simp only
      split
      · next ho =>
        rcases resolve_calls (s := { s with flushed := s.flushed ++ lists }) items .done j with h | ⟨h1, h2, seen, h3⟩
        · exact .inl h
        · exact .inr ⟨seen, .done, h3, h1, .inr ⟨rfl, items, lists, e, h2, rfl, hok, ho⟩⟩
      · rcases resolve_calls (s := { s with flushed := s.flushed ++ lists }) (items ++ s.queue) .closed j with h | ⟨h1, h2, seen, h3⟩
        · exact .inl h
        · exact .inr ⟨seen, .closed, h3, h1, .inl rfl⟩
    · rcases resolve_calls (s := s) (items ++ s.queue) .closed j with h | ⟨h1, h2, seen, h3⟩
      · exact .inl h
      · exact .inr ⟨seen, .closed, h3, h1, .inl rfl⟩
  · exact .inl rfl
  · exact .inl rfl

theorem stop_calls (j : Nat) : s.stop.calls j = s.calls j ∨
    ∃ seen, s.calls j = .flushWaiting seen ∧ s.stop.calls j = .finished .closed := by
  unfold stop
  split
  · exact .inl rfl
  · split
    · exact .inl rfl
    · rcases resolve_calls (s := s) ([] ++ s.queue) .closed j with h | ⟨h1, h2, seen, h3⟩
      · exact .inl h
      · exact .inr ⟨seen, h3, h1⟩
    · next item _ =>
      rcases resolve_calls (s := s) ([item] ++ s.queue) .closed j with h | ⟨h1, h2, seen, h3⟩
      · exact .inl h
      · exact .inr ⟨seen, h3, h1⟩
    · exact .inl rfl

/-- What an action may do to a call. -/
inductive Moves (s : FlushQueue) (a : QueueAct) (k : Nat) : QueueCall → Prop
  | stay : Moves s a k (s.calls k)
  | reg (events : List Event) (c : QueueCall) (hk : k = s.nextCall) (ha : a = .register events)
      (hc : c = .regPutting events ∨ c = .regCalling events ∨ c = .finished .queueClosed ∧ s.isOpen = true ∧ s.queueOpen = false ∨
        c = .finished .closed ∧ s.isOpen = false) : Moves s a k c
  | flush (c : QueueCall) (hk : k = s.nextCall) (ha : a = .flush)
      (hc : c = .flushPutting s.accepted.length ∨ c = .flushWaiting s.accepted.length ∨ c = .finished .closed) : Moves s a k c
  | enterReg (events : List Event) (h : s.calls k = .regPutting events) (ha : a = .enter k) (ho : s.queueOpen = true) (hf : s.full = false) :
      Moves s a k (.regCalling events)
  | failReg (events : List Event) (h : s.calls k = .regPutting events) (ha : a = .enter k) (ho : s.queueOpen = false) :
      Moves s a k (.finished .queueClosed)
  | enterFlush (seen : Nat) (h : s.calls k = .flushPutting seen) (ha : a = .enter k) (ho : s.queueOpen = true) (hf : s.full = false) :
      Moves s a k (.flushWaiting seen)
  | failFlush (seen : Nat) (h : s.calls k = .flushPutting seen) (ha : a = .enter k) (ho : s.queueOpen = false) : Moves s a k (.finished .closed)
  | called (events : List Event) (h : s.calls k = .regCalling events) (ha : a = .called k) : Moves s a k (.finished .done)
  | cancel (h1 : s.calls k ≠ .absent) (h2 : ∀ r, s.calls k ≠ .finished r) (ha : a = .cancel k) : Moves s a k (.finished .cancelled)
  | flushed (seen : Nat) (h : s.calls k = .flushWaiting seen) (items : List (Option Nat)) (lists : List (List Event)) (hl : s.loop = .flushing items lists)
      (hm : some k ∈ items) (ha : a = .done true) (ho : s.isOpen = true) (hf : (s.step a).flushed = s.flushed ++ lists) : Moves s a k (.finished .done)
  | refused (seen : Nat) (h : s.calls k = .flushWaiting seen) : Moves s a k (.finished .closed)

theorem moves_step (s : FlushQueue) (a : QueueAct) (k : Nat) : Moves s a k ((s.step a).calls k) := by
  have hstay : ∀ {c}, c = s.calls k → Moves s a k c := fun h => h ▸ .stay
  cases a with
  | register events =>
    by_cases hk : k = s.nextCall
    · refine .reg events _ hk rfl ?_
      simp only [step, register]
      split
      · next ho =>
        simp only [store]
        split
        · rw [putRegister_calls, if_pos hk]
          split
          · split
            · exact .inl rfl
            · exact .inr (.inl rfl)
          · next hq => exact .inr (.inr (.inl ⟨rfl, ho, by simpa using hq⟩))
        · simp [tell, setCall, hk]
      · next ho => simp [setCall, hk, ho]
    · exact hstay (register_calls events hk)
  | flush =>
    by_cases hk : k = s.nextCall
    · refine .flush _ hk rfl ?_
      simp only [step, flush]
      rw [putFlush_calls, if_pos hk]
      split
      · split
        · exact .inl rfl
        · exact .inr (.inl rfl)
      · exact .inr (.inr rfl)
    · exact hstay (flush_calls hk)
  | enter j =>
    by_cases hk : k = j
    · subst hk
      simp only [step, enter]
      cases hc : s.calls k with
      | regPutting events =>
        simp only
        rw [putRegister_calls, if_pos rfl]
        cases hq : s.queueOpen with
        | false => exact .failReg events hc rfl hq
        | true =>
          cases hf : s.full with
          | false => exact .enterReg events hc rfl hq hf
          | true => simpa using hstay hc.symm
      | flushPutting seen =>
        simp only
        rw [putFlush_calls, if_pos rfl]
        cases hq : s.queueOpen with
        | false => exact .failFlush seen hc rfl hq
        | true =>
          cases hf : s.full with
          | false => exact .enterFlush seen hc rfl hq hf
          | true => simpa using hstay hc.symm
      | _ => exact hstay rfl
    · refine hstay ?_
      simp only [step, enter]
      split
      · rw [putRegister_calls, if_neg hk]
      · rw [putFlush_calls, if_neg hk]
      · rfl
  | called j =>
    simp only [step, called]
    split
    · next events e =>
      by_cases hk : k = j
      · subst hk
        rw [setCall_calls, if_pos rfl]
        exact .called events e rfl
      · exact hstay (by rw [setCall_calls, if_neg hk])
    · exact hstay rfl
  | cancel j =>
    simp only [step, cancel]
    split
    · exact hstay rfl
    · exact hstay rfl
    · next h1 h2 =>
      by_cases hk : k = j
      · subst hk
        rw [setCall_calls, if_pos rfl]
        exact .cancel h1 h2 rfl
      · exact hstay (by rw [setCall_calls, if_neg hk])
  | start =>
    refine hstay ?_
    simp only [step, start]
    split <;> rfl
  | get =>
    refine hstay ?_
    simp only [step, get]
    split <;> rfl
  | drain =>
    refine hstay ?_
    simp only [step, drain]
    split <;> rfl
  | begin =>
    refine hstay ?_
    simp only [step, begin]
    split <;> rfl
  | done ok =>
    rcases done_calls (s := s) ok k with h | ⟨seen, r, h1, h2, h3⟩
    · exact hstay h
    · show Moves s _ k ((s.done ok).calls k)
      rw [h2]
      rcases h3 with rfl | ⟨rfl, items, lists, h4, h5, h6, rfl, h8⟩
      · exact .refused seen h1
      · exact .flushed seen h1 items lists h4 h5 rfl h8 h6
  | close => exact hstay rfl
  | stop =>
    rcases stop_calls (s := s) k with h | ⟨seen, h1, h2⟩
    · exact hstay h
    · show Moves s _ k (s.stop.calls k)
      rw [h2]
      exact .refused seen h1

/-- What an action may do to the lists that were stored and those the callback was called with. -/
inductive Tells (s : FlushQueue) (a : QueueAct) : FlushQueue → Prop
  | none {s' : FlushQueue} (ha : s'.accepted = s.accepted) (ht : s'.told = s.told) (hr : ∀ events, a = .register events → s.isOpen = false)
      (hc : ∀ events, a = .register events → s'.calls s.nextCall = .finished .closed) : Tells s a s'
  | stored {s' : FlushQueue} (events : List Event) (hr : a = .register events) (ho : s.isOpen = true) (ha : s'.accepted = s.accepted ++ [events])
      (ht : s'.told = s.told) (hc : s'.calls s.nextCall = .regPutting events ∨ s.queueOpen = false) (hn : s'.nextCall = s.nextCall + 1) : Tells s a s'
  | told {s' : FlushQueue} (events : List Event) (hr : a = .register events) (ho : s.isOpen = true) (ha : s'.accepted = s.accepted ++ [events])
      (ht : s'.told = s.told ++ [events]) (hc : s'.calls s.nextCall = .regCalling events) : Tells s a s'
  | entered {s' : FlushQueue} (k : Nat) (events : List Event) (he : a = .enter k) (hc : s.calls k = .regPutting events)
      (ha : s'.accepted = s.accepted) (ht : s'.told = s.told ++ [events]) (hc' : s'.calls k = .regCalling events) : Tells s a s'

theorem tells_step (s : FlushQueue) (a : QueueAct) : Tells s a (s.step a) := by
  cases a with
  | register events =>
    simp only [step, register]
    split
    · next ho =>
      simp only [store]
      split
      · unfold putRegister
        split
        · split
          · exact .stored events rfl ho rfl rfl (.inl (by simp [setCall])) rfl
          · exact .told events rfl ho rfl rfl (by simp [tell, setCall])
        · next hq => exact .stored events rfl ho rfl rfl (.inr (by simpa using hq)) rfl
      · exact .told events rfl ho rfl rfl (by simp [tell, setCall])
    · next ho => exact .none rfl rfl (fun _ _ => by simpa using ho) fun _ _ => by simp [setCall]
  | flush =>
    simp only [step, flush, putFlush, setCall]
    split_ifs <;> exact .none rfl rfl nofun nofun
  | enter k =>
    simp only [step, enter]
    split
    · next events e =>
      unfold putRegister
      split
      · split
        · exact .none rfl rfl nofun nofun
        · exact .entered k events rfl e rfl rfl (by simp [tell, setCall])
      · exact .none rfl rfl nofun nofun
    · simp only [putFlush, setCall]
      split_ifs <;> exact .none rfl rfl nofun nofun
    · exact .none rfl rfl nofun nofun
  | called k => simp only [step, called, setCall]; split <;> exact .none rfl rfl nofun nofun
  | cancel k => simp only [step, cancel, setCall]; split <;> exact .none rfl rfl nofun nofun
  | start => simp only [step, start]; split <;> exact .none rfl rfl nofun nofun
  | get => simp only [step, get]; split <;> exact .none rfl rfl nofun nofun
  | drain => simp only [step, drain]; split <;> exact .none rfl rfl nofun nofun
  | begin => simp only [step, begin]; split <;> exact .none rfl rfl nofun nofun
  | done ok =>
    simp only [step, done, flushedOk, finalise, resolve]
    split
    · split_ifs <;> exact .none rfl rfl nofun nofun
    · exact .none rfl rfl nofun nofun
    · exact .none rfl rfl nofun nofun
  | close => exact .none rfl rfl nofun nofun
  | stop =>
    simp only [step, stop, finalise, resolve]
    split
    · exact .none rfl rfl nofun nofun
    · split <;> exact .none rfl rfl nofun nofun

/-- Lists are added at the end. -/
theorem grows_step (s : FlushQueue) (a : QueueAct) : s.accepted <+: (s.step a).accepted ∧ s.flushed <+: (s.step a).flushed ∧ s.nextCall ≤ (s.step a).nextCall := by
  cases a with
  | register events =>
    simp only [step, register, store, putRegister, tell, setCall]
    split_ifs <;> simp
  | flush =>
    simp only [step, flush, putFlush, setCall]
    split_ifs <;> simp
  | enter k =>
    simp only [step, enter, putRegister, putFlush, tell, setCall]
    split
    · split_ifs <;> simp
    · split_ifs <;> simp
    · simp
  | called k => simp only [step, called, setCall]; split <;> simp
  | cancel k => simp only [step, cancel, setCall]; split <;> simp
  | start => simp only [step, start]; split <;> simp
  | get => simp only [step, get]; split <;> simp
  | drain => simp only [step, drain]; split <;> simp
  | begin => simp only [step, begin]; split <;> simp
  | done ok =>
    simp only [step, done]
    split
    · split
      · simp only [flushedOk]
        split <;> simp [resolve, finalise]
      · simp [resolve, finalise]
    · cases ok <;> simp
    · simp
  | close => simp [step]
  | stop =>
    simp only [step, stop]
    split
    · simp
    · split <;> simp [resolve, finalise]

end FlushQueue
end HatEvent
