import Verif.Proof.FlushQueueCalls
import Mathlib.Tactic.Ring

/-!
# How many events wait for a flush
-/

namespace HatEvent
open Spec
namespace FlushQueue
variable {s : FlushQueue}

/-- A call of `register` waits for room. -/
def isPutting : QueueCall → Bool
  | .regPutting _ => true
  | _ => false

/-- Number of calls that wait, below a number. -/
def putCount (calls : Nat → QueueCall) (n : Nat) : Nat := ((List.range n).filter fun k => isPutting (calls k)).length

theorem waitingRegs_length : (waitingRegs s).length = putCount s.calls s.nextCall := by
  unfold waitingRegs putCount
  congr 2

theorem putCount_succ (calls : Nat → QueueCall) (n : Nat) :
    putCount calls (n + 1) = putCount calls n + (if isPutting (calls n) then 1 else 0) := by
  unfold putCount
  rw [List.range_succ, List.filter_append, List.length_append]
  congr 1
  by_cases h : isPutting (calls n) = true <;> simp [h]

theorem putCount_congr {calls calls' : Nat → QueueCall} {n : Nat} (h : ∀ k, k < n → isPutting (calls' k) = isPutting (calls k)) :
    putCount calls' n = putCount calls n := by
  induction n with
  | zero => rfl
  | succ n ih => rw [putCount_succ, putCount_succ, ih fun k hk => h k (by omega), h n (by omega)]

theorem putCount_set {calls : Nat → QueueCall} {k n : Nat} (c : QueueCall) (hk : k < n) :
    putCount (fun i => if i = k then c else calls i) n + (if isPutting (calls k) then 1 else 0) =
      putCount calls n + (if isPutting c then 1 else 0) := by
  induction n with
  | zero => omega
  | succ n ih =>
    rw [putCount_succ, putCount_succ]
    by_cases e : k = n
    · subst e
      rw [putCount_congr (calls := calls) (n := k) (fun j hj => by rw [if_neg (by omega)]), if_pos rfl]
      omega
    · rw [if_neg (show ¬ n = k from fun h => e h.symm)]
      have := ih (by omega)
      omega

/-- Requests without future. -/
def nones (l : List (Option Nat)) : Nat := (l.filter Option.isNone).length

theorem nones_append (l m : List (Option Nat)) : nones (l ++ m) = nones l + nones m := by
  simp [nones, List.filter_append]

theorem nones_cons (x : Option Nat) (l : List (Option Nat)) : nones (x :: l) = nones [x] + nones l := nones_append [x] l

theorem nones_le (l : List (Option Nat)) : nones l ≤ l.length := List.length_filter_le _ _

/-- Requests that were taken and whose flush has not begun. -/
def taken : FlushAt → List (Option Nat)
  | .got item => [item]
  | .ready items => items
  | _ => []

/-- Requests of `register` that no flush has answered. -/
def out (s : FlushQueue) : Nat := nones s.queue + nones (taken s.loop) + putCount s.calls s.nextCall

/-- The bound. -/
def Bounded (B : Nat) (s : FlushQueue) : Prop := s.queueOpen = true → s.count ≤ s.limit + B * s.out

theorem out_call {s' : FlushQueue} (h1 : s'.queue = s.queue) (h2 : s'.loop = s.loop) (h3 : s'.nextCall = s.nextCall)
    (h4 : ∀ k, k < s.nextCall → isPutting (s'.calls k) = isPutting (s.calls k)) : s'.out = s.out := by
  unfold out
  rw [h1, h2, h3, putCount_congr h4]

theorem resolve_isPutting (items : List (Option Nat)) (r : QueueEnd) (k : Nat) : isPutting ((s.resolve items r).calls k) = isPutting (s.calls k) := by
  rcases resolve_calls (s := s) items r k with e | ⟨e, _, seen, e'⟩
  · rw [e]
  · rw [e, e']; rfl

theorem putCount_new {calls : Nat → QueueCall} {n : Nat} (c : QueueCall) :
    putCount (fun i => if i = n then c else calls i) (n + 1) = putCount calls n + (if isPutting c then 1 else 0) := by
  rw [putCount_succ, putCount_congr (calls := calls) (n := n) (fun k hk => by rw [if_neg (by omega)]), if_pos rfl]

theorem bounded_register {B : Nat} (hg : Good s) (h : Bounded B s) {events : List Event} (hB : events.length ≤ B) : Bounded B (s.register events) := by
  unfold Bounded at h ⊢
  unfold register
  simp only
  split
  · next ho =>
    have hq : s.queueOpen = true := by
      rw [hg.openQ, hg.openB ho]; rfl
    have h := h hq
    unfold store
    simp only
    split
    · unfold putRegister
      simp only [hq, if_true]
      split
      · intro _
        simp only [setCall, out] at h ⊢
        rw [putCount_new]
        simp only [isPutting, if_true]
        have : B * (nones s.queue + nones (taken s.loop) + (putCount s.calls s.nextCall + 1)) =
          B * (nones s.queue + nones (taken s.loop) + putCount s.calls s.nextCall) + B := by ring
        omega
      · intro _
        simp only [tell, setCall, out, nones_append] at h ⊢
        rw [putCount_new]
        simp only [isPutting]
        have : B * (nones s.queue + nones [none] + nones (taken s.loop) + (putCount s.calls s.nextCall + 0)) =
          B * (nones s.queue + nones (taken s.loop) + putCount s.calls s.nextCall) + B := by simp [nones]; ring
        simp only [Bool.false_eq_true, if_false]
        omega
    · next hl =>
      intro _
      simp only [tell, setCall] at hl ⊢
      omega
  · intro hq
    have h := h hq
    simp only [setCall, out] at h ⊢
    rw [putCount_new]
    simpa [isPutting] using h

theorem bounded_step {B : Nat} (hg : Good s) (h : Bounded B s) (a : QueueAct) (hB : ∀ events, a = .register events → events.length ≤ B)
    (hc : ∀ k, a ≠ .cancel k) : Bounded B (s.step a) := by
  cases a with
  | register events => exact bounded_register hg h (hB events rfl)
  | cancel k => exact absurd rfl (hc k)
  | flush =>
    intro hq
    simp only [step, flush, putFlush] at hq ⊢
    split at hq
    · next ho =>
      have h := h ho
      rw [if_pos ho]
      split
      · simp only [setCall, out] at h ⊢
        rw [putCount_new]
        simpa [isPutting] using h
      · simp only [setCall, out, nones_append] at h ⊢
        rw [putCount_new]
        simpa [isPutting, nones] using h
    · next ho => exact absurd hq (by simpa [setCall] using ho)
  | enter k =>
    intro hq
    simp only [step, enter] at hq ⊢
    cases hk : s.calls k with
    | regPutting events =>
      simp only [hk] at hq ⊢
      unfold putRegister at hq ⊢
      split at hq
      · next ho =>
        have h := h ho
        have hlt := hg.lt hk nofun
        rw [if_pos ho]
        split
        · rw [show (s.setCall k (.regPutting events)).out = s.out from out_call rfl rfl rfl fun j _ => by
            rw [setCall_calls]
            split
            · next e => rw [e, hk]
            · rfl]
          exact h
        · simp only [tell, setCall, out, nones_append] at h ⊢
          have := putCount_set (calls := s.calls) (.regCalling events) hlt
          rw [hk] at this
          simp only [isPutting, if_true, Bool.false_eq_true, if_false, Nat.add_zero] at this
          rw [show nones s.queue + nones [none] + nones (taken s.loop) + putCount (fun i => if i = k then QueueCall.regCalling events else s.calls i) s.nextCall =
            nones s.queue + nones (taken s.loop) + putCount s.calls s.nextCall by simp [nones]; omega]
          exact h
      · next ho => exact absurd hq (by simpa [setCall] using ho)
    | flushPutting seen =>
      simp only [hk] at hq ⊢
      unfold putFlush at hq ⊢
      split at hq
      · next ho =>
        have h := h ho
        have hlt := hg.lt hk nofun
        rw [if_pos ho]
        split
        · rw [show (s.setCall k (.flushPutting seen)).out = s.out from out_call rfl rfl rfl fun j _ => by
            rw [setCall_calls]
            split
            · next e => rw [e, hk]
            · rfl]
          exact h
        · simp only [setCall, out, nones_append] at h ⊢
          have := putCount_set (calls := s.calls) (.flushWaiting seen) hlt
          rw [hk] at this
          simp only [isPutting, Bool.false_eq_true, if_false, Nat.add_zero] at this
          rw [this]
          simpa [nones] using h
      · next ho => exact absurd hq (by simpa [setCall] using ho)
    | _ => simp only [hk] at hq ⊢; exact h hq
  | called k =>
    intro hq
    simp only [step, called] at hq ⊢
    cases hk : s.calls k with
    | regCalling events =>
      simp only [hk] at hq ⊢
      rw [show (s.setCall k (.finished .done)).out = s.out from out_call rfl rfl rfl fun j _ => by
        rw [setCall_calls]
        split
        · next e => rw [e, hk]; rfl
        · rfl]
      exact h hq
    | _ => simp only [hk] at hq ⊢; exact h hq
  | start =>
    intro hq
    simp only [step, start] at hq ⊢
    split
    · next e =>
      simp only [e] at hq
      have := h hq
      simp only [out, e, taken] at this ⊢
      exact this
    · next hn =>
      refine h ?_
      split at hq
      · next e => exact absurd e hn
      · exact hq
  | get =>
    intro hq
    cases hl : s.loop with
    | waiting =>
      cases hqu : s.queue with
      | nil =>
        have e : s.step .get = s := by simp only [step, get, hl, hqu]
        rw [e] at hq ⊢
        exact h hq
      | cons item rest =>
        have e : s.step .get = { s with loop := .got item, queue := rest } := by simp only [step, get, hl, hqu]
        rw [e] at hq ⊢
        have := h hq
        simp only [out, hl, hqu, taken] at this ⊢
        rw [nones_cons] at this
        rw [show nones rest + nones [item] = nones [item] + nones rest + nones [] by simp [nones]; omega]
        exact this
    | _ =>
      have e : s.step .get = s := by simp only [step, get, hl]
      rw [e] at hq ⊢
      exact h hq
  | drain =>
    intro hq
    cases hl : s.loop with
    | waiting =>
      have e : s.step .drain = { s with loop := .ready s.queue, queue := [] } := by simp only [step, drain, hl]
      rw [e] at hq ⊢
      have := h hq
      simp only [out, hl, taken] at this ⊢
      rw [show nones [] + nones s.queue = nones s.queue + nones [] by omega]
      exact this
    | got item =>
      have e : s.step .drain = { s with loop := .ready (item :: s.queue), queue := [] } := by simp only [step, drain, hl]
      rw [e] at hq ⊢
      have := h hq
      simp only [out, hl, taken] at this ⊢
      rw [nones_cons, show nones [] + (nones [item] + nones s.queue) = nones s.queue + nones [item] by simp [nones]; omega]
      exact this
    | _ =>
      have e : s.step .drain = s := by simp only [step, drain, hl]
      rw [e] at hq ⊢
      exact h hq
  | begin =>
    intro hq
    simp only [step, begin] at hq ⊢
    split
    · exact Nat.zero_le _
    · exact Nat.zero_le _
    · next h1 h2 =>
      refine h ?_
      split at hq
      · next e => exact absurd e (h1 _)
      · next e => exact absurd e h2
      · exact hq
  | done ok =>
    intro hq
    cases hl : s.loop with
    | flushing items lists =>
      simp only [step, done, hl] at hq ⊢
      split at hq
      · next hok =>
        simp only [hok, if_true] at hq ⊢
        unfold flushedOk at hq ⊢
        simp only at hq ⊢
        split at hq
        · next ho =>
          rw [if_pos ho]
          have := h hq
          have e : putCount (FlushQueue.resolve { s with flushed := s.flushed ++ lists } items .done).calls s.nextCall = putCount s.calls s.nextCall :=
            putCount_congr fun k _ => resolve_isPutting (s := { s with flushed := s.flushed ++ lists }) _ _ k
          simp only [out, hl, taken] at this ⊢
          change s.count ≤ s.limit + B * (nones s.queue + nones [] + putCount (FlushQueue.resolve { s with flushed := s.flushed ++ lists } items .done).calls s.nextCall)
          rw [e]
          exact this
        · cases hq
      · cases hq
    | closing lists =>
      have : s.queueOpen = false := by rw [hg.openQ, hl]; rfl
      cases lists <;> simp only [step, done, hl, this, Bool.false_eq_true] at hq
    | _ =>
      have e : s.step (.done ok) = s := by simp only [step, done, hl]
      rw [e] at hq ⊢
      exact h hq
  | close => exact h
  | stop =>
    intro hq
    cases ho : s.isOpen with
    | true =>
      have e : s.step .stop = s := by simp only [step, stop, ho, if_true]
      rw [e] at hq ⊢
      exact h hq
    | false =>
      cases hl : s.loop with
      | spawned =>
        have e : s.step .stop = { s with loop := .never } := by simp [step, stop, ho, hl]
        rw [e] at hq ⊢
        have := h hq
        simp only [out, hl, taken] at this ⊢
        exact this
      | waiting => simp [step, stop, ho, hl, finalise] at hq
      | got item => simp [step, stop, ho, hl, finalise] at hq
      | _ =>
        have e : s.step .stop = s := by simp [step, stop, ho, hl]
        rw [e] at hq ⊢
        exact h hq

/-- Places in the queue, and the counter. -/
structure Room (s : FlushQueue) : Prop where
  queue : 0 < s.capacity → s.queue.length ≤ s.capacity
  taken : 0 < s.capacity → (taken s.loop).length ≤ s.capacity + 1
  count : s.count = unflushed s

/-- Sizes do not change. -/
theorem sizes_step (s : FlushQueue) (a : QueueAct) : (s.step a).capacity = s.capacity ∧ (s.step a).limit = s.limit := by
  cases a with
  | register events =>
    simp only [step, register, store, putRegister, tell, setCall]
    split_ifs <;> simp
  | flush =>
    simp only [step, flush, putFlush, setCall]
    split_ifs <;> simp
  | enter k =>
    simp only [step, enter, putRegister, putFlush, tell, setCall]
    split
    · split_ifs <;> simp
    · split_ifs <;> simp
    · simp
  | called k => simp only [step, called, setCall]; split <;> simp
  | cancel k => simp only [step, cancel, setCall]; split <;> simp
  | start => simp only [step, start]; split <;> simp
  | get => simp only [step, get]; split <;> simp
  | drain => simp only [step, drain]; split <;> simp
  | begin => simp only [step, begin]; split <;> simp
  | done ok =>
    simp only [step, done]
    split
    · split
      · simp only [flushedOk]
        split <;> simp [resolve, finalise]
      · simp [resolve, finalise]
    · simp
    · simp
  | close => simp [step]
  | stop =>
    simp only [step, stop]
    split
    · simp
    · split <;> simp [resolve, finalise]

theorem not_full {s : FlushQueue} (h : ¬ s.full = true) (hc : 0 < s.capacity) : s.queue.length + 1 ≤ s.capacity := by
  simp only [full, Bool.and_eq_true, decide_eq_true_eq, not_and] at h
  have := h hc
  omega

theorem Room.congr {s' : FlushQueue} (h : Room s) (h1 : s'.queue = s.queue) (h2 : s'.loop = s.loop) (h3 : s'.count = s.count) (h4 : s'.registered = s.registered)
    (h5 : s'.capacity = s.capacity) : Room s' where
  queue hc := by rw [h1, h5] at *; exact h.queue hc
  taken hc := by rw [h2, h5] at *; exact h.taken hc
  count := by unfold unflushed; rw [h3, h4]; exact h.count

theorem Room.put {s' : FlushQueue} (h : Room s) {x : Option Nat} (hf : ¬ s.full = true) (h1 : s'.queue = s.queue ++ [x]) (h2 : s'.loop = s.loop) (h3 : s'.count = s.count)
    (h4 : s'.registered = s.registered) (h5 : s'.capacity = s.capacity) : Room s' where
  queue hc := by
    rw [h5] at hc
    rw [h1, h5, List.length_append]
    exact not_full hf hc
  taken hc := by rw [h2, h5] at *; exact h.taken hc
  count := by unfold unflushed; rw [h3, h4]; exact h.count

theorem Room.putRegister (h : Room s) (k : Nat) (events : List Event) : Room (s.putRegister k events) := by
  unfold FlushQueue.putRegister
  split
  · split
    · exact h.congr rfl rfl rfl rfl rfl
    · next hf => exact h.put hf rfl rfl rfl rfl rfl
  · exact h.congr rfl rfl rfl rfl rfl

theorem Room.putFlush (h : Room s) (k seen : Nat) : Room (s.putFlush k seen) := by
  unfold FlushQueue.putFlush
  split
  · split
    · exact h.congr rfl rfl rfl rfl rfl
    · next hf => exact h.put hf rfl rfl rfl rfl rfl
  · exact h.congr rfl rfl rfl rfl rfl

theorem room_step (h : Room s) (a : QueueAct) : Room (s.step a) := by
  cases a with
  | register events =>
    simp only [step, register]
    split
    · simp only [store]
      have h' : Room { s with nextCall := s.nextCall + 1, registered := s.registered ++ [events], accepted := s.accepted ++ [events], count := s.count + events.length } :=
        ⟨h.queue, h.taken, by
          show s.count + events.length = _
          rw [h.count]
          simp [unflushed]⟩
      split
      · exact h'.putRegister _ _
      · exact h'.congr rfl rfl rfl rfl rfl
    · exact h.congr rfl rfl rfl rfl rfl
  | flush => exact (h.congr (s' := { s with nextCall := s.nextCall + 1 }) rfl rfl rfl rfl rfl).putFlush _ _
  | enter k =>
    simp only [step, enter]
    split
    · exact h.putRegister _ _
    · exact h.putFlush _ _
    · exact h
  | called k =>
    simp only [step, called]
    split
    · exact h.congr rfl rfl rfl rfl rfl
    · exact h
  | cancel k =>
    simp only [step, cancel]
    split
    · exact h
    · exact h
    · exact h.congr rfl rfl rfl rfl rfl
  | start =>
    simp only [step, start]
    split
    · exact ⟨h.queue, fun _ => Nat.zero_le _, h.count⟩
    · exact h
  | get =>
    simp only [step, get]
    split
    · next item rest e1 e2 =>
      refine ⟨fun hc => ?_, fun _ => by simp [FlushQueue.taken], h.count⟩
      have := h.queue hc
      rw [e2] at this
      simp only [List.length_cons] at this ⊢
      omega
    · exact h
  | drain =>
    simp only [step, drain]
    split
    · exact ⟨fun _ => Nat.zero_le _, fun hc => Nat.le_succ_of_le (h.queue hc), h.count⟩
    · exact ⟨fun _ => Nat.zero_le _, fun hc => Nat.succ_le_succ (h.queue hc), h.count⟩
    · exact h
  | begin =>
    simp only [step, begin]
    split
    · exact ⟨h.queue, fun _ => Nat.zero_le _, rfl⟩
    · exact ⟨h.queue, fun _ => Nat.zero_le _, rfl⟩
    · exact h
  | done ok =>
    simp only [step, done]
    split
    · split
      · simp only [flushedOk]
        split
        · exact ⟨h.queue, fun _ => Nat.zero_le _, h.count⟩
        · exact ⟨fun _ => Nat.zero_le _, fun _ => Nat.zero_le _, h.count⟩
      · exact ⟨fun _ => Nat.zero_le _, fun _ => Nat.zero_le _, h.count⟩
    · exact ⟨h.queue, fun _ => Nat.zero_le _, h.count⟩
    · exact h
  | close => exact h.congr rfl rfl rfl rfl rfl
  | stop =>
    simp only [step, stop]
    split
    · exact h
    · split
      · exact ⟨h.queue, fun _ => Nat.zero_le _, h.count⟩
      · exact ⟨fun _ => Nat.zero_le _, fun _ => Nat.zero_le _, h.count⟩
      · exact ⟨fun _ => Nat.zero_le _, fun _ => Nat.zero_le _, h.count⟩
      · exact h

/-- Only `register` of an open backend adds events. -/
theorem count_step (s : FlushQueue) (a : QueueAct) : (s.step a).count ≤ s.count ∨ ∃ events, a = .register events ∧ s.isOpen = true := by
  cases a with
  | register events =>
    cases ho : s.isOpen with
    | true => exact .inr ⟨events, rfl, rfl⟩
    | false => left; simp [step, register, ho, setCall]
  | flush =>
    left
    simp only [step, flush, putFlush, setCall]
    split_ifs <;> simp
  | enter k =>
    left
    simp only [step, enter, putRegister, putFlush, tell, setCall]
    split
    · split_ifs <;> simp
    · split_ifs <;> simp
    · simp
  | called k => left; simp only [step, called, setCall]; split <;> simp
  | cancel k => left; simp only [step, cancel, setCall]; split <;> simp
  | start => left; simp only [step, start]; split <;> simp
  | get => left; simp only [step, get]; split <;> simp
  | drain => left; simp only [step, drain]; split <;> simp
  | begin => left; simp only [step, begin]; split <;> simp
  | done ok =>
    left
    simp only [step, done]
    split
    · split
      · simp only [flushedOk]
        split <;> simp [resolve, finalise]
      · simp [resolve, finalise]
    · simp
    · simp
  | close => left; simp [step]
  | stop =>
    left
    simp only [step, stop]
    split
    · simp
    · split <;> simp [resolve, finalise]

theorem register_open (h : s.queueOpen = true) (events : List Event) : (s.register events).queueOpen = true := by
  simp only [register, store, putRegister, tell, setCall]
  split_ifs <;> simp_all

end FlushQueue
end HatEvent
