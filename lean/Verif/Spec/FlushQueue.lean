import Verif.Model.FlushQueue
import Verif.Spec.Schedule

/-!
# Words about calls of `register` and `flush`
-/

namespace HatEvent.Spec

/-- Calls of `register` that wait for room in the queue. -/
def waitingRegs (s : FlushQueue) : List Nat :=
  (List.range s.nextCall).filter fun k =>
    match s.calls k with
    | .regPutting _ => true
    | _ => false

/-- Events that were registered and that no flush has begun to write. -/
def unflushed (s : FlushQueue) : Nat := (s.registered.map List.length).sum

/-- No call is cancelled. -/
def NoCancel (acts : List QueueAct) : Prop := ∀ k, .cancel k ∉ acts

/-- At no time do more than `n` calls of `register` wait for room. -/
def AtMostWaiting (capacity limit n : Nat) (acts : List QueueAct) : Prop :=
  ∀ before, before <+: acts → (waitingRegs ((FlushQueue.init capacity limit).run before)).length ≤ n

/-- A call of `register` has not ended. -/
def Registering : QueueCall → Prop
  | .regPutting _ => True
  | .regCalling _ => True
  | _ => False

/-- Each call of `register` is made after all others have ended. -/
def OneByOne (capacity limit : Nat) (acts : List QueueAct) : Prop :=
  ∀ before events, before ++ [.register events] <+: acts → ∀ k, ¬ Registering (((FlushQueue.init capacity limit).run before).calls k)

/-- The flush loop goes on: it starts, takes requests, flushes end, and a closed backend cancels it. -/
structure FlushGoesOn (acts : Nat → QueueAct) : Prop where
  start : Often acts .start
  drain : Often acts .drain
  begin : Often acts .begin
  done : ∀ n, ∃ m, n ≤ m ∧ ∃ ok, acts m = .done ok
  stop : Often acts .stop

/-- A call gets its turn again and again, also at times when there is room in the queue, and callbacks end. -/
structure PutGoesOn (s : Nat → FlushQueue) (acts : Nat → QueueAct) (k : Nat) : Prop where
  enter : ∀ n, ∃ m, n ≤ m ∧ acts m = .enter k ∧ (s m).full = false
  called : Often acts (.called k)

end HatEvent.Spec
