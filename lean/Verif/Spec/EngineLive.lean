import Verif.Spec.Engine
import Verif.Spec.Schedule

/-!
# Engines that go on
-/

namespace HatEvent.Spec

/-- What the register loop waits for: its own next step, the return of a call
that tells a module about a session, of a call of `process` or of the backend, or
the end of closing. -/
inductive LoopStep where
  | take | next | told | processed | registered | finished
  deriving DecidableEq, Repr

/-- The step of the register loop that an action is, if any. -/
def loopStep : EngineAct → Option LoopStep
  | .take _ => some .take
  | .next => some .next
  | .told => some .told
  | .processed _ => some .processed
  | .registered _ _ => some .registered
  | .finished => some .finished
  | _ => none

/-- Everything the register loop waits for happens again and again: the loop goes
on, modules and the backend return. -/
def LoopFair (acts : Nat → EngineAct) : Prop := ∀ k n, ∃ m, n ≤ m ∧ loopStep (acts m) = some k

/-- The engine after the beginning of an endless schedule. -/
def engineAt (conf : EngineConf) (last : EventId) (acts : Nat → EngineAct) (n : Nat) : Engine :=
  (Engine.create conf last).run (upTo acts n)

/-- The register loop is started, and so before the engine is closed. -/
def Started (conf : EngineConf) (last : EventId) (acts : Nat → EngineAct) : Prop :=
  ∃ k, (engineAt conf last acts k).phase = .creating ∧ acts k = .spawn

/-- In no session do modules return new events for ever. -/
def Calm (conf : EngineConf) (last : EventId) (acts : Nat → EngineAct) : Prop :=
  ∀ session, ∃ N, ∀ n, (madeIn (engineAt conf last acts n) session).length ≤ N

/-- Call number `i` of `register` has an outcome. -/
def Answered (s : Engine) (i : Nat) : Prop := ∃ o, (i, o) ∈ s.outcomes

/-- The loop is inside a call of a module: told of a session, or processing an event,
`engine.py:158-160,175-186,190-191`. -/
def InModule : EnginePhase → Prop
  | .starting _ _ (_ + 1) => True
  | .processing _ _ _ (_ :: _) _ => True
  | .stopping _ _ (_ + 1) => True
  | _ => False

/-- The call of the module returns or fails, or somebody gives up. -/
def Breaks : EngineAct → Prop
  | .told => True
  | .processed _ => True
  | .raise _ _ => True
  | .close _ => True
  | .cancel _ => True
  | _ => False

end HatEvent.Spec
