import Verif.Model.Collection
import Verif.Spec.Subscription

/-!
# Specification: which values a collection holds after a history
-/

namespace HatEvent
namespace Spec
variable {V : Type}

/-- After the history, `v` is registered with a subscription satisfying `P`:
it was added with such a subscription and not removed since. -/
def RegisteredWith (P : Sub → Prop) (ops : List (CollOp V)) (v : V) : Prop :=
  ∃ pre s post, ops = pre ++ .add s v :: post ∧ .remove v ∉ post ∧ P s

/-- After the history, `v` is registered with a subscription matching `e`. -/
def Registered (ops : List (CollOp V)) (v : V) (e : EventType) : Prop :=
  RegisteredWith (fun s => s.matches e = true) ops v

/-- No value is added again while it is registered. -/
def NoReAdd (ops : List (CollOp V)) : Prop :=
  ∀ pre s v post, ops = pre ++ .add s v :: post → ¬ RegisteredWith (fun _ => True) pre v

/-- All subscriptions used in the history are obtainable ones. -/
def ObtainableOps (ops : List (CollOp V)) : Prop :=
  ∀ s v, .add s v ∈ ops → Obtainable s

end Spec
end HatEvent
