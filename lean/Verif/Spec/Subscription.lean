import Verif.Model.CSubscription
import Verif.Spec.Matches

/-!
# Specification vocabulary for subscriptions
-/

namespace HatEvent
namespace Spec

/-- No segment of the type contains the NUL character. -/
def NulFree (q : EventType) : Prop := ∀ s ∈ q, ∀ c ∈ s.toList, c.toNat ≠ 0

/-- Two ways of creating a subscription from query types. -/
inductive Impl where
  | py
  | c

/-- `Impl.create i qs`: `PySubscription(qs)` or `CSubscription(qs)`. -/
def Impl.create : Impl → List EventType → Except PyErr Sub
  | .py, qs => Sub.createPy qs
  | .c, qs => Sub.createC qs

/-- Subscriptions a program can hold: created from query types (without NUL
characters), or returned by `union`/`intersection` of such subscriptions. -/
inductive Obtainable : Sub → Prop
  | create {i : Impl} {qs : List EventType} {s : Sub} :
      (∀ q ∈ qs, NulFree q) → i.create qs = .ok s → Obtainable s
  | union {self : Sub} {others : List Sub} {s : Sub} :
      Obtainable self → (∀ o ∈ others, Obtainable o) → self.union others = .ok s →
      Obtainable s
  | intersection {self : Sub} {others : List Sub} {s : Sub} :
      Obtainable self → (∀ o ∈ others, Obtainable o) → self.intersection others = .ok s →
      Obtainable s

/-- `q` is exhausted by an event type after which `r` goes on: some event type
matched by `q` is also matched by a proper prefix of `r` of the same length
(e.g. `("a",)` and `("a", "b")`). -/
def ProperPrefix (q r : EventType) : Prop :=
  ∃ e, Matches e q ∧ e.length < r.length ∧ Matches e (r.take e.length)

/-- Query type `q` is a wildcard whose `*` stands for nothing in `e`
(e.g. `("a", "*")` and `("a",)`). -/
def EmptyTail (e q : EventType) : Prop :=
  Matches e q ∧ q.getLast? = some "*" ∧ q.length = e.length + 1

end Spec
end HatEvent
