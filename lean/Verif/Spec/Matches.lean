import Verif.Model.Matches

/-!
# Specification: what it means for a query type to match an event type

Independent of the implementation: the documented rules
(docstring of `common/matches.py:7-29`, `docs/event.rst`) as an inductive
relation.
-/

namespace HatEvent
namespace Spec

/-- `Matches e q`: event type `e` is matched by query type `q`. -/
inductive Matches : EventType → EventType → Prop
  /-- a query type without subtypes is matched by the event type without
  subtypes -/
  | nil : Matches [] []
  /-- a final `*` matches zero or more subtypes -/
  | star (e : EventType) : Matches e ["*"]
  /-- `?` matches exactly one subtype of any value -/
  | any (s : Segment) {e q : EventType} : Matches e q → Matches (s :: e) ("?" :: q)
  /-- any other subtype matches a subtype of the same value -/
  | same (s : Segment) {e q : EventType} : Matches e q → Matches (s :: e) (s :: q)

/-- A query type is well formed if `*` occurs at most as the last subtype. -/
def WellFormed (q : EventType) : Prop := "*" ∉ q.dropLast

/-- An event type is in the language of a list of query types. -/
def MatchesAny (qs : List EventType) (e : EventType) : Prop :=
  ∃ q ∈ qs, Matches e q

end Spec
end HatEvent
