/-!
# Endless schedules

A schedule that does not end, as a function of time.
-/

namespace HatEvent.Spec

/-- The beginning of an endless schedule. -/
def upTo {α : Type} (acts : Nat → α) (n : Nat) : List α := (List.range n).map acts

/-- Something is done again and again. -/
def Often {α : Type} (acts : Nat → α) (a : α) : Prop := ∀ n, ∃ m, n ≤ m ∧ acts m = a

end HatEvent.Spec
