import Verif.Model.Time
import Mathlib.Data.Rat.Floor
import Mathlib.Algebra.Order.Ring.Abs
import Mathlib.Algebra.Field.Rat

/-!
# Specification: instants
-/

namespace HatEvent
namespace Spec

/-- Microseconds in range. -/
def Normal (t : Timestamp) : Prop := 0 ≤ t.us ∧ t.us < 1000000

/-- The instant a timestamp denotes, in microseconds. -/
def micros (t : Timestamp) : Int := t.s * 1000000 + t.us

/-- Rounding of IEEE double precision: relative error at most 2^-53, plus
(near zero) a tiny absolute one; integers up to 2^53 are exact. -/
structure IsDouble (fl : Rat → Rat) : Prop where
  error : ∀ x, |fl x - x| ≤ |x| / 2 ^ 53 + 1 / 2 ^ 200
  int : ∀ n : Int, |n| ≤ 2 ^ 53 → fl n = n

/-- Rounding of IEEE double precision between 2^34 and 2^35, where doubles are
the multiples of 2^-18. -/
def double34 (x : Rat) : Rat := pyRound (x * 2 ^ 18) / 2 ^ 18

end Spec
end HatEvent
