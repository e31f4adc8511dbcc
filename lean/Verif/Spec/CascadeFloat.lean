/-
Specification of the accuracy of powers.
-/
import Mathlib.Data.Rat.Defs
import Mathlib.Algebra.Order.Field.Rat

namespace Verif.Spec

/-- The computed powers of a number from 0 to 1 are from 0 to 1 and off by at most 2^-52 (one unit in the last place of 1). -/
def AccuratePower (p : ℚ) (pw : Nat → ℚ) : Prop := ∀ i, 0 ≤ pw i ∧ pw i ≤ 1 ∧ |pw i - p ^ i| ≤ 1 / 2 ^ 52

end Verif.Spec
