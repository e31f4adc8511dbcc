/-
The single precision number nearest to a number.
-/
import Verif.Spec.DecimalText

namespace Verif.Spec

/-- `m` (in units of 2^-149) is a single precision number nearest to `q`. -/
def NearestSingle (q : ℚ) (m : Nat) : Prop :=
  IsMagnitude m ∧ ∀ m', IsMagnitude m' → |(m : ℚ) / 2 ^ 149 - q| ≤ |(m' : ℚ) / 2 ^ 149 - q|

end Verif.Spec
