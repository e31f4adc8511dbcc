/-
Specification of numbers with six decimals, and of the tests of scikit-learn.
-/
import Verif.Spec.ExactNumbers
import Verif.Spec.Dump

namespace Verif.Spec
open Decimal

/-- `r` is the multiple of 10^-6 nearest to `q`, the even one of two. -/
def SixDecimals (q r : ℚ) : Prop :=
  ∃ k : Nat, r = k / 10 ^ 6 ∧ ∀ n : Int, |r - q| ≤ |(n : ℚ) / 10 ^ 6 - q| ∧ (|r - q| = |(n : ℚ) / 10 ^ 6 - q| → n = k ∨ k % 2 = 0)

/-- The test of scikit-learn: a feature in single precision and a threshold in double precision are compared exactly. -/
def skTest (row : List Single) (f : Nat) (t : Signed) : Bool :=
  match row[f]? with
  | some (.num s m) => exactLe (s, m / 2 ^ 149) t
  | _ => false

/-- The value `s, m` is at least half of 10^-6 below the threshold, or above it and not the next number above. -/
def Clear (s : Bool) (m : Nat) (t : Signed) : Prop :=
  exactValue (s, m / 2 ^ 149) + 1 / (2 * 10 ^ 6) ≤ exactValue t ∨
  ∃ s' m', IsMagnitude m' ∧ exactValue t + 1 / (2 * 10 ^ 6) ≤ exactValue (s', m' / 2 ^ 149) ∧
    exactValue (s', (m' : ℚ) / 2 ^ 149) < exactValue (s, (m : ℚ) / 2 ^ 149)

namespace LTree
variable {F : Type}

/-- The tests of a tree: features and thresholds. -/
def tests : LTree F → List (Nat × F)
  | leaf _ _ => []
  | node _ f t l r => (f, t) :: (l.tests ++ r.tests)

end LTree
end Verif.Spec
