/-
Specification of the accuracy of the functions of numpy that DCG uses, and of the value 1 and its neighbours in single precision.
-/
import Mathlib.Analysis.SpecialFunctions.Log.Base

namespace Verif.Spec

/-- The computed logarithms are off by at most 2^-50 (two units in the last place). -/
def AccurateLog (log2 : Nat → ℚ) : Prop := ∀ k, 2 ≤ k → |(log2 k : ℝ) - Real.logb 2 k| ≤ Real.logb 2 k / 2 ^ 50

/-- The computed powers of 2 with small integers are exact. -/
def ExactPowers (exp2 : ℚ → ℚ) : Prop := ∀ k : Nat, k ≤ 24 → exp2 k = 2 ^ k

/-- The single precision number 1, in units of 2^-149. -/
def singleOne : Int := 2 ^ 149

/-- The largest single precision number below 1, which is 1 - 2^-24, in units of 2^-149. -/
def belowOne : Int := 2 ^ 149 - 2 ^ 125

end Verif.Spec
