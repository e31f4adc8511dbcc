/-
Specification of the errors of averages.
-/
import Mathlib.Data.Real.Basic

namespace Verif.Spec
variable {F : Type}

/-- The mean of the defined values. -/
noncomputable def definedMean (xs : List (Option ℝ)) : ℝ := (xs.filterMap id).sum / (xs.filterMap id).length

/-- The mean of the absolute values of the defined values. -/
noncomputable def definedSize (xs : List (Option ℝ)) : ℝ := ((xs.filterMap id).map (fun x => |x|)).sum / (xs.filterMap id).length

/-- The stored value `a` of a query and the exact value `x`: both undefined, or both defined and `a` is `x` up to the fraction `u` and `δ`. -/
inductive Stored (finite : F → Prop) (num : F → ℝ) (u δ : ℝ) : Option ℝ → Option F → Prop where
  | undefined : Stored finite num u δ none none
  | value (x : ℝ) (a : F) (hf : finite a) (h : |num a - x| ≤ u * |x| + δ) : Stored finite num u δ (some x) (some a)

end Verif.Spec
