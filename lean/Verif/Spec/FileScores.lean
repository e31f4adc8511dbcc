/-
Specification of the scores of a model and a dataset given as texts: exact arithmetic with the numbers in the texts.
-/
import Mathlib.Data.Real.Basic
import Verif.Spec.ExactNumbers

namespace Verif.Spec

/-- The score of a document: base score plus learning rate times the sum of the outputs of the trees. -/
noncomputable def fileScore (base lr : ℝ) (ts : List (Tree Signed)) (row : List Signed) : ℝ :=
  base + lr * (ts.map (fun t => (exactValue (t.value (goesLeft exactLe row)) : ℝ))).sum

/-- The sum of the absolute values of everything that is added up. -/
noncomputable def fileSize (base lr : ℝ) (ts : List (Tree Signed)) (row : List Signed) : ℝ :=
  |base| + |lr| * (ts.map (fun t => |(exactValue (t.value (goesLeft exactLe row)) : ℝ)|)).sum

end Verif.Spec
