/-
Model of `TopologicalAnalysisResult` in `rankeval/analysis/topological.py`: the statistics of the heights and the tables by level.

Simplified: exact real arithmetic instead of floats. `scipy.stats.describe` is modelled by its documentation; `none` is NaN. For heights
that are all equal the skewness and the kurtosis depend on the version of scipy (0 and -3, or NaN twice); they are the argument `flat`.
-/
import Verif.Model.Plots
import Mathlib.Analysis.SpecialFunctions.Sqrt

namespace Verif.Ensemble

/-- The result of `scipy.stats.describe`. -/
structure Described where
  nobs : Nat
  minmax : Nat × Nat
  mean : ℝ
  variance : Option ℝ
  skewness : Option ℝ
  kurtosis : Option ℝ

/-- `np.mean`. -/
noncomputable def meanOf (a : List ℝ) : ℝ := a.sum / a.length

/-- `scipy.stats.moment`: the mean of the powers of the differences from the mean. -/
noncomputable def moment (a : List ℝ) (k : Nat) : ℝ := meanOf (a.map (fun x => (x - meanOf a) ^ k))

/-- `scipy.stats.describe`, called in topological.py 101. -/
noncomputable def describe (flat : Option ℝ × Option ℝ) (hs : List Nat) : Except PyErr Described :=
  match hs with
  | [] => .error .valueError
  | h :: t =>
    let a := hs.map (fun n : Nat => (n : ℝ))
    let m2 := moment a 2
    .ok { nobs := hs.length
          minmax := (t.foldl min h, t.foldl max h)
          mean := meanOf a
          variance := if hs.length = 1 then none else some ((a.map (fun x => (x - meanOf a) ^ 2)).sum / (hs.length - 1))
          skewness := if m2 = 0 then flat.1 else some (moment a 3 / √m2 ^ 3)
          kurtosis := if m2 = 0 then flat.2 else some (moment a 4 / m2 ^ 2 - 3) }

/-- topological.py 48, 76-101: `topological_analysis(model, include_leaves).describe_tree_height()`. -/
noncomputable def describeTreeHeight {F : Type} (flat : Option ℝ × Option ℝ) (m : Ensemble F) (includeLeaves : Bool) : Except PyErr Described := do
  let (_, heights) ← topologicalAnalysis m includeLeaves
  describe flat heights

/-- The number of rows of the matrix (_efficient_topological.pyx 72: a sparse matrix made without a shape). -/
def numRows (top : List Entry) : Nat := Plots.extent (top.map Entry.row)

/-- topological.py 141-143, `fullness_per_level`; a row without entries gives `0 / 0`. -/
def fullnessPerLevel {K : Type} [DivisionRing K] (top : List Entry) (nTrees : Nat) : List (Option K) :=
  (List.range (numRows top)).map (fun l =>
    if (top.filter (fun e => e.row = l)).length = 0 then none else some (fullness top nTrees l))

end Verif.Ensemble
