/-
Predictions that may be NaN. A list of predictions is a `List (WithTop S)`: `⊤` stands for NaN and the others are the numbers, because numpy
sorts NaN after every number ("nan values are sorted to the end", documentation of `np.sort`); the metrics that rank the documents are then
`evalMetric` of `Model/Metrics.lean` at the linear order `WithTop S`. MSE and RMSE compute with the predictions and are written out here.

Simplified: exact real arithmetic on the numbers; infinities are ordinary elements of `S`.
-/
import Verif.Model.Metrics
import Verif.Model.Eval
import Mathlib.Order.WithBot

namespace Verif.NanScores

/-- `(y - y_pred) ** 2` for one document (mse.py 89, 91): NaN (`none`) if the prediction is NaN. -/
def sqDiff (a : ℝ) : WithTop ℝ → Option ℝ
  | ⊤ => none
  | (b : ℝ) => some ((a - b) ^ 2)

/-- `.sum()` of numbers and NaN. -/
def nanSum : List (Option ℝ) → Option ℝ
  | [] => some 0
  | v :: vs => v.bind fun a => (nanSum vs).map (a + ·)

/-- mse.py 87-91, `MSE.eval_per_query`. -/
def mse (sort : List (WithTop ℝ) → List Nat) (cutoff : Option Int) (y : List ℝ) (yPred : List (WithTop ℝ)) : Option ℝ :=
  match cutoff with
  | some _ =>
    let idx := Metrics.topIdx sort cutoff yPred
    nanSum (List.zipWith sqDiff (gather y idx) (gather yPred idx))
  | none => nanSum (List.zipWith sqDiff y yPred)

/-- rmse.py 80-81, `RMSE.eval_per_query`. -/
noncomputable def rmse (sort : List (WithTop ℝ) → List Nat) (cutoff : Option Int) (y : List ℝ) (yPred : List (WithTop ℝ)) : Option ℝ :=
  (mse sort cutoff y yPred).map Real.sqrt

end Verif.NanScores
