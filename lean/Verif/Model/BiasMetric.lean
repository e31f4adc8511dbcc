/-
Model of the choice of the decomposition in `bias_variance` of `rankeval/analysis/statistical.py`.

Simplified: as in Model/Statistical.lean; NDCG is evaluated without its cache (C17).
-/
import Verif.Model.Statistical
import Verif.Model.Metrics
import Verif.Model.Eval

namespace Verif.Stat
open Metrics
variable {R : Type}

/-- The metrics `bias_variance` is called with. Only MSE is an instance of MSE, RMSE is not derived from it (rmse.py 12). -/
inductive ErrorMetric where
  | mse (cutoff : Option Int)
  | rmse (cutoff : Option Int)
  | ranking (m : RankMetric) (cutoff : Option Int)

/-- statistical.py 368: `metric.eval(dataset, y_pred)[1]`, for metrics that are never NaN. -/
noncomputable def queryValues (d : Dataset R ℝ) (evalQ : List ℝ → List ℝ → Except PyErr ℝ) (s : List ℝ) :
    Except PyErr (List ℝ) :=
  (metricEval id (fun y s => (evalQ y s).map some) d s).map (fun r => r.2.filterMap id)

/-- statistical.py 341-385, `bias_variance` for one dataset, one algorithm and one metric. -/
noncomputable def biasVariance (sort sortY : List ℝ → List Nat) (widgets : Bool) (d : Dataset R ℝ) (k : Nat)
    (reps : List (List Nat × Algo R ℝ ℝ)) : ErrorMetric → Except PyErr (ℝ × ℝ × ℝ)
  | .mse _ => biasVarianceMse widgets d k reps
  | .rmse c => biasVarianceMetric widgets d k reps 0 (queryValues d (fun y s => .ok (rmsePerQuery sort c y s)))
  | .ranking m c => biasVarianceMetric widgets d k reps 0 (queryValues d (evalMetric sort sortY c m))

end Verif.Stat
