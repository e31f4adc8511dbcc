/-
Model of the metrics that are quotients of counts (`rankeval/metrics/precision.py`, `precision_max.py`, `recall.py`, `mrr.py`) and of MAP
(`rankeval/metrics/map.py`) in floating point: the quotients are float64, `eval` stores them in an array of type float32 (metrics/metric.py 64-69).

Simplified: numbers are the rational numbers they stand for; counts are converted to float64 without rounding, which is so below 2^53.
-/
import Verif.Model.Metrics
import Verif.Model.MeanFloat
import Verif.Model.NdcgFloat

namespace Verif.Metrics
open Decimal

/-- precision.py 91-96, `Precision.eval_per_query`: `float(n_relevant_retrieved) / len(idx_y_pred_sorted)`. -/
def precisionFloat {S : Type} (sort : List S → List Nat) (cutoff : Option Int) (threshold : ℚ) (y : List ℚ) (yPred : List S) : Except PyErr ℚ :=
  let idx := topIdx sort cutoff yPred
  let nRelevantRetrieved := ((gather y idx).filter (fun v => decide (v ≥ threshold))).length
  if idx.length = 0 then .error .zeroDivisionError
  else .ok (double ((nRelevantRetrieved : ℚ) / (idx.length : ℚ)))

/-- precision_max.py 85-90, `PrecisionMax.eval_per_query`. -/
def precisionMaxFloat {S : Type} (sort : List S → List Nat) (cutoff : Option Int) (y : List ℚ) (yPred : List S) : Except PyErr ℚ := do
  let idx := topIdx sort cutoff yPred
  let m ← npMax y
  let nRelevantRetrieved := ((gather y idx).filter (fun v => decide (v ≥ m))).length
  if idx.length = 0 then .error .zeroDivisionError
  else .ok (double ((nRelevantRetrieved : ℚ) / (idx.length : ℚ)))

/-- recall.py 98-108, `Recall.eval_per_query`. -/
def recallFloat {S : Type} (sort : List S → List Nat) (cutoff : Option Int) (threshold noRelevantResults : ℚ) (y : List ℚ) (yPred : List S) : ℚ :=
  let idx := topIdx sort cutoff yPred
  let nRelevantRetrieved := ((gather y idx).filter (fun v => decide (v ≥ threshold))).length
  let nRelevant := (y.filter (fun v => decide (v ≥ threshold))).length
  if nRelevant ≠ 0 then double ((nRelevantRetrieved : ℚ) / (nRelevant : ℚ))
  else noRelevantResults

/-- mrr.py 94-108, `MRR.eval_per_query`. -/
def mrrFloat {S : Type} (sort : List S → List Nat) (cutoff : Option Int) (threshold : ℚ) (y : List ℚ) (yPred : List S) : ℚ :=
  match mrrRank threshold y 0 (topIdx sort cutoff yPred) with
  | some rankMax => double (1 / ((rankMax : ℚ) + 1))
  | none => 0

/-- map.py 103-106: the loop over the retrieved documents, as `mapLoop`, with rounded quotients and sums. -/
def mapLoopFloat (labels : List ℚ) : Nat × Nat × ℚ :=
  labels.foldl (fun st v =>
    if v > 0 then (st.1 + 1, st.2.1 + 1, double (st.2.2 + double (((st.2.1 + 1 : Nat) : ℚ) / ((st.1 + 1 : Nat) : ℚ))))
    else (st.1 + 1, st.2.1, st.2.2)) (0, 0, 0)

/-- map.py 96-111, `MAP.eval_per_query`. -/
def mapFloat {S : Type} (sort : List S → List Nat) (cutoff : Option Int) (noRelevantResults : ℚ) (y : List ℚ) (yPred : List S) : ℚ :=
  let idx := topIdx sort cutoff yPred
  let nRetrieved := idx.length
  let st := mapLoopFloat (gather y idx)
  if st.2.1 > 0 then
    double (st.2.2 / ((min nRetrieved (y.filter (fun v => decide (v ≠ 0))).length : Nat) : ℚ))
  else noRelevantResults

end Verif.Metrics
