/-
Model of the evaluation loops over a dataset: `rankeval/metrics/metric.py`, `mse.py`, `ndcg.py`.
-/
import Verif.Model.Dataset
import Verif.Model.Metrics

namespace Verif.Metrics

/-- metric.py 113-116, `Metric.query_iterator`: `(qid, dataset.y[s:e], y_pred[s:e])` per query block. -/
def queryIter {R L S : Type} (d : Dataset R L) (yPred : List S) : List (Int × List L × List S) :=
  d.queryIterator.map (fun b => (b.1, slice b.2.1 b.2.2 d.y, slice b.2.1 b.2.2 yPred))

/-- metric.py 67-69: `detailed_scores[rel_qid] = eval_per_query(q_y, q_y_pred)` with the `enumerate` counter `i`.
`store` is the conversion to float32 when the value is stored. -/
def evalLoop {L S V : Type} (store : V → V) (evalQ : List L → List S → Except PyErr V) :
    Nat → List (Int × List L × List S) → List V → Except PyErr (List V)
  | _, [], a => .ok a
  | i, (_, qy, qs) :: rest, a => do
    let v ← evalQ qy qs
    let a' ← pySet a (i : Int) (store v)
    evalLoop store evalQ (i + 1) rest a'

/-- numpy `nanmean`: NaN is `none`; NaN when there is no other value. -/
def nanmean {K : Type} [Field K] (l : List (Option K)) : Option K :=
  let vs := l.filterMap id
  if vs = [] then none else some (vs.sum / (vs.length : K))

/-- metric.py 65-70, `Metric.eval`. -/
def metricEval {R L S K : Type} [Field K] (store : Option K → Option K)
    (evalQ : List L → List S → Except PyErr (Option K)) (d : Dataset R L) (yPred : List S) :
    Except PyErr (Option K × List (Option K)) := do
  let det ← evalLoop store evalQ 0 (queryIter d yPred) (List.replicate d.nQueries (some 0))
  pure (nanmean det, det)

/-- mse.py 61-63: the loop of `MSE.eval`; the position written is the query id. -/
def mseLoop {L S K : Type} [Field K] (evalQ : List L → List S → K) (n : Nat) :
    List (Int × List L × List S) → List K → Except PyErr (List K)
  | [], a => .ok a
  | (qid, qy, qs) :: rest, a => do
    let a' ← pySet a qid (evalQ qy qs / (n : K))
    mseLoop evalQ n rest a'

/-- mse.py 59-64, `MSE.eval`. -/
def mseEval {R K : Type} [Field K] [LinearOrder K] (sort : List K → List Nat) (cutoff : Option Int)
    (d : Dataset R K) (yPred : List K) : Except PyErr (K × List K) := do
  let det ← mseLoop (msePerQuery sort cutoff) d.nInstances (queryIter d yPred) (List.replicate d.nQueries 0)
  pure (det.sum, det)

end Verif.Metrics
