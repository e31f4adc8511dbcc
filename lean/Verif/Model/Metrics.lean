/-
Model of the per-query functions of `rankeval/metrics/*.py`.

Numbers: an ordered field `K`, or the reals where powers and logarithms occur. Floating point rounding is
not modelled here. `sort` is `np.argsort` (contract `IsArgsort`, ties unspecified).
-/
import Verif.Py.Basic
import Mathlib.Analysis.SpecialFunctions.Log.Base
import Mathlib.Analysis.SpecialFunctions.Pow.Real
import Mathlib.Algebra.Order.Field.Basic

namespace Verif.Metrics

section field
variable {K : Type} [Field K] [LinearOrder K]

/-- The common prologue, e.g. precision.py 92-94: `np.argsort(y_pred)[::-1]`, then `[:cutoff]` if a cutoff is
given. -/
def topIdx {S : Type} (sort : List S → List Nat) (cutoff : Option Int) (yPred : List S) : List Nat :=
  let idx := (sort yPred).reverse
  match cutoff with
  | none => idx
  | some k => pyTake k idx

/-- precision.py 92-97, `Precision.eval_per_query`. -/
def precision {S : Type} (sort : List S → List Nat) (cutoff : Option Int) (threshold : K)
    (y : List K) (yPred : List S) : Except PyErr K :=
  let idx := topIdx sort cutoff yPred
  let nRelevantRetrieved := ((gather y idx).filter (fun v => decide (v ≥ threshold))).length
  if idx.length = 0 then .error .zeroDivisionError
  else .ok ((nRelevantRetrieved : K) / (idx.length : K))

/-- numpy `y.max()`: `ValueError` on an empty array. -/
def npMax {α : Type} [LinearOrder α] : List α → Except PyErr α
  | [] => .error .valueError
  | a :: l => .ok (l.foldl max a)

/-- precision_max.py 85-90, `PrecisionMax.eval_per_query`. -/
def precisionMax {S : Type} (sort : List S → List Nat) (cutoff : Option Int)
    (y : List K) (yPred : List S) : Except PyErr K := do
  let idx := topIdx sort cutoff yPred
  let m ← npMax y
  let nRelevantRetrieved := ((gather y idx).filter (fun v => decide (v ≥ m))).length
  if idx.length = 0 then .error .zeroDivisionError
  else .ok ((nRelevantRetrieved : K) / (idx.length : K))

/-- recall.py 98-108, `Recall.eval_per_query`. -/
def recall {S : Type} (sort : List S → List Nat) (cutoff : Option Int) (threshold noRelevantResults : K)
    (y : List K) (yPred : List S) : K :=
  let idx := topIdx sort cutoff yPred
  let nRelevantRetrieved := ((gather y idx).filter (fun v => decide (v ≥ threshold))).length
  let nRelevant := (y.filter (fun v => decide (v ≥ threshold))).length
  if nRelevant ≠ 0 then (nRelevantRetrieved : K) / (nRelevant : K)
  else noRelevantResults

/-- rbp.py 113-121, `RBP.eval_per_query`: `gain` is a boolean array, `discount` is `p ** arange(n)`. -/
def rbp {S : Type} (sort : List S → List Nat) (cutoff : Option Int) (threshold p : K)
    (y : List K) (yPred : List S) : K :=
  let idx := topIdx sort cutoff yPred
  let discount := (List.range idx.length).map (fun i => p ^ i)
  let gain : List K := (gather y idx).map (fun v => if v ≥ threshold then 1 else 0)
  (1 - p) * (List.zipWith (· * ·) gain discount).sum

/-- mrr.py 99-103: the loop that looks for the first relevant document; `i` is the `enumerate` counter. -/
def mrrRank (threshold : K) (y : List K) : Nat → List Nat → Option Nat
  | _, [] => none
  | i, idx :: rest =>
    match y[idx]? with
    | some v => if v ≥ threshold then some i else mrrRank threshold y (i + 1) rest
    | none => mrrRank threshold y (i + 1) rest   -- not reachable: argsort positions are in range

/-- mrr.py 94-108, `MRR.eval_per_query`. -/
def mrr {S : Type} (sort : List S → List Nat) (cutoff : Option Int) (threshold : K)
    (y : List K) (yPred : List S) : K :=
  match mrrRank threshold y 0 (topIdx sort cutoff yPred) with
  | some rankMax => 1 / ((rankMax : K) + 1)
  | none => 0

/-- map.py 103-106: the loop over the retrieved documents, on the list of their labels. The state is
`(i, n_relevant_retrieved_at_i, precision_at_i)`. -/
def mapLoop (labels : List K) : Nat × Nat × K :=
  labels.foldl (fun st v =>
    if v > 0 then (st.1 + 1, st.2.1 + 1, st.2.2 + ((st.2.1 + 1 : Nat) : K) / ((st.1 + 1 : Nat) : K))
    else (st.1 + 1, st.2.1, st.2.2)) (0, 0, 0)

/-- map.py 96-111, `MAP.eval_per_query`. `np.count_nonzero(y)` counts all labels different from 0. -/
def map {S : Type} (sort : List S → List Nat) (cutoff : Option Int) (noRelevantResults : K)
    (y : List K) (yPred : List S) : K :=
  let idx := topIdx sort cutoff yPred
  let nRetrieved := idx.length
  let st := mapLoop (gather y idx)
  if st.2.1 > 0 then
    st.2.2 / ((min nRetrieved (y.filter (fun v => decide (v ≠ 0))).length : Nat) : K)
  else noRelevantResults

/-- mse.py 87-91, `MSE.eval_per_query`. -/
def msePerQuery (sort : List K → List Nat) (cutoff : Option Int) (y yPred : List K) : K :=
  match cutoff with
  | some _ =>
    let idx := topIdx sort cutoff yPred
    (List.zipWith (fun a b => (a - b) ^ 2) (gather y idx) (gather yPred idx)).sum
  | none => (List.zipWith (fun a b => (a - b) ^ 2) y yPred).sum

end field

/-! ### Metrics over the reals -/

/-- The `implementation` argument of DCG and NDCG; `other` is any other string. -/
inductive Impl where
  | flat | exp | other
  deriving DecidableEq, Repr

/-- dcg.py 93-96: the gain of a label. Any other string leaves `gain` unbound. -/
noncomputable def dcgGain : Impl → Except PyErr (ℝ → ℝ)
  | .flat => .ok (fun v => v)
  | .exp => .ok (fun v => (2 : ℝ) ^ v - 1)
  | .other => .error .unboundLocalError

/-- dcg.py 87-99, `DCG.eval_per_query`: `discount = log2(arange(2, n + 2))`. -/
noncomputable def dcg {S : Type} (sort : List S → List Nat) (cutoff : Option Int) (impl : Impl)
    (y : List ℝ) (yPred : List S) : Except PyErr ℝ := do
  let idx := topIdx sort cutoff yPred
  let discount := (List.range' 2 idx.length).map (fun i : Nat => Real.logb 2 (i : ℝ))
  let g ← dcgGain impl
  let gain := (gather y idx).map g
  pure (List.zipWith (· / ·) gain discount).sum

/-- ndcg.py 122-135 in a fresh object (`_current_rel_qid is None`). The object with its cache is modelled in
`Verif/Model/Ndcg.lean`. `sortY` is the argsort applied to the labels. -/
noncomputable def ndcg {S : Type} (sort : List S → List Nat) (sortY : List ℝ → List Nat) (cutoff : Option Int)
    (impl : Impl) (noRelevantResults : ℝ) (y : List ℝ) (yPred : List S) : Except PyErr ℝ := do
  let dcgScore ← dcg sort cutoff impl y yPred
  let idcgScore ← dcg sortY cutoff impl y y
  if idcgScore ≠ 0 then pure (dcgScore / idcgScore) else pure noRelevantResults

/-- err.py 93 and pfound.py 107: `(pow(2., y[idx]) - 1.) / pow(2., max_grade)`. -/
noncomputable def utility (maxGrade v : ℝ) : ℝ := ((2 : ℝ) ^ v - 1) / (2 : ℝ) ^ maxGrade

/-- err.py 89-95: the loop, on the labels of the retrieved documents; the state is
`(i, prob_step_down, err)`. -/
noncomputable def errLoop (maxGrade : ℝ) (labels : List ℝ) : Nat × ℝ × ℝ :=
  labels.foldl (fun st v =>
    let u := utility maxGrade v
    (st.1 + 1, st.2.1 * (1 - u), st.2.2 + st.2.1 * (u / ((st.1 : ℝ) + 1)))) (0, 1, 0)

/-- err.py 84-97, `ERR.eval_per_query`. -/
noncomputable def err {S : Type} (sort : List S → List Nat) (cutoff : Option Int)
    (y : List ℝ) (yPred : List S) : Except PyErr ℝ := do
  let idx := topIdx sort cutoff yPred
  let maxGrade ← npMax y
  pure (errLoop maxGrade (gather y idx)).2.2

/-- pfound.py 103-109: the loop; the state is `(i, prob_step_down, pfound)`. -/
noncomputable def pfoundLoop (pAbandonment maxGrade : ℝ) (labels : List ℝ) : Nat × ℝ × ℝ :=
  labels.foldl (fun st v =>
    let u := utility maxGrade v
    (st.1 + 1, st.2.1 * (1 - u), st.2.2 + st.2.1 * u * pAbandonment ^ st.1)) (0, 1, 0)

/-- pfound.py 98-111, `Pfound.eval_per_query`. -/
noncomputable def pfound {S : Type} (sort : List S → List Nat) (cutoff : Option Int) (pAbandonment : ℝ)
    (y : List ℝ) (yPred : List S) : Except PyErr ℝ := do
  let idx := topIdx sort cutoff yPred
  let maxGrade ← npMax y
  pure (pfoundLoop pAbandonment maxGrade (gather y idx)).2.2

/-- rmse.py 80-81, `RMSE.eval_per_query`. -/
noncomputable def rmsePerQuery (sort : List ℝ → List Nat) (cutoff : Option Int) (y yPred : List ℝ) : ℝ :=
  Real.sqrt (msePerQuery sort cutoff y yPred)

/-- The metrics that rank the documents of a query, with their constructor arguments except the cutoff. -/
inductive RankMetric where
  | precision (threshold : ℝ)
  | precisionMax
  | recall (threshold noRelevantResults : ℝ)
  | dcg (impl : Impl)
  | ndcg (impl : Impl) (noRelevantResults : ℝ)
  | err
  | pfound (pAbandonment : ℝ)
  | rbp (threshold p : ℝ)
  | mrr (threshold : ℝ)
  | map (noRelevantResults : ℝ)

/-- `eval_per_query` of each of them (NDCG as in a fresh object). -/
noncomputable def evalMetric {S : Type} (sort : List S → List Nat) (sortY : List ℝ → List Nat)
    (cutoff : Option Int) (m : RankMetric) (y : List ℝ) (yPred : List S) : Except PyErr ℝ :=
  match m with
  | .precision t => precision sort cutoff t y yPred
  | .precisionMax => precisionMax sort cutoff y yPred
  | .recall t d => .ok (recall sort cutoff t d y yPred)
  | .dcg impl => dcg sort cutoff impl y yPred
  | .ndcg impl d => ndcg sort sortY cutoff impl d y yPred
  | .err => err sort cutoff y yPred
  | .pfound p => pfound sort cutoff p y yPred
  | .rbp t p => .ok (rbp sort cutoff t p y yPred)
  | .mrr t => .ok (mrr sort cutoff t y yPred)
  | .map d => .ok (map sort cutoff d y yPred)

end Verif.Metrics
