/-
Model of `rankeval/analysis/statistical.py`.

Simplified: exact arithmetic in an ordered field instead of floating point. The random draws are parameters. The learning algorithm is a
parameter; it gets the number of the call, so that it may be randomized. The progress bars are left out, except where they raise an error.
-/
import Verif.Model.Dataset
import Mathlib.Algebra.Order.Field.Basic

namespace Verif.Stat
variable {K : Type} [Field K] [LinearOrder K]

/-- `np.mean` of a vector that is not empty. -/
def npMean (xs : List K) : K := xs.sum / xs.length

/-- statistical.py 154-165: the difference of the mean scores after exchanging the selected scores. -/
def swapDelta (best worst : List K) (sel : List Bool) : K :=
  let aSel := (maskSelect best sel).sum
  let bSel := (maskSelect worst sel).sum
  let aMean := (best.sum - aSel + bSel) / best.length
  let bMean := (worst.sum - bSel + aSel) / best.length
  aMean - bMean

/-- statistical.py 167-170: the two counters after one round. -/
def randStep (best worst : List K) (difference : K) (p : K × K) (sel : List Bool) : K × K :=
  let delta := swapDelta best worst sel
  (if delta ≥ difference then p.1 + 1 else p.1, if |delta| ≥ |difference| then p.2 + 1 else p.2)

/-- statistical.py 129-179, `_randomization`. `sels` are the random subsets, `n_perm` of them. The test divides by `n_perm`; boolean
indexing of a vector of another length is an `IndexError`; for empty vectors the means are NaN and all comparisons are false. -/
def randomization (a b : List K) (sels : List (List Bool)) : Except PyErr (K × K) :=
  if sels = [] then .error .zeroDivisionError
  else if a.length ≠ b.length then .error .indexError
  else if a = [] then .ok (0, 0)
  else
    let best := if npMean a < npMean b then b else a
    let worst := if npMean a < npMean b then a else b
    let p := sels.foldl (randStep best worst (npMean best - npMean worst)) (0, 0)
    .ok (p.1 / sels.length, p.2 / sels.length)

variable {R L S : Type}

/-- statistical.py 215-220: the rows of the queries at the positions `qs`. -/
def testRows (d : Dataset R L) (qs : List Nat) : Except PyErr (List Bool) :=
  qs.foldlM (fun rows (q : Nat) => do
    let s ← pyGet d.queryOffsets q
    let e ← pyGet d.queryOffsets (q + 1 : Nat)
    pure (Dataset.fillSlice rows s e true)) (List.replicate d.nInstances false)

/-- statistical.py 224-227: the queries that are not at the positions `qs`. -/
def trainQueries (d : Dataset R L) (qs : List Nat) : Except PyErr (List Bool) :=
  qs.foldlM (fun a (q : Nat) => pySet a q false) (List.replicate d.nQueries true)

/-- numpy `a[mask] = v`, for a vector `v` of the right length. -/
def maskFill {α : Type} : List α → List Bool → List α → List α
  | x :: a, true :: m, y :: v => y :: maskFill a m v
  | x :: a, false :: m, v => x :: maskFill a m v
  | a, _, _ => a

/-- numpy `a[mask] = v`: a vector of length one is repeated, any other wrong length is a `ValueError`. -/
def maskAssign {α : Type} (a : List α) (mask : List Bool) (v : List α) : Except PyErr (List α) :=
  if v.length = mask.count true then .ok (maskFill a mask v)
  else match v with
    | [x] => .ok (maskFill a mask (List.replicate (mask.count true) x))
    | _ => .error .valueError

/-- A learner: number of the call, training rows, training labels, training query sizes, rows to score. -/
abbrev Algo (R L S : Type) := Nat → List R → List L → List Nat → List R → List S

/-- statistical.py 214-236: one fold. -/
def kfoldFold (d : Dataset R L) (algo : Algo R L S) (c : Nat) (perm : List Nat) (scores : List S) (p : Nat) : Except PyErr (List S) := do
  let qs := slice p (p + c) perm
  let test ← testRows d qs
  let train := test.map (!·)
  let trainQ ← trainQueries d qs
  let foldScores := algo p (maskSelect d.X train) (maskSelect d.y train) (maskSelect d.getQuerySizes trainQ) (maskSelect d.X test)
  maskAssign scores test foldScores

/-- statistical.py 209: `int(math.ceil(n_queries / float(k)))`, with exact division; the floating point quotient has the same ceiling for
fewer than 2^53 queries. -/
def chunkSize (n k : Nat) : Nat := (n + k - 1) / k

/-- statistical.py 205-241, `_kfold_scoring`. `perm` is the random permutation of the positions of the queries, `zero` the initial score.
After the loop the progress bar is closed even if it has not been created, outside of notebooks (`widgets` false). -/
def kfoldScoring (widgets : Bool) (d : Dataset R L) (k : Nat) (algo : Algo R L S) (perm : List Nat) (zero : S) : Except PyErr (List S) :=
  if k = 0 then .error .zeroDivisionError
  else
    let c := chunkSize d.nQueries k
    if c = 0 then .error .valueError -- `range` with step 0
    else do
      let scores ← ((List.range ((d.nQueries + c - 1) / c)).map (· * c)).foldlM (kfoldFold d algo c perm) (List.replicate d.nInstances zero)
      if widgets then pure scores else .error .unboundLocalError

/-- statistical.py 264-281, `_multi_kfold_scoring`: one column of scores for each repetition, with its own permutation and learner. -/
def multiKfold (widgets : Bool) (d : Dataset R L) (k : Nat) (reps : List (List Nat × Algo R L S)) (zero : S) : Except PyErr (List (List S)) :=
  reps.mapM (fun r => kfoldScoring widgets d k r.2 r.1 zero)

/-- `M.T` for a matrix given by columns of length `n`. -/
def rowsOf {α : Type} (n : Nat) (cols : List (List α)) : List (List α) := (List.range n).map (fun i => cols.filterMap (·[i]?))

/-- `np.mean` of a matrix that is not empty, given by its rows. -/
def npMean2 (m : List (List K)) : K := npMean m.flatten

/-- statistical.py 369-383: error, bias and variance of the scores (a row of scores for each document or query, and its target). -/
def biasVar (scores : List (List K)) (target : List K) : K × K × K :=
  let avgPred := scores.map npMean
  (npMean2 (List.zipWith (fun r t => r.map (fun s => (s - t) ^ 2)) scores target),
   npMean (List.zipWith (fun p t => (p - t) ^ 2) avgPred target),
   npMean2 (List.zipWith (fun r p => r.map (fun s => (s - p) ^ 2)) scores avgPred))

/-- statistical.py 341-385, `bias_variance` for one dataset, one algorithm and the metric MSE; the labels of a dataset without rows would
have NaN as mean. -/
def biasVarianceMse (widgets : Bool) (d : Dataset R K) (k : Nat) (reps : List (List Nat × Algo R K K)) : Except PyErr (K × K × K) :=
  if k < 2 ∨ reps.length < 2 then .error .assertionError
  else do
    let cols ← multiKfold widgets d k reps 0
    pure (biasVar (rowsOf d.nInstances cols) d.y)

/-- statistical.py 341-385 for another metric: `metric` gives the value of each query, the ideal value is 1. -/
def biasVarianceMetric (widgets : Bool) (d : Dataset R L) (k : Nat) (reps : List (List Nat × Algo R L S)) (zero : S)
    (metric : List S → Except PyErr (List K)) : Except PyErr (K × K × K) :=
  if k < 2 ∨ reps.length < 2 then .error .assertionError
  else do
    let cols ← multiKfold widgets d k reps zero
    let q ← cols.mapM metric
    pure (biasVar (rowsOf d.nQueries q) (List.replicate d.nQueries 1))

end Verif.Stat
