/-
Model of `rankeval/analysis/effectiveness.py`. Numbers are from an ordered field, so rounding is not modelled. Values that can be NaN are
`Option K` with `none` for NaN. Scoring and evaluation enter as values (`Model/Ensemble.lean`, `Model/Eval.lean` model them); where the
code repeats the same steps for each dataset, model and metric the model takes the list of inputs of these steps.
-/
import Verif.Model.Dataset
import Mathlib.Algebra.Field.Defs
import Mathlib.Algebra.Order.Group.Abs
import Mathlib.Data.List.Sort
import Mathlib.Data.List.Dedup

namespace Verif.Eff

/-! ### Tree-wise performance -/

/-- Python `range`. -/
def pyRange (start stop step : Int) : Except PyErr (List Int) :=
  if step = 0 then .error .valueError
  else if 0 < step then .ok ((List.range ((stop - start + step - 1) / step).toNat).map (fun (i : Nat) => start + step * (i : Int)))
  else .ok ((List.range ((start - stop - step - 1) / (-step)).toNat).map (fun (i : Nat) => start + step * (i : Int)))

/-- effectiveness.py 115-120, `get_tree_steps`. -/
def treeSteps (step : Int) (n : Nat) : Except PyErr (List Int) := do
  let trees ← pyRange (step - 1) n step
  match trees.getLast? with
  | none => .error .indexError
  | some last => pure (if last ≠ (n : Int) - 1 then trees ++ [(n : Int) - 1] else trees)

section
variable {K V : Type} [AddCommMonoid K]

/-- effectiveness.py 150-168: the loop over the steps, with the position of the step; `partials` has a row of tree scores for each
document, `metric` is the metric on the dataset. -/
def treeWiseLoop (metric : List K → Except PyErr V) (step : Int) (partials : List (List K)) : Nat → List Int → List K → Except PyErr (List V)
  | _, [], _ => .ok []
  | idx, topK :: rest, yPred => do
    let yPred' := List.zipWith (· + ·) yPred (partials.map (fun r => (slice ((idx : Int) * step).toNat (topK + 1).toNat r).sum))
    let v ← metric yPred'
    let vs ← treeWiseLoop metric step partials (idx + 1) rest yPred'
    pure (v :: vs)

/-- effectiveness.py 141-168 for one dataset, model and metric. -/
def treeWiseModel (metric : List K → Except PyErr V) (step : Int) (n : Nat) (partials : List (List K)) : Except PyErr (List V) := do
  let steps ← treeSteps step n
  treeWiseLoop metric step partials 0 steps (List.replicate partials.length 0)

/-- Values written to the beginning of a row of `n` NaN. -/
def fillRow (n : Nat) (vs : List V) : Except PyErr (List (Option V)) :=
  if vs.length ≤ n then .ok (vs.map some ++ List.replicate (n - vs.length) none) else .error .indexError

/-- effectiveness.py 122-178, `tree_wise_performance` for one dataset and metric: the labels of the points and a row for each model, given
by its number of trees and the partial scores. -/
def treeWise (metric : List K → Except PyErr V) (step : Int) (models : List (Nat × List (List K))) :
    Except PyErr (List Int × List (List (Option V))) := do
  let maxTrees := models.foldl (fun m x => max m x.1) 0
  let steps ← treeSteps step maxTrees
  let data ← models.mapM (fun x => do
    let vs ← treeWiseModel metric step x.1 x.2
    fillRow steps.length vs)
  pure (steps.map (· + 1), data)

end

variable {K : Type} [Field K] [LinearOrder K]

/-! ### Average contribution -/

/-- numpy `mean` of a vector; NaN for an empty vector. -/
def meanNaN (xs : List K) : Option K := if xs = [] then none else some (xs.sum / (xs.length : K))

/-- effectiveness.py 217-222, `tree_wise_average_contribution` for one dataset and model with `n` trees. -/
def avgContribution (maxTrees n : Nat) (partials : List (List K)) : List (Option K) :=
  (List.range n).map (fun t => meanNaN (partials.filterMap (fun r => r[t]?.map (fun x => |x|)))) ++ List.replicate (maxTrees - n) none

/-! ### Histograms -/

/-- numpy order with NaN last, as `np.sort` and `searchsorted` have it. -/
def nanLt : Option K → Option K → Bool
  | some a, some b => decide (a < b)
  | some _, none => true
  | none, _ => false

/-- `>` on floats: false if one side is NaN. -/
def nanGt : Option K → Option K → Bool
  | some a, some b => decide (b < a)
  | _, _ => false

/-- `np.linspace(start, stop, num=bins+1)`. -/
def linspace (start stop : Option K) (bins : Nat) : List (Option K) :=
  if bins = 0 then [start]
  else (List.range bins).map (fun (i : Nat) => match start, stop with
    | some a, some b => some (a + (i : K) * ((b - a) / (bins : K)))
    | _, _ => none) ++ [stop]

/-- numpy `histogram` for given edges: number of values below each edge, for the last edge also the values on it. -/
def cumCounts (xs edges : List (Option K)) : List Nat :=
  match edges.getLast? with
  | none => []
  | some last => edges.dropLast.map (fun e => xs.countP (fun x => nanLt x e)) ++ [xs.countP (fun x => !nanLt last x)]

/-- `np.diff`. -/
def npDiff : List Nat → List Int
  | a :: b :: rest => ((b : Int) - a) :: npDiff (b :: rest)
  | _ => []

/-- `np.cumsum`. -/
def npCumsum : Int → List Int → List Int
  | _, [] => []
  | acc, x :: rest => (acc + x) :: npCumsum (acc + x) rest

/-- `np.histogram(xs, bins=edges)[0]`. -/
def histogram (xs edges : List (Option K)) : Except PyErr (List Int) :=
  if (edges.zip edges.tail).any (fun p => nanGt p.1 p.2) then .error .valueError
  else .ok (npDiff (cumCounts xs edges))

/-- effectiveness.py 302-305 and 468-471: the cumulative distribution; without values it is 0/0. -/
def curve (xs edges : List (Option K)) : Except PyErr (List (Option K)) := do
  let values ← histogram xs edges
  pure ((npCumsum 0 values).map (fun (c : Int) => if xs.length = 0 then none else some ((c : K) / (xs.length : K))))

/-- An operation on floats: NaN if one side is NaN. -/
def nanOp (op : K → K → K) : Option K → Option K → Option K
  | some a, some b => some (op a b)
  | _, _ => none

/-- numpy `min` or `max` of a vector: NaN if it has a NaN, `ValueError` for an empty vector. -/
def npReduce (op : K → K → K) : List (Option K) → Except PyErr (Option K)
  | [] => .error .valueError
  | x :: xs => .ok (xs.foldl (nanOp op) x)

/-- `np.nanmin([a, b])`, `np.nanmax([a, b])`. -/
def nanReduce (op : K → K → K) : Option K → Option K → Option K
  | some a, some b => some (op a b)
  | some a, none => some a
  | none, b => b

/-- effectiveness.py 274-282 and 438-445: the least or greatest value over all vectors. -/
def globalReduce (op : K → K → K) (vectors : List (List (Option K))) : Except PyErr (Option K) :=
  vectors.foldlM (fun acc xs => do
    let m ← npReduce op xs
    pure (nanReduce op acc m)) none

/-- effectiveness.py 311 and 477: labels of the bins; division by zero without bins. -/
def binLabels (edges : List (Option K)) (bins : Nat) : Except PyErr (List (Option K)) :=
  if bins = 0 then .error .zeroDivisionError
  else .ok (edges.dropLast.map (fun e => e.map (· + 1 / (bins : K))))

/-- effectiveness.py 271-312, `query_wise_performance`: `vectors` has the metric values per query for each dataset, model and metric,
`nQueries` the number of queries of each dataset. Result: labels of the bins, and a curve for each vector. -/
def queryWise (vectors : List (List (Option K))) (nQueries : List Nat) (bins : Option Nat) (start stop : Option K) :
    Except PyErr (List (Option K) × List (List (Option K))) := do
  let lo ← globalReduce min vectors
  let hi ← globalReduce max vectors
  let lo' := if start.isSome then start else lo
  let hi' := if stop.isSome then stop else hi
  let n ← match bins with
    | some b => pure b
    | none => match nQueries.max? with
      | some b => pure b
      | none => .error .valueError
  let edges := linspace lo' hi' n
  let data ← vectors.mapM (fun xs => curve xs edges)
  let labels ← binLabels edges n
  pure (labels, data)

/-! ### Query classes -/

section
variable {C : Type} [LinearOrder C]

/-- `np.unique` of a list: sorted, without repetitions. -/
def npUniqueOf (l : List C) : List C := l.dedup.insertionSort (· ≤ ·)

/-- effectiveness.py 372: `np.where(classes == c)`. Comparing a Python list with a numpy string gives `False` instead of a vector
(`elementwise` is false), since `np.str_` compares as a Python string; for arrays and for numbers the comparison is elementwise. -/
def whereEq (elementwise : Bool) (classes : List C) (c : C) : List Nat :=
  if elementwise then (List.range classes.length).filter (fun i => classes[i]? == some c) else []

/-- numpy `mean`: NaN for an empty vector or when one value is NaN. -/
def npMeanNaN (xs : List (Option K)) : Option K :=
  if xs = [] ∨ none ∈ xs then none else some ((xs.filterMap id).sum / (xs.length : K))

/-- effectiveness.py 372-378, one cell. The test for an empty class is on a tuple with one element and never skips. -/
def classCell (elementwise : Bool) (scores : List (Option K)) (classes : List C) (c : C) : Except PyErr (Option K) := do
  let xs ← (whereEq elementwise classes c).mapM (fun (i : Nat) => pyGet scores (i : Int))
  pure (npMeanNaN xs)

/-- effectiveness.py 352-386, `query_class_performance` for one model and metric: `vectors` has the metric values per query of each
dataset. Result: the classes, and a row for each dataset. -/
def queryClass (elementwise : Bool) (vectors : List (List (Option K))) (classes : List (List C)) :
    Except PyErr (List C × List (List (Option K))) := do
  let unique := npUniqueOf (classes.flatMap npUniqueOf)
  let data ← (List.range vectors.length).mapM (fun (i : Nat) => do
    let scores ← pyGet vectors (i : Int)
    unique.mapM (fun c => do
      let cls ← pyGet classes (i : Int)
      classCell elementwise scores cls c))
  pure (unique, data)

/-! ### Graded relevance -/

/-- effectiveness.py 449 and 512: `np.sort(np.unique([dataset.y for dataset in datasets]))`. Datasets with different numbers of rows give
no array; comparing the vectors is a `ValueError`. -/
def relLabels (ys : List (List C)) : Except PyErr (List C) :=
  match ys with
  | [] => .ok []
  | y :: rest => if rest.all (fun z => z.length == y.length) then .ok (npUniqueOf ys.flatten) else .error .valueError

/-- effectiveness.py 456-472: the curve of one label. -/
def gradedCurve (y : List C) (yPred edges : List (Option K)) (label : C) : Except PyErr (List (Option K)) := do
  let xs ← ((List.range y.length).filter (fun i => y[i]? == some label)).mapM (fun (i : Nat) => pyGet yPred (i : Int))
  curve xs edges

/-- effectiveness.py 435-478, `document_graded_relevance`: `runs` has for each dataset the labels and the scores of each model. Result: the
labels, the labels of the bins and the curves. `None` for `bins` is documented, but `None + 1` is a `TypeError`. -/
def gradedRelevance (runs : List (List C × List (List (Option K)))) (bins : Option Nat) (start stop : Option K) :
    Except PyErr (List C × List (Option K) × List (List (List (List (Option K))))) := do
  let lo ← globalReduce min (runs.flatMap (·.2))
  let hi ← globalReduce max (runs.flatMap (·.2))
  let lo' := if start.isSome then start else lo
  let hi' := if stop.isSome then stop else hi
  match bins with
  | none => .error .typeError
  | some n =>
    let edges := linspace lo' hi' n
    let labels ← relLabels (runs.map (·.1))
    let data ← runs.mapM (fun run => run.2.mapM (fun yPred => labels.mapM (fun l => gradedCurve run.1 yPred edges l)))
    let coords ← binLabels edges n
    pure (labels, coords, data)

end

/-! ### Rank confusion matrix -/

section
variable {R L S : Type} [LinearOrder L] [LinearOrder S]

/-- `m[i, j] += 1`. -/
def addOne (m : List (List Nat)) (i j : Int) : Except PyErr (List (List Nat)) := do
  let row ← pyGet m i
  let x ← pyGet row j
  let row' ← pySet row j (x + 1)
  pySet m i row'

/-- effectiveness.py 523-531, one pair of documents. `toI` is `astype(np.int32)`. -/
def confusionPair (toI : L → Int) (skip : Bool) (y : List L) (yPred : List S) (m : List (List Nat)) (p : Nat × Nat) :
    Except PyErr (List (List Nat)) := do
  let yi ← pyGet y (p.1 : Int)
  let yj ← pyGet y (p.2 : Int)
  if skip = true ∧ yi = yj then pure m
  else
    let si ← pyGet yPred (p.1 : Int)
    let sj ← pyGet yPred (p.2 : Int)
    if si < sj then addOne m (toI yi) (toI yj) else addOne m (toI yj) (toI yi)

/-- effectiveness.py 521-522: pairs of positions of a query, in the order of the loops. -/
def blockPairs (s e : Nat) : List (Nat × Nat) :=
  (List.range' s (e - s)).flatMap (fun i => (List.range' i (e - i)).map (fun j => (i, j)))

/-- effectiveness.py 519-531 for one dataset and model, starting with a matrix of zeros for `n` labels. Counters are not bounded. -/
def confusion (toI : L → Int) (skip : Bool) (n : Nat) (d : Dataset R L) (yPred : List S) : Except PyErr (List (List Nat)) :=
  (d.queryIterator.flatMap (fun b => blockPairs b.2.1 b.2.2)).foldlM (confusionPair toI skip d.y yPred)
    (List.replicate n (List.replicate n 0))

/-- effectiveness.py 512-537, `rank_confusion_matrix`: the labels, and a matrix for each dataset and model. -/
def rankConfusion (toI : L → Int) (skip : Bool) (runs : List (Dataset R L × List (List S))) :
    Except PyErr (List Int × List (List (List (List Nat)))) := do
  let labels ← relLabels (runs.map (·.1.y))
  let data ← runs.mapM (fun run => run.2.mapM (fun yPred => confusion toI skip labels.length run.1 yPred))
  pure (labels.map toI, data)

end

end Verif.Eff
