/-
Model of `rankeval/dataset/dataset.py`.
-/
import Verif.Py.Basic
import Mathlib.Data.List.Dedup
import Mathlib.Data.Rat.Floor

namespace Verif

/-- dataset.py 19-43 and 65-84: the fields of `Dataset`. `X` is a list of rows of any type `R`,
`y` a list of labels of any type `L`. `n_instances` (line 81) is `y.length`, `n_queries` (line 83) is
`queryIds.length`. `name` is left out. -/
structure Dataset (R L : Type) where
  X : List R
  nFeatures : Nat
  y : List L
  queryIds : List Int
  queryOffsets : List Nat
  deriving DecidableEq, Repr

/-- `np.argsort` on natural numbers. An insertion sort is used; on the pairwise different offsets of
dataset.py 70 all argsorts agree (`argsort_unique`). -/
def argsortNat (v : List Nat) : List Nat :=
  (List.range v.length).insertionSort (fun i j => v[i]?.getD 0 ≤ v[j]?.getD 0)

/-- `np.unique(ids, return_index=True)` (dataset.py 65-66): the distinct values in ascending order and
the position of the first occurrence of each. -/
def npUnique (ids : List Int) : List Int × List Nat :=
  let u := ids.dedup.insertionSort (· ≤ ·)
  (u, u.map (fun q => ids.idxOf q))

/-- dataset.py 59-84, `Dataset.__init__`. -/
def mkDataset {R L : Type} (X : List R) (nFeatures : Nat) (y : List L) (ids : List Int) :
    Except PyErr (Dataset R L) :=
  if ids.length ≠ X.length then .error .exception
  else
    let (qids, offs) := npUnique ids
    let idxSort := argsortNat offs
    .ok { X := X, nFeatures := nFeatures, y := y
          queryIds := gather qids idxSort
          queryOffsets := gather offs idxSort ++ [ids.length] }

namespace Dataset
variable {R L : Type}

/-- dataset.py 81. -/
def nInstances (d : Dataset R L) : Nat := d.y.length

/-- dataset.py 83. -/
def nQueries (d : Dataset R L) : Nat := d.queryIds.length

/-- dataset.py 268-270, `query_iterator`: `(query_ids[i], query_offsets[i], query_offsets[i+1])`. -/
def queryIterator (d : Dataset R L) : List (Int × Nat × Nat) :=
  d.queryIds.zip (d.queryOffsets.zip d.queryOffsets.tail)

/-- dataset.py 281, `get_query_sizes` (`np.ediff1d`). -/
def getQuerySizes (d : Dataset R L) : List Nat :=
  (d.queryOffsets.zip d.queryOffsets.tail).map (fun p => p.2 - p.1)

/-- numpy slice assignment `a[s:e] = v`. -/
def fillSlice {α : Type} (a : List α) (s e : Nat) (v : α) : List α :=
  a.mapIdx (fun i x => if s ≤ i ∧ i < e then v else x)

/-- Value stored when an integer is written into an `int32` array. -/
def castInt32 (q : Int) : Int := Int.bmod q (2 ^ 32)

/-- Value stored when an integer is written into an `uint32` array. -/
def castUint32 (q : Int) : Int := q % 2 ^ 32

/-- dataset.py 294-297, `get_qids_dataset`. `init` is the uninitialised content of `np.empty`. -/
def getQidsFrom (d : Dataset R L) (init : List Int) : List Int :=
  d.queryIterator.foldl (fun a b => fillSlice a b.2.1 b.2.2 (castInt32 b.1)) init

/-- dataset.py 294-297, with the uninitialised memory taken to be zero. That its content does not matter is
`C03_get_qids_dataset`. -/
def getQids (d : Dataset R L) : List Int := d.getQidsFrom (List.replicate d.nInstances 0)

/-- dataset.py 317-323, `get_query_offsets`. For a missing id, line 319 evaluates
`LookupError(...).format`, an attribute that does not exist: the error raised is `AttributeError`. -/
def getQueryOffsets (d : Dataset R L) (q : Int) : Except PyErr (Nat × Nat) :=
  match d.queryIds.findIdx? (· = q) with
  | none => .error .attributeError
  | some i =>
    match d.queryOffsets[i]?, d.queryOffsets[i + 1]? with
    | some s, some e => .ok (s, e)
    | _, _ => .error .indexError

/-- dataset.py 250-254, `subset`: `np.in1d` mask over the per-row ids, then boolean indexing of the three arrays. -/
def subset (d : Dataset R L) (Q : List Int) : Except PyErr (Dataset R L) :=
  let qidMap := d.getQids
  let mask := qidMap.map (fun q => decide (q ∈ Q))
  mkDataset (maskSelect d.X mask) d.nFeatures (maskSelect d.y mask) (maskSelect qidMap mask)

/-- dataset.py 157-161, the unrolled query ids written by `dump` (`int32` array). -/
def dumpQids (d : Dataset R L) : List Int := d.getQids

/-- Python 3 `round` on a number: to the nearest integer, ties to even (dataset.py 199-200). The product
`train_size * n_queries` is taken exactly, floating point rounding of it is not modelled. -/
def pyRound (q : ℚ) : Int :=
  let f := ⌊q⌋
  if q - f < 1 / 2 then f
  else if 1 / 2 < q - f then f + 1
  else if f % 2 = 0 then f else f + 1

/-- dataset.py 201, 212-214: the three slices of the permuted ids. -/
def splitQids (perm : List Int) (nQueries : Nat) (trainQn valiQn : Int) :
    List Int × List Int × List Int :=
  let testQn : Int := nQueries - trainQn - valiQn
  (pyTake trainQn perm, pyDrop trainQn (pyTake (trainQn + valiQn) perm), pyDrop (-testQn) perm)

/-- dataset.py 196-201, 210-214: check of the sizes, then the ids of the three parts. `perm` is the
outcome of `rng.permutation(self.query_ids)`. -/
def splitParts (d : Dataset R L) (trainSize valiSize : ℚ) (perm : List Int) :
    Except PyErr (List Int × List Int × List Int) :=
  if trainSize < 0 ∨ trainSize > 1 ∨ trainSize + valiSize > 1 then .error .exception
  else .ok (splitQids perm d.nQueries (pyRound (trainSize * d.nQueries))
              (pyRound (valiSize * d.nQueries)))

/-- dataset.py 203-206: `qid_map` of `split` is an `uint32` array. -/
def splitQidMap (d : Dataset R L) : List Int :=
  d.queryIterator.foldl (fun a b => fillSlice a b.2.1 b.2.2 (castUint32 b.1))
    (List.replicate d.nInstances 0)

/-- dataset.py 216-226: the dataset of one part (`in1d` mask, boolean indexing). -/
def splitDataset (d : Dataset R L) (Q : List Int) : Except PyErr (Dataset R L) :=
  let qidMap := d.splitQidMap
  let mask := qidMap.map (fun q => decide (q ∈ Q))
  mkDataset (maskSelect d.X mask) d.nFeatures (maskSelect d.y mask) (maskSelect qidMap mask)

/-- dataset.py 196-231, `split`. The validation part is built only if `vali_size` is truthy. -/
def split (d : Dataset R L) (trainSize valiSize : ℚ) (perm : List Int) :
    Except PyErr (Dataset R L × Option (Dataset R L) × Dataset R L) := do
  let (tr, va, te) ← d.splitParts trainSize valiSize perm
  let train ← d.splitDataset tr
  let vali ← if valiSize ≠ 0 then (d.splitDataset va).map some else pure none
  let test ← d.splitDataset te
  pure (train, vali, test)

/-- dataset.py 360-371: `qids[np.arange(a, b + size if b < a else b) % size]`. -/
def cyclicSlice (qids : List Int) (a b : Nat) : List Int :=
  let stop := if b < a then b + qids.length else b
  gather qids ((List.range' a (stop - a)).map (· % qids.length))

/-- dataset.py 348-374, `kfold` with `qids_only=True`: the list of yielded triples. `qids` is the (shuffled)
copy of the query ids. `n_folds = 0` divides by zero. -/
def kfoldQids (qids : List Int) (nFolds : Nat) :
    Except PyErr (List (List Int × List Int × List Int)) :=
  if nFolds = 0 then .error .zeroDivisionError
  else
    let foldSize := qids.length / nFolds
    let splitPoint (i : Nat) : Nat := foldSize * i
    .ok ((List.range nFolds).map (fun (cur : Nat) =>
      let idxTrain := splitPoint cur
      let idxVali := splitPoint (((cur : Int) - 2) % (nFolds : Int)).toNat
      let idxTest := splitPoint (((cur : Int) - 1) % (nFolds : Int)).toNat
      (cyclicSlice qids idxTrain idxVali, cyclicSlice qids idxVali idxTest,
        cyclicSlice qids idxTest idxTrain)))

/-- dataset.py 348-378, `kfold` with `qids_only=False`. -/
def kfold (d : Dataset R L) (qids : List Int) (nFolds : Nat) :
    Except PyErr (List (Dataset R L × Dataset R L × Dataset R L)) := do
  let folds ← kfoldQids qids nFolds
  folds.mapM (fun (tr, va, te) => do
    pure (← d.subset tr, ← d.subset va, ← d.subset te))

end Dataset

/-- dataset.py 132-135, `subset_features`: `X[:, features].copy()`, same labels, per-row ids. An index out of
range raises `IndexError`. -/
def selectRow {K : Type} (row : List K) (features : List Int) : Except PyErr (List K) :=
  features.mapM (pyGet row)

/-- dataset.py 132-135. `X[:, features]` raises `IndexError` on a feature index out of range even if there is
no row; this corner is not modelled (rows are checked one by one). -/
def Dataset.subsetFeatures {K L : Type} (d : Dataset (List K) L) (features : List Int) :
    Except PyErr (Dataset (List K) L) := do
  let X ← d.X.mapM (fun row => selectRow row features)
  mkDataset X features.length d.y d.getQids

end Verif
