/-
Model of `rankeval/model/rt_ensemble.py` (data structures and tree statistics) and of the scoring kernels
`rankeval/scoring/_efficient_scoring.pyx`, `rankeval/scoring/scorer.py`.
-/
import Verif.Py.Basic

namespace Verif

/-- The float32 operations used by scoring, arbitrary: no law is assumed, so NaN and rounding are covered. `sum` is numpy's sum of
a row, `isOne x` is `x == 1`, `isZero x` is `x == 0`. -/
structure FloatOps (F : Type) where
  zero : F
  add : F → F → F
  mul : F → F → F
  le : F → F → Bool
  sum : List F → F
  isOne : F → Bool
  isZero : F → Bool

/-- rt_ensemble.py 106-115 and 160-170: the arrays of an `RTEnsemble`. -/
structure Ensemble (F : Type) where
  nTrees : Nat
  nNodes : Nat
  root : List Int
  weight : List F
  left : List Int
  right : List Int
  value : List F
  feature : List Int
  deriving DecidableEq, Repr

namespace Ensemble
variable {F : Type}

/-- A read `a[i]` compiled with `boundscheck(False), wraparound(False)`: outside of the array anything may happen. -/
def rd {α : Type} (a : List α) (i : Int) : Except PyErr α :=
  if 0 ≤ i then
    match a[i.toNat]? with
    | some x => .ok x
    | none => .error .undefinedBehaviour
  else .error .undefinedBehaviour

/-- rt_ensemble.py 157-170, `initialize`; `minusOne` is the float -1. -/
def alloc (zero minusOne : F) (nTrees nNodes : Nat) : Ensemble F where
  nTrees := nTrees
  nNodes := nNodes
  root := List.replicate nTrees (-1)
  weight := List.replicate nTrees zero
  left := List.replicate nNodes (-1)
  right := List.replicate nNodes (-1)
  value := List.replicate nNodes minusOne
  feature := List.replicate nNodes (-1)

/-- _efficient_scoring.pyx 113-134, the loop of `_score_single_instance_single_tree` from node `cur`. A run that visits more nodes
than there are is in a cycle and does not end: `fuel` is that bound. The `and` of the loop condition is lazy. -/
def traverse (ops : FloatOps F) (m : Ensemble F) (row : List F) : Nat → Int → Except PyErr Int
  | 0, _ => .error .diverges
  | fuel + 1, cur => do
    let l ← rd m.left cur
    if l ≠ -1 then
      let r ← rd m.right cur
      if r ≠ -1 then
        let f ← rd m.feature cur
        let t ← rd m.value cur
        let x ← rd row f
        if ops.le x t then traverse ops m row fuel l else traverse ops m row fuel r
      else pure cur
    else pure cur

/-- _efficient_scoring.pyx 113-134. -/
def exitLeaf (ops : FloatOps F) (m : Ensemble F) (row : List F) (tree : Nat) : Except PyErr Int := do
  let cur ← rd m.root tree
  traverse ops m row (m.left.length + 1) cur

/-- _efficient_scoring.pyx 62-63 and 106-107: `trees_nodes_value[leaf_node] * trees_weight[idx_tree]`. -/
def contribution (ops : FloatOps F) (m : Ensemble F) (tree : Nat) (leaf : Int) : Except PyErr F := do
  let v ← rd m.value leaf
  let w ← rd m.weight tree
  pure (ops.mul v w)

/-- _efficient_scoring.pyx 49-63: the inner loop of `basic_scoring` over the trees, for one instance. -/
def basicRow (ops : FloatOps F) (m : Ensemble F) (row : List F) : List Nat → F → Except PyErr F
  | [], acc => pure acc
  | k :: ks, acc => do
    let leaf ← exitLeaf ops m row k
    let c ← contribution ops m k leaf
    basicRow ops m row ks (ops.add acc c)

/-- _efficient_scoring.pyx 30-65, `basic_scoring`, in sequential order. The parallel loop is in `Verif/Model/Parallel.lean`. -/
def basicScoring (ops : FloatOps F) (m : Ensemble F) (X : List (List F)) : Except PyErr (List F) :=
  X.mapM (fun row => basicRow ops m row (List.range m.nTrees) ops.zero)

/-- _efficient_scoring.pyx 94-107: leaf and partial score of one instance and one tree. -/
def detailedCell (ops : FloatOps F) (m : Ensemble F) (row : List F) (tree : Nat) : Except PyErr (Int × F) := do
  let leaf ← exitLeaf ops m row tree
  let c ← contribution ops m tree leaf
  pure (leaf, c)

/-- _efficient_scoring.pyx 69-109, `detailed_scoring`: matrices of leaves and partial scores, by rows. -/
def detailedScoring (ops : FloatOps F) (m : Ensemble F) (X : List (List F)) :
    Except PyErr (List (List Int) × List (List F)) := do
  let cells ← X.mapM (fun row => (List.range m.nTrees).mapM (detailedCell ops m row))
  pure (cells.map (·.map (·.1)), cells.map (·.map (·.2)))

/-- The scoring part of a `Scorer` (scorer.py 60-72): `y_pred`, and for detailed scoring `partial_y_pred`, `out_leaves`. -/
structure Scored (F : Type) where
  yPred : List F
  partialY : Option (List (List F))
  leaves : Option (List (List Int))
  deriving DecidableEq, Repr

/-- scorer.py 84-91, `Scorer.score` on a new scorer. -/
def rawScore (ops : FloatOps F) (m : Ensemble F) (detailed : Bool) (X : List (List F)) : Except PyErr (Scored F) :=
  if detailed then do
    let (leaves, part) ← detailedScoring ops m X
    pure ⟨part.map ops.sum, some part, some leaves⟩
  else do
    let y ← basicScoring ops m X
    pure ⟨y, none, none⟩

/-- `a[:1] += b` on a row. -/
def addFirst (ops : FloatOps F) (b : F) : List F → List F
  | [] => []
  | x :: xs => ops.add x b :: xs

/-- rt_ensemble.py 340-349: learning rate and base score. `base_score` is `None` or a number; 0 counts as false. -/
def adjust (ops : FloatOps F) (learningRate : F) (baseScore : Option F) (s : Scored F) : Scored F :=
  let s1 : Scored F :=
    if ops.isOne learningRate then s
    else { s with yPred := s.yPred.map (fun v => ops.mul v learningRate)
                  partialY := s.partialY.map (·.map (·.map (fun v => ops.mul v learningRate))) }
  match baseScore with
  | none => s1
  | some b =>
    if ops.isZero b then s1
    else { s1 with yPred := s1.yPred.map (fun v => ops.add v b)
                   partialY := s1.partialY.map (·.map (addFirst ops b)) }

/-- rt_ensemble.py 327-329: `np.max(trees_nodes_feature) + 1 > n_features`; `np.max` of an empty array raises. -/
def featureCheck (m : Ensemble F) (nFeatures : Nat) : Except PyErr Unit :=
  match m.feature with
  | [] => .error .valueError
  | f :: fs => if fs.foldl max f + 1 > (nFeatures : Int) then .error .runtimeError else pure ()

/-- rt_ensemble.py 325-359, `score`, with an empty cache. -/
def scoreFresh (ops : FloatOps F) (m : Ensemble F) (learningRate : F) (baseScore : Option F) (detailed : Bool)
    (X : List (List F)) (nFeatures : Nat) : Except PyErr (Scored F) := do
  featureCheck m nFeatures
  let s ← rawScore ops m detailed X
  pure (adjust ops learningRate baseScore s)

/-- rt_ensemble.py 182-183, `is_leaf_node`, Python indexing. -/
def isLeafNode (m : Ensemble F) (i : Int) : Except PyErr Bool := do
  let l ← pyGet m.left i
  if l = -1 then
    let r ← pyGet m.right i
    pure (r == -1)
  else pure false

/-- rt_ensemble.py 207-211 and 228-232: `next_root_node`. -/
def nextRoot (m : Ensemble F) (k : Nat) : Except PyErr Int :=
  if k + 1 = m.nTrees then pure m.nNodes else pyGet m.root (k + 1 : Nat)

/-- rt_ensemble.py 204-214, `num_leaves`. Roots are not negative in every model loaded, so the slice is a plain one. -/
def numLeaves (m : Ensemble F) : Except PyErr (List Nat) :=
  (List.range m.nTrees).mapM (fun k => do
    let a ← pyGet m.root (k : Nat)
    let b ← nextRoot m k
    pure ((slice a.toNat b.toNat m.left).countP (· == -1)))

/-- rt_ensemble.py 225-236, `num_nodes`. -/
def numNodes (m : Ensemble F) : Except PyErr (List Int) :=
  (List.range m.nTrees).mapM (fun k => do
    let a ← pyGet m.root (k : Nat)
    let b ← nextRoot m k
    pure (b - a))

/-- rt_ensemble.py 194: `num_leaves().max()`. -/
def maxLeaves (m : Ensemble F) : Except PyErr Nat := do
  match ← numLeaves m with
  | [] => .error .valueError
  | n :: ns => pure (ns.foldl max n)

/-- rt_ensemble.py 247-256: the recursion `height_node`; a recursion deeper than the number of nodes is in a cycle. -/
def heightNode (m : Ensemble F) : Nat → Int → Nat → Except PyErr Nat
  | 0, _, _ => .error .diverges
  | fuel + 1, i, depth => do
    let l ← pyGet m.left i
    if l = -1 then pure depth
    else do
      let a ← heightNode m fuel l (depth + 1)
      let r ← pyGet m.right i
      let b ← heightNode m fuel r (depth + 1)
      pure (max a b)

/-- rt_ensemble.py 258-262, `height_trees`. -/
def heightTrees (m : Ensemble F) : Except PyErr (List Nat) :=
  (List.range m.nTrees).mapM (fun k => do
    let r ← pyGet m.root (k : Nat)
    heightNode m (m.left.length + 1) r 0)

/-- rt_ensemble.py 391-418, `_prune_model` on the arrays; `n ≥ 0` (the documentation asks for a number of trees). The reset of the
cache (line 421) is in `Verif/Model/ScoreCache.lean`. -/
def prune (m : Ensemble F) (n : Nat) : Except PyErr (Ensemble F) :=
  if n ≥ m.nTrees then pure m
  else do
    let start ← pyGet m.root (n : Nat)
    pure { nTrees := n
           nNodes := start.toNat
           root := m.root.take n
           weight := m.weight.take n
           feature := pyTake start m.feature
           value := pyTake start m.value
           right := pyTake start m.right
           left := pyTake start m.left }

end Ensemble
end Verif
