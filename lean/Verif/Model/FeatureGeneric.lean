/-
Model of `feature_importance` and `_feature_importance_tree` in `rankeval/analysis/feature.py` for metrics other than MSE and RMSE.

Simplified: exact arithmetic in an ordered field (the code rounds the predictions of a node to float32); the metric is a function of the
vector of scores, as `metric.eval(dataset, scores)` is for a fixed dataset. Kept: numpy indexing (with negative indices), the queue, the
predictions by level and the 16 bit counters.
-/
import Verif.Model.Ensemble
import Mathlib.Algebra.Order.Field.Basic

namespace Verif
namespace Ensemble
variable {K : Type} [Field K] [LinearOrder K]

/-- numpy `a[docs] = v` for a number `v`; `docs` are positions of `a`. -/
def setDocs (a : List K) (docs : List Nat) (v : K) : List K := a.mapIdx (fun i x => if i ∈ docs then v else x)

/-- numpy `a[docs] = b[docs]`, for arrays of the same length; `None` as index selects everything. -/
def copyDocs (a b : List K) : Option (List Nat) → List K
  | none => b
  | some docs => List.zipWith (fun i (p : K × K) => if i ∈ docs then p.2 else p.1) (List.range a.length) (a.zip b)

/-- `y[docs].mean()` for positions of `y`. -/
def meanDocs (y : List K) (docs : List Nat) : K := (gather y docs).sum / docs.length

/-- numpy `a[i] += x` for a counter of 16 bits. -/
def incUint16 (a : List Nat) (i : Int) : Except PyErr (List Nat) := do
  let v ← pyGet a i
  pySet a i ((v + 1) % 2 ^ 16)

/-- numpy `a[i] += x`. -/
def pyAddAt (a : List K) (i : Int) (x : K) : Except PyErr (List K) := do
  let v ← pyGet a i
  pySet a i (v + x)

/-- An entry of the queue: node, depth, and the documents of the node (`None` at the root). -/
structure GenNode where
  id : Int
  depth : Nat
  docs : Option (List Nat)
  deriving DecidableEq, Repr

/-- The predictions by level, the importances and the counts. -/
structure GenState (K : Type) where
  levels : List (List K)
  imp : List K
  count : List Nat
  deriving DecidableEq

/-- feature.py 163-170: the documents of the node (all of them at the root) sent left and right. -/
def genSplit (X : List (List K)) (f : Int) (t : K) (docs : Option (List Nat)) : Except PyErr (List Nat × List Nat) := do
  let D := match docs with
    | some D => D
    | none => List.range X.length
  let vals ← D.mapM (fun (d : Nat) => do
    let row ← pyGet X (d : Int)
    pyGet row f)
  pure (((D.zip vals).filter (fun p => decide (p.2 ≤ t))).map (·.1), ((D.zip vals).filter (fun p => decide (p.2 > t))).map (·.1))

/-- feature.py 201-204: the child is put in the queue if it is not a leaf. -/
def genPush (m : Ensemble K) (child : Int) (depth : Nat) (docs : List Nat) : Except PyErr (List GenNode) := do
  let leaf ← isLeafNode m child
  if !leaf then pure [⟨child, depth, some docs⟩] else pure []

/-- feature.py 156-204: one round of the loop; the second result is what is appended to the queue. `y` is `y_target`. -/
def genStep (m : Ensemble K) (X : List (List K)) (M : List K → K) (y yPred : List K) (st : GenState K) (node : GenNode) :
    Except PyErr (GenState K × List GenNode) := do
  let f ← pyGet m.feature node.id
  let t ← pyGet m.value node.id
  let count ← incUint16 st.count f
  let (l, r) ← genSplit X f t node.docs
  let parent ← pyGet st.levels (node.depth : Int)
  let pre := M (List.zipWith (· + ·) parent yPred)
  let mod1 := if l.length > 0 then setDocs parent l (meanDocs y l) else parent
  let mod2 := if r.length > 0 then setDocs mod1 r (meanDocs y r) else mod1
  let levels := if node.depth + 1 > st.levels.length - 1 then st.levels ++ [parent] else st.levels
  let next ← pyGet levels ((node.depth + 1 : Nat) : Int)
  let levels' ← pySet levels ((node.depth + 1 : Nat) : Int) (copyDocs next mod2 node.docs)
  let post := M (List.zipWith (· + ·) mod2 yPred)
  let imp ← pyAddAt st.imp f (pre - post)
  let lc ← pyGet m.left node.id
  let q1 ← genPush m lc (node.depth + 1) l
  let rc ← pyGet m.right node.id
  let q2 ← genPush m rc (node.depth + 1) r
  pure (⟨levels', imp, count⟩, q1 ++ q2)

/-- feature.py 154-204: the loop; more rounds than nodes means that it does not end. -/
def genLoop (m : Ensemble K) (X : List (List K)) (M : List K → K) (y yPred : List K) : Nat → GenState K → List GenNode → Except PyErr (GenState K)
  | _, st, [] => pure st
  | 0, _, _ :: _ => .error .diverges
  | fuel + 1, st, node :: queue => do
    let (st', new) ← genStep m X M y yPred st node
    genLoop m X M y yPred fuel st' (queue ++ new)

/-- What is kept from tree to tree: predictions, importances, counts. -/
structure GenTotal (K : Type) where
  yPred : List K
  imp : List K
  count : List Nat
  deriving DecidableEq

/-- feature.py 134-212, `_feature_importance_tree`; the result is what is left in the arrays passed to it. -/
def genTree (m : Ensemble K) (X : List (List K)) (lab : List K) (M : List K → K) (tot : GenTotal K) (tree : Nat) : Except PyErr (GenTotal K) := do
  let y := List.zipWith (· - ·) lab tot.yPred
  let mean := y.sum / y.length
  let root ← pyGet m.root (tree : Int)
  let st ← genLoop m X M y tot.yPred (m.left.length + 1) ⟨[List.replicate X.length mean], tot.imp, tot.count⟩ [⟨root, 0, none⟩]
  let last ← pyGet st.levels (-1)
  let w ← pyGet m.weight (tree : Int)
  pure ⟨List.zipWith (fun p q => p + q * w) tot.yPred last, st.imp, st.count⟩

/-- feature.py 69-81: importances and counts before normalisation. -/
def genImportance (m : Ensemble K) (X : List (List K)) (nf : Nat) (lab : List K) (M : List K → K) : Except PyErr (List K × List Nat) := do
  let tot ← (List.range m.nTrees).foldlM (genTree m X lab M) ⟨List.replicate X.length 0, List.replicate nf 0, List.replicate nf 0⟩
  pure (tot.imp, tot.count)

/-- feature.py 83-84: `feature_imp / feature_imp.max()`; `none` stands for the NaN or infinity of a division by zero. -/
def normalizeImp : List K → Except PyErr (List (Option K))
  | [] => .error .valueError
  | x :: xs =>
    let top := xs.foldl max x
    pure ((x :: xs).map (fun v => if top = 0 then none else some (v / top)))

end Ensemble
end Verif
