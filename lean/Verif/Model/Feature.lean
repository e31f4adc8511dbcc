/-
Model of `rankeval/analysis/_efficient_feature_impl.cpp` (and the header) and of `feature_importance` in `rankeval/analysis/feature.py`
for the metrics MSE and RMSE.

Simplified: exact arithmetic in an ordered field instead of float32 (so the order of the parallel sums does not matter); the
parallel loops touch different documents in different rounds and are run in order.
Kept: 32 bit unsigned arithmetic of indices and ranges, and every access to memory.
-/
import Verif.Model.Topology
import Mathlib.Algebra.Order.Field.Basic

namespace Verif
namespace Ensemble
variable {K : Type} [Field K] [LinearOrder K]

/-- Conversion of a C integer to `unsigned int`. -/
def u32 (i : Int) : Nat := (i % 2 ^ 32).toNat

/-- Conversion of an `unsigned int` to `int`. -/
def i32 (i : Nat) : Int := Int.bmod i (2 ^ 32)

/-- `std::swap(a[i], a[j])`. -/
def swapAt {α : Type} (a : List α) (i j : Int) : Except PyErr (List α) := do
  let x ← rd a i
  let y ← rd a j
  let b ← wr a i y
  wr b j x

/-- _efficient_feature_impl.cpp 106-117: the partition loop; `fuel` is the number of documents left. Returns the order of the documents,
`end_id`, and the sums of the targets on the left and on the right. -/
def fiPartition (X : List K) (nf : Nat) (f : Int) (t : K) (y : List K) :
    Nat → List Nat → Int → Int → K → K → Except PyErr (List Nat × Int × K × K)
  | 0, sp, _, e, a, b => pure (sp, e, a, b)
  | fuel + 1, sp, s, e, a, b =>
    if s ≤ e then do
      let inst ← rd sp s
      let x ← rd X (u32 (inst * nf + f))
      let yt ← rd y inst
      if x ≤ t then fiPartition X nf f t y fuel sp (s + 1) e (a + yt) b
      else do
        let sp' ← swapAt sp s e
        fiPartition X nf f t y fuel sp' s (e - 1) a (b + yt)
    else pure (sp, e, a, b)

/-- _efficient_feature_impl.cpp 131-145: the loop over the documents of the node from position `i`; the comparison `i <= end_id` is
unsigned. Returns the predictions and `delta_mse`. -/
def fiGain (y : List K) (sp : List Nat) (endId : Int) (mL mR : K) : Nat → Nat → List K → K → Except PyErr (List K × K)
  | 0, _, pred, delta => pure (pred, delta)
  | fuel + 1, i, pred, delta => do
    let inst ← rd sp i
    let yt ← rd y inst
    let p ← rd pred inst
    let q := if i ≤ u32 endId then mL else mR
    let pred' ← wr pred inst q
    fiGain y sp endId mL mR fuel (i + 1) pred' (delta + ((yt - p) ^ 2 - (yt - q) ^ 2))

/-- A `TreeNode` of the queue: node and range of documents, unsigned (_efficient_feature_impl.h 1-16). -/
structure FiNode where
  id : Nat
  start : Nat
  stop : Nat
  deriving DecidableEq, Repr

/-- The arrays changed while a tree is evaluated. -/
structure FiState (K : Type) where
  split : List Nat
  pred : List K
  imp : List K
  count : List Nat
  deriving DecidableEq

/-- _efficient_feature_impl.cpp 119-126: a sum divided by the number of documents if there are any. -/
def fiMean (sum : K) (docs : Int) : K := if docs > 0 then sum / docs else sum

/-- `a[i] += x`. -/
def addAt {α : Type} [Add α] (a : List α) (i : Int) (x : α) : Except PyErr (List α) := do
  let v ← rd a i
  wr a i (v + x)

/-- `a[i]++` for counters of 16 bits: C++ writes them as `short`, Python reads them as `uint16`. -/
def incAt (a : List Nat) (i : Int) : Except PyErr (List Nat) := do
  let v ← rd a i
  wr a i ((v + 1) % 2 ^ 16)

/-- _efficient_feature_impl.cpp 152-166: the child is put in the queue if it is not a leaf and its range passes the (unsigned) test. -/
def fiPush (m : Ensemble K) (child : Int) (start stop : Nat) (test : Bool) (queue : List FiNode) : Except PyErr (List FiNode) := do
  let leaf ← isLeafC m child
  if !leaf && test then pure (⟨u32 child, start, stop⟩ :: queue) else pure queue

/-- _efficient_feature_impl.cpp 95-167: one round of the loop over the queue; the head of the list is the back of the vector. -/
def fiStep (m : Ensemble K) (X : List K) (nf n : Nat) (y : List K) (st : FiState K) (node : FiNode) (queue : List FiNode) :
    Except PyErr (FiState K × List FiNode) := do
  let f ← rd m.feature (i32 node.id)
  let t ← rd m.value (i32 node.id)
  let count ← incAt st.count f
  let s := i32 node.start
  let e := i32 node.stop
  let (split, endId, a, b) ← fiPartition X nf f t y (e + 1 - s).toNat st.split s e 0 0
  let leftDocs := i32 (u32 (endId - node.start + 1))
  let rightDocs := i32 (u32 (node.stop - endId))
  let (pred, delta) ← fiGain y split endId (fiMean a leftDocs) (fiMean b rightDocs) (node.stop + 1 - node.start) node.start st.pred 0
  let imp ← addAt st.imp f (delta / n)
  let l ← rd m.left (i32 node.id)
  let q1 ← fiPush m l node.start (u32 endId) (u32 endId > node.start) queue
  let r ← rd m.right (i32 node.id)
  let q2 ← fiPush m r (u32 (endId + 1)) node.stop (node.stop > u32 (endId + 1)) q1
  pure (⟨split, pred, imp, count⟩, q2)

/-- _efficient_feature_impl.cpp 93-167: the loop over the queue; more rounds than nodes means that the loop does not end. -/
def fiLoop (m : Ensemble K) (X : List K) (nf n : Nat) (y : List K) : Nat → FiState K → List FiNode → Except PyErr (FiState K)
  | _, st, [] => pure st
  | 0, _, _ :: _ => .error .diverges
  | fuel + 1, st, node :: queue => do
    let (st', queue') ← fiStep m X nf n y st node queue
    fiLoop m X nf n y fuel st' queue'

/-- What is kept from tree to tree: predictions, importances, counts. -/
structure FiTotal (K : Type) where
  yPred : List K
  imp : List K
  count : List Nat
  deriving DecidableEq

/-- _efficient_feature_impl.cpp 51-174, `c_feature_importance_tree`. -/
def fiTree (m : Ensemble K) (X : List K) (nf n : Nat) (y : List K) (tot : FiTotal K) (tree : Nat) : Except PyErr (FiTotal K) := do
  let target := List.zipWith (· - ·) y tot.yPred
  let mean := target.sum / n
  let root ← rd m.root tree
  let st ← fiLoop m X nf n target (m.left.length + 1) ⟨List.range n, List.replicate n mean, tot.imp, tot.count⟩
    [⟨u32 root, 0, u32 ((n : Int) - 1)⟩]
  let w ← rd m.weight tree
  pure ⟨List.zipWith (fun p q => p + q * w) tot.yPred st.pred, st.imp, st.count⟩

/-- _efficient_feature_impl.cpp 7-49, `c_feature_importance`, and _efficient_feature.pyx 54-80: importances and counts. `X` holds the
rows one after the other. -/
def featureImportance (m : Ensemble K) (X : List K) (nf n : Nat) (y : List K) : Except PyErr (List K × List Nat) := do
  let tot ← (List.range m.nTrees).foldlM (fiTree m X nf n y) ⟨List.replicate n 0, List.replicate nf 0, List.replicate nf 0⟩
  pure (tot.imp, tot.count)

/-- feature.py 66-67: `feature_imp[0] = np.sqrt(feature_imp[0])`. -/
def rmseImportance (sqrt : K → K) : List K → Except PyErr (List K)
  | [] => .error .indexError
  | x :: xs => pure (sqrt x :: xs)

end Ensemble
end Verif
