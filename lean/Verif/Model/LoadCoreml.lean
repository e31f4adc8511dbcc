/-
Model of `rankeval/model/proxy_CatBoost.py`: ensembles in Apple's CoreML format.
Simplification: the file is given as the list of nodes that coremltools reads from it. A missing coremltools package (lines 52-55) is
not modelled.
-/
import Verif.Model.Loader

namespace Verif
namespace Ensemble
variable {F : Type}

/-- What a node does (`nodeBehavior`). -/
inductive CoreBehavior (F : Type) where
  | leaf (value : F)
  | greaterThan (feature : Nat) (threshold : F) (trueChild falseChild : Nat)
  | lessThanEqual (feature : Nat) (threshold : F) (trueChild falseChild : Nat)
  | unsupported
  deriving DecidableEq, Repr

/-- A node of the file. -/
structure CoreNode (F : Type) where
  treeId : Nat
  nodeId : Nat
  behavior : CoreBehavior F
  deriving DecidableEq, Repr

/-- proxy_CatBoost.py 111-113, `remap_nodeId`. -/
def remapNodeId (nodeId nNodesPerTree : Nat) : Int := (nNodesPerTree : Int) - 1 - nodeId

/-- proxy_CatBoost.py 152-156: the last node id seen for each tree, in an uninitialised uint16 array. -/
def coreLast (empty : Nat → List Nat) (nTrees : Nat) (nodes : List (CoreNode F)) : List Nat :=
  nodes.foldl (fun a x => a.set x.treeId (x.nodeId % 2 ^ 16)) (empty nTrees)

/-- proxy_CatBoost.py 134-161, `_count_nodes`. `empty n` is the content of `np.empty(n)`. The sum of the uint16 array with 1 wraps at
2^16, the total does not. -/
def coreCount (empty : Nat → List Nat) (nodes : List (CoreNode F)) : Except PyErr (Nat × Nat) :=
  if nodes = [] then .error .valueError
  else
    let nTrees := (nodes.map (·.treeId)).foldl max 0 + 1
    pure (nTrees, ((coreLast empty nTrees nodes).map (fun x => (x + 1) % 2 ^ 16)).sum)

/-- proxy_CatBoost.py 83-85: left and right child; the condition `>` is flipped. -/
def coreChildren : CoreBehavior F → Option (Nat × F × Nat × Nat)
  | .greaterThan f t tc fc => some (f, t, fc, tc)
  | .lessThanEqual f t tc fc => some (f, t, tc, fc)
  | _ => none

/-- proxy_CatBoost.py 76-78: root and weight, if the node is the root of its tree. -/
def coreRoot (one : F) (remap : Int) (m : Ensemble F) (treeId offset : Nat) : Except PyErr (Ensemble F) :=
  if remap = 0 then do
    let m ← setRoot m treeId offset
    setWeight m treeId one
  else pure m

/-- proxy_CatBoost.py 80-109: the data of the node. -/
def coreData (n : Nat) (m : Ensemble F) (i : Int) (offset : Nat) : CoreBehavior F → Except PyErr (Ensemble F)
  | .leaf v => setValue m i v
  | b =>
    match coreChildren b with
    | none => .error .assertionError
    | some (f, t, l, r) => do
      let m ← setValue m i t
      let m ← setFeature m i f
      let m ← setLeft m i (offset + remapNodeId l n)
      setRight m i (offset + remapNodeId r n)

/-- proxy_CatBoost.py 70-109: one turn of the loop over the nodes. -/
def coreStep (one : F) (n : Nat) (m : Ensemble F) (x : CoreNode F) : Except PyErr (Ensemble F) := do
  let m ← coreRoot one (remapNodeId x.nodeId n) m x.treeId (x.treeId * n)
  coreData n m (remapNodeId x.nodeId n + (x.treeId * n : Nat)) (x.treeId * n) x.behavior

/-- proxy_CatBoost.py 39-109, `ProxyCatBoost.load`. `int(n_nodes / n_trees)` is the integer quotient (for less than 2^53 nodes). -/
def catboostLoad (zero one minusOne : F) (empty : Nat → List Nat) (nodes : List (CoreNode F)) (learningRate : F) (baseScore : Option F) :
    Except PyErr (Loaded F) := do
  let (nTrees, nNodes) ← coreCount empty nodes
  let m ← nodes.foldlM (coreStep one (nNodes / nTrees)) (alloc zero minusOne nTrees nNodes)
  pure ⟨m, learningRate, baseScore⟩

end Ensemble
end Verif
