/-
Model of `RTEnsemble.copy(n_trees)` and of the parameter `n_trees` of the constructor (rankeval/model/rt_ensemble.py) for every
integer, also for 0 and negative ones, and of what can be done with the models that come out. `Ensemble.prune` is the
same for natural numbers.
-/
import Verif.Model.Ensemble

namespace Verif
namespace Ensemble
variable {F : Type}

/-- rt_ensemble.py 106-115: the attributes of an `RTEnsemble` when `n_trees` may be any integer. -/
structure Cut (F : Type) where
  nTrees : Int
  nNodes : Int
  root : List Int
  weight : List F
  left : List Int
  right : List Int
  value : List F
  feature : List Int
  deriving DecidableEq, Repr

/-- An ensemble as loaded. -/
def toCut (m : Ensemble F) : Cut F :=
  ⟨m.nTrees, m.nNodes, m.root, m.weight, m.left, m.right, m.value, m.feature⟩

namespace Cut

/-- The arrays as the kernels see them: a loop `xrange(n_trees)` (_efficient_scoring.pyx 50, 91) over a negative number of trees
does nothing, as over 0 trees. -/
def arrays (m : Cut F) : Ensemble F :=
  ⟨m.nTrees.toNat, m.nNodes.toNat, m.root, m.weight, m.left, m.right, m.value, m.feature⟩

/-- rt_ensemble.py 402-418, `_prune_model`. `trees_root[n_trees]` and `[:n_trees]` count from the end for negative `n_trees`, the
number of trees is set to `n_trees` as it is. -/
def prune (m : Cut F) (n : Int) : Except PyErr (Cut F) :=
  if n ≥ m.nTrees then pure m
  else do
    let start ← pyGet m.root n
    pure { nTrees := n
           nNodes := start
           root := pyTake n m.root
           weight := pyTake n m.weight
           feature := pyTake start m.feature
           value := pyTake start m.value
           right := pyTake start m.right
           left := pyTake start m.left }

/-- rt_ensemble.py 386-389, `copy`: `None` copies all trees. The original is not changed (`deepcopy`). -/
def copy (m : Cut F) : Option Int → Except PyErr (Cut F)
  | none => pure m
  | some n => prune m n

/-- rt_ensemble.py 325-359, `score`, with an empty cache. For detailed scoring `np.zeros((n_instances, n_trees))`
(_efficient_scoring.pyx 75) refuses a negative dimension. -/
def score (ops : FloatOps F) (m : Cut F) (learningRate : F) (baseScore : Option F) (detailed : Bool) (X : List (List F))
    (nFeatures : Nat) : Except PyErr (Scored F) := do
  featureCheck m.arrays nFeatures
  if detailed ∧ m.nTrees < 0 then .error .valueError
  else do
    let s ← rawScore ops m.arrays detailed X
    pure (adjust ops learningRate baseScore s)

/-- rt_ensemble.py 204-214, `num_leaves`: `np.empty(shape=n_trees)` refuses a negative shape. -/
def numLeaves (m : Cut F) : Except PyErr (List Nat) :=
  if m.nTrees < 0 then .error .valueError else Ensemble.numLeaves m.arrays

/-- rt_ensemble.py 225-236, `num_nodes`. -/
def numNodes (m : Cut F) : Except PyErr (List Int) :=
  if m.nTrees < 0 then .error .valueError else Ensemble.numNodes m.arrays

/-- rt_ensemble.py 258-262, `height_trees`. -/
def heightTrees (m : Cut F) : Except PyErr (List Nat) :=
  if m.nTrees < 0 then .error .valueError else Ensemble.heightTrees m.arrays

end Cut
end Ensemble
end Verif
