/-
Model of what the model loaders share: writes into the arrays of an `RTEnsemble`, and its constructor
(`rankeval/model/rt_ensemble.py` 97-141).
-/
import Verif.Model.Ensemble

namespace Verif
namespace Ensemble
variable {F : Type}

/-- Conversion to the `int16` of `trees_nodes_feature` (rt_ensemble.py 169-170): modulo 2^16, as numpy did up to version 1. -/
def castInt16 (f : Int) : Int := Int.bmod f (2 ^ 16)

/-- `model.trees_root[i] = v`. The `int32` range is not modelled: files with 2^31 nodes are not considered. -/
def setRoot (m : Ensemble F) (i v : Int) : Except PyErr (Ensemble F) := do
  let a ← pySet m.root i v
  pure { m with root := a }

/-- `model.trees_weight[i] = v`. -/
def setWeight (m : Ensemble F) (i : Int) (v : F) : Except PyErr (Ensemble F) := do
  let a ← pySet m.weight i v
  pure { m with weight := a }

/-- `model.trees_left_child[i] = v`. -/
def setLeft (m : Ensemble F) (i v : Int) : Except PyErr (Ensemble F) := do
  let a ← pySet m.left i v
  pure { m with left := a }

/-- `model.trees_right_child[i] = v`. -/
def setRight (m : Ensemble F) (i v : Int) : Except PyErr (Ensemble F) := do
  let a ← pySet m.right i v
  pure { m with right := a }

/-- `model.trees_nodes_value[i] = v`. -/
def setValue (m : Ensemble F) (i : Int) (v : F) : Except PyErr (Ensemble F) := do
  let a ← pySet m.value i v
  pure { m with value := a }

/-- `model.trees_nodes_feature[i] = v`. -/
def setFeature (m : Ensemble F) (i v : Int) : Except PyErr (Ensemble F) := do
  let a ← pySet m.feature i (castInt16 v)
  pure { m with feature := a }

/-- A loaded model. -/
structure Loaded (F : Type) where
  arrays : Ensemble F
  learningRate : F
  baseScore : Option F
  deriving DecidableEq, Repr

/-- The formats accepted by the constructor (rt_ensemble.py 117-137). -/
inductive Format where
  | quickRank | lightGBM | xgboost | scikitLearn | jforests | catBoost
  deriving DecidableEq, Repr

/-- rt_ensemble.py 103-105: the base score before loading; `half` is 0.5. -/
def initialBase (half : F) (format : Format) : Option F → Option F
  | none => if format = .xgboost then some half else none
  | some b => some b

/-- rt_ensemble.py 139-141: `n_trees`, not negative. -/
def pruneLoaded (l : Loaded F) : Option Nat → Except PyErr (Loaded F)
  | none => pure l
  | some n =>
    if n < l.arrays.nTrees then do
      let a ← prune l.arrays n
      pure { l with arrays := a }
    else pure l

/-- rt_ensemble.py 101-141, `RTEnsemble.__init__`. `load` reads the file in the given format into a model with the given learning rate and
base score. An unknown format (line 137, TypeError) is not a `Format`. -/
def rtEnsemble (half : F) (format : Format) (load : F → Option F → Except PyErr (Loaded F)) (learningRate : F)
    (baseScore : Option F) (nTrees : Option Nat) : Except PyErr (Loaded F) := do
  let l ← load learningRate (initialBase half format baseScore)
  pruneLoaded l nTrees

end Ensemble
end Verif
