/-
Opening and saving models by the name of the format (`rankeval/model/rt_ensemble.py` 32-33, 97-141, 264-294), including the package that CatBoost
files need (`rankeval/model/proxy_CatBoost.py` 50-55).
-/
import Verif.Model.QuickRankText
import Verif.Model.LoadCoreml

namespace Verif
namespace Ensemble
variable {F : Type}

/-- rt_ensemble.py 117-135: the names of the formats. -/
def formatNamed (name : String) : Option Format :=
  if name = "QuickRank" then some .quickRank
  else if name = "LightGBM" then some .lightGBM
  else if name = "XGBoost" then some .xgboost
  else if name = "ScikitLearn" then some .scikitLearn
  else if name = "Jforests" then some .jforests
  else if name = "CatBoost" then some .catBoost
  else none

/-- A model object after its construction: loaded, or with all its arrays still `None` (rt_ensemble.py 106-113). -/
inductive Opened (F : Type) where
  | loaded (l : Loaded F)
  | empty
  deriving DecidableEq, Repr

/-- rt_ensemble.py 139-141 on a model without trees: `n_trees < None` raises in Python 3. -/
def pruneEmpty : Option Nat → Except PyErr (Opened F)
  | none => .ok .empty
  | some _ => .error .typeError

/-- rt_ensemble.py 97-141, `RTEnsemble(file, format=name, ...)`. `load` are the readers of the formats, applied to the file; `coremltools` says
whether this package is installed; without it proxy_CatBoost.py 52-55 writes a message and returns before the file is opened. -/
def openModel (coremltools : Bool) (half : F) (load : Format → F → Option F → Except PyErr (Loaded F)) (name : String) (learningRate : F)
    (baseScore : Option F) (nTrees : Option Nat) : Except PyErr (Opened F) :=
  match formatNamed name with
  | none => .error .typeError
  | some format =>
    if format = .catBoost ∧ coremltools = false then pruneEmpty nTrees
    else (rtEnsemble half format (load format) learningRate baseScore nTrees).map .loaded

/-- rt_ensemble.py 325-359, `score`, on a new object: `np.max(None) + 1` (line 327) raises. -/
def scoreOpened (ops : FloatOps F) (detailed : Bool) (X : List (List F)) (nFeatures : Nat) : Opened F → Except PyErr (Scored F)
  | .loaded l => scoreFresh ops l.arrays l.learningRate l.baseScore detailed X nFeatures
  | .empty => .error .typeError

/-- rt_ensemble.py 281-294, `save`: the text that is written. proxy_LightGBM.py 185, proxy_XGBoost.py 140 and proxy_ScikitLearn.py 133 raise
`NotImplementedError`, a subclass of `RuntimeError`. A model without trees fails in proxy_QuickRank.py 141 (`max_leaves`, `np.arange(None)` and the
like). -/
def saveOpened (pr : Reprs F) (name : String) (m : Opened F) : Except PyErr (List Char) :=
  match formatNamed name with
  | some .quickRank =>
    match m with
    | .loaded l => quickrankSaveText pr l.arrays l.learningRate
    | .empty => .error .typeError
  | some .lightGBM => .error .runtimeError
  | some .xgboost => .error .runtimeError
  | some .scikitLearn => .error .runtimeError
  | _ => .error .typeError

end Ensemble
end Verif
