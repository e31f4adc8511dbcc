/-
Model of `rankeval/model/proxy_XGBoost.py` and `rankeval/model/proxy_ScikitLearn.py`: text dumps, one node per line.
Simplification: the files are given as the list of their lines after matching the regular expressions, with the numbers already
converted.
-/
import Verif.Model.Loader
import Verif.Py.Float32

namespace Verif
namespace Ensemble
variable {F : Type}

/-- A line, by the regular expression it matches (proxy_XGBoost.py 42-44, proxy_ScikitLearn.py 29-33). -/
inductive DumpLine (F : Type) where
  | tree (i : Nat)
  | node (id feature : Nat) (threshold : F)
  | leaf (id : Nat) (value : F)
  | baseScore (v : F)
  | learningRate (v : F)
  | other
  deriving DecidableEq, Repr

/-- proxy_XGBoost.py 159-178, proxy_ScikitLearn.py 152-172, `_count_nodes`. -/
def dumpCount (lines : List (DumpLine F)) : Nat × Nat :=
  (lines.countP (fun l => match l with | .tree _ => true | _ => false),
   lines.countP (fun l => match l with | .node .. => true | .leaf .. => true | _ => false))

/-- The variables of `load`. The top of the Python list `queue` is the head; `true` is 'L'. -/
structure DumpState (F : Type) where
  m : Ensemble F
  learningRate : F
  baseScore : Option F
  rootNode : Nat
  numNodes : Nat
  queue : List (Nat × Bool)

/-- proxy_XGBoost.py 108-113: `queue.pop()` and the link from the parent. -/
def linkParent (m : Ensemble F) (queue : List (Nat × Bool)) (node : Nat) : Except PyErr (Ensemble F × List (Nat × Bool)) :=
  match queue with
  | [] => pure (m, [])
  | (p, true) :: q => do
    let m ← setLeft m p node
    pure (m, q)
  | (p, false) :: q => do
    let m ← setRight m p node
    pure (m, q)

/-- The two proxies run the same loop. They differ in the node number (XGBoost counts, ScikitLearn takes the id of the file), the
threshold, and the lines for learning rate and base score. -/
structure DumpCfg (F : Type) where
  fileIds : Bool
  threshold : F → F
  header : Bool
  one : F

/-- proxy_XGBoost.py 75-119, proxy_ScikitLearn.py 59-114: one turn of the loop over the lines. -/
def dumpStep (cfg : DumpCfg F) (s : DumpState F) : DumpLine F → Except PyErr (DumpState F)
  | .other => pure s
  | .baseScore v => pure (if cfg.header then { s with baseScore := some v } else s)
  | .learningRate v => pure (if cfg.header then { s with learningRate := v } else s)
  | .tree i =>
    if s.queue = [] then do
      let root := s.rootNode + s.numNodes
      let m ← setRoot s.m i root
      let m ← setWeight m i cfg.one
      pure { s with m := m, rootNode := root, numNodes := 0 }
    else .error .assertionError
  | .node id f t => do
    let n := (if cfg.fileIds then id else s.numNodes) + s.rootNode
    let m ← setFeature s.m n f
    let m ← setValue m n (cfg.threshold t)
    let (m, q) ← linkParent m s.queue n
    pure { s with m := m, numNodes := s.numNodes + 1, queue := (n, true) :: (n, false) :: q }
  | .leaf id v => do
    let n := (if cfg.fileIds then id else s.numNodes) + s.rootNode
    let m ← setValue s.m n v
    let (m, q) ← linkParent m s.queue n
    pure { s with m := m, numNodes := s.numNodes + 1, queue := q }

/-- proxy_XGBoost.py 65-119, proxy_ScikitLearn.py 48-114: `load`. -/
def dumpLoad (cfg : DumpCfg F) (zero minusOne : F) (lines : List (DumpLine F)) (learningRate : F) (baseScore : Option F) :
    Except PyErr (Loaded F) := do
  let (nTrees, nNodes) := dumpCount lines
  let s ← lines.foldlM (dumpStep cfg) ⟨alloc zero minusOne nTrees nNodes, learningRate, baseScore, 0, 0, []⟩
  pure ⟨s.m, s.learningRate, s.baseScore⟩

/-- `ProxyXGBoost.load`; `strictToLe` is the conversion of the threshold by `np.nextafter` (proxy_XGBoost.py 92-96). -/
def xgboostLoad (zero one minusOne : F) (strictToLe : F → F) (lines : List (DumpLine F)) :=
  dumpLoad ⟨false, strictToLe, false, one⟩ zero minusOne lines

/-- `ProxyScikitLearn.load`. -/
def scikitLoad (zero one minusOne : F) (lines : List (DumpLine F)) :=
  dumpLoad ⟨true, fun t => t, true, one⟩ zero minusOne lines

/-- proxy_XGBoost.py 87-96: `np.nextafter(threshold, threshold - 1)` in single precision, for a finite threshold given by its
ordinal; `rnd` rounds a number to float32. -/
def xgboostThreshold (rnd : Int → Int) (t : Int) : Int := nextafter32 t (rnd (f32 t - f32One))

/-- The arrays of a fitted scikit-learn tree (`tree_`): `feature` is -2 (`TREE_UNDEFINED`) at leaves. -/
structure SkTree (F : Type) where
  feature : List Int
  threshold : List F
  childrenLeft : List Int
  childrenRight : List Int
  value : List F

/-- proxy_ScikitLearn.py 207-223, `recurse`: `fmt` is what `%f` followed by `float` does to a number, `str` is the same for `%s`.
Outputs with more than one value per leaf (classification, line 218) are not modelled. `np.float64` indexing with a negative node
number does not occur: nodes are given by natural numbers. -/
def exportNode (fmt str : F → F) (t : SkTree F) : Nat → Int → Except PyErr (List (DumpLine F))
  | 0, _ => .error .diverges
  | fuel + 1, node => do
    let f ← pyGet t.feature node
    if f ≠ -2 then
      let th ← pyGet t.threshold node
      let l ← pyGet t.childrenLeft node
      let ls ← exportNode fmt str t fuel l
      let r ← pyGet t.childrenRight node
      let rs ← exportNode fmt str t fuel r
      pure (.node node.toNat f.toNat (fmt th) :: (ls ++ rs))
    else
      let v ← pyGet t.value node
      pure [.leaf node.toNat (str v)]

/-- proxy_ScikitLearn.py 174-225, `export_scikit_model` for an ensemble with a base score, as the lines written. -/
def exportForest (fmt str : F → F) (baseScore learningRate : F) (trees : List (SkTree F)) : Except PyErr (List (DumpLine F)) := do
  let bodies ← trees.mapM (fun t => exportNode fmt str t (t.feature.length + 1) 0)
  pure (.baseScore (fmt baseScore) :: .learningRate (fmt learningRate) ::
    (bodies.zipIdx.flatMap (fun p => .tree p.2 :: p.1)))

end Ensemble
end Verif
