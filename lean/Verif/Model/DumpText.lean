/-
Model of `load` and `_count_nodes` in `rankeval/model/proxy_XGBoost.py` and `rankeval/model/proxy_ScikitLearn.py` on the text of the file, and of
`export_scikit_model` as the text written.

Simplified: `float` (for XGBoost `np.float32`) and the printing of numbers with `%f` and `%s` are parameters; opening of files is left out;
Python's translation of line ends is left out (lines end with a line feed).
-/
import Verif.Model.LoadDump
import Verif.Model.Svmlight
import Verif.Py.Regex
import Mathlib.Data.List.Dedup

namespace Verif.Ensemble
open Re
variable {F : Type}

/-- proxy_XGBoost.py 42, proxy_ScikitLearn.py 31: `"^booster\[(\d+)\]"`. -/
def treeReg : Re := lit "booster[".toList (.seq (.group (plus isDigit true)) (lit [']'] .empty))

/-- proxy_XGBoost.py 43: `"(\d+):\[f(\d+)<(.*)\]"`; proxy_ScikitLearn.py 32 has `<=`. -/
def nodeReg (lt : List Char) : Re :=
  .seq (.group (plus isDigit true)) (lit ":[f".toList (.seq (.group (plus isDigit true)) (lit lt (.seq (.group (.star dot true)) (lit [']'] .empty)))))

/-- proxy_XGBoost.py 44: `"(\d+):leaf=(.+?)(,.*)?$"`. -/
def xgbLeafReg : Re :=
  .seq (.group (plus isDigit true)) (lit ":leaf=".toList (.seq (.group (plus dot false)) (.seq (.opt (.group (lit [','] (.star dot true)))) .eol)))

/-- proxy_ScikitLearn.py 33: `"(\d+):leaf=(.+)$"`. -/
def skLeafReg : Re := .seq (.group (plus isDigit true)) (lit ":leaf=".toList (.seq (.group (plus dot true)) .eol))

/-- proxy_ScikitLearn.py 29-30: `"^base_score=(.+)$"`, `"^learning_rate=(.+)$"`. -/
def headerReg (key : List Char) : Re := lit key (.seq (.group (plus dot true)) .eol)

/-- `float(text)`. -/
def toFloat (float : List Char → Option F) (s : List Char) : Except PyErr F :=
  match float s with
  | some v => pure v
  | none => .error .valueError

/-- The differences between the proxies: those of `DumpCfg` and the expressions. -/
structure TextCfg (F : Type) where
  dump : DumpCfg F
  node : Re
  leaf : Re
  float : List Char → Option F

/-- proxy_XGBoost.py 159-178, proxy_ScikitLearn.py 152-172, `_count_nodes`: what a line adds. -/
def textCount (cfg : TextCfg F) (n : Nat × Nat) (line : List Char) : Nat × Nat :=
  if (treeReg.match line).isSome then (n.1 + 1, n.2)
  else (n.1, n.2 + (if (cfg.node.search line).isSome then 1 else 0) + (if (cfg.leaf.search line).isSome then 1 else 0))

/-- `int(match.group(1).strip()) + root_node` or `num_nodes + root_node`. -/
def textNodeId (cfg : TextCfg F) (s : DumpState F) (ids : List Char) : Nat :=
  (if cfg.dump.fileIds then Svm.digitsValue (pyStrip ids) else s.numNodes) + s.rootNode

/-- proxy_XGBoost.py 85-99, proxy_ScikitLearn.py 84-91: the arrays and `node_id` after the part for `match_node`. -/
def textNode (cfg : TextCfg F) (s : DumpState F) : Option (List (List Char)) → Except PyErr (Ensemble F × Option Nat)
  | some (ids :: fs :: ts :: _) => do
    let n := textNodeId cfg s ids
    let t ← toFloat cfg.float (pyStrip ts)
    let m ← setFeature s.m n (Svm.digitsValue (pyStrip fs))
    let m ← setValue m n (cfg.dump.threshold t)
    pure (m, some n)
  | some _ => .error .indexError
  | none => pure (s.m, none)

/-- proxy_XGBoost.py 101-105, proxy_ScikitLearn.py 93-97: the part for `match_leaf`. -/
def textLeaf (cfg : TextCfg F) (s : DumpState F) (a : Ensemble F × Option Nat) : Option (List (List Char)) → Except PyErr (Ensemble F × Option Nat)
  | some (ids :: vs :: _) => do
    let n := textNodeId cfg s ids
    let v ← toFloat cfg.float (pyStrip vs)
    let m ← setValue a.1 n v
    pure (m, some n)
  | some _ => .error .indexError
  | none => pure a

/-- proxy_XGBoost.py 107-119, proxy_ScikitLearn.py 99-111. -/
def textLink (s : DumpState F) (isNode : Bool) (a : Ensemble F × Option Nat) : Except PyErr (DumpState F) :=
  match a.2 with
  | none => pure s
  | some n => do
    let (m, q) ← linkParent a.1 s.queue n
    pure { s with m := m, numNodes := s.numNodes + 1, queue := if isNode then (n, true) :: (n, false) :: q else q }

/-- proxy_XGBoost.py 77-119, proxy_ScikitLearn.py 73-114: a line that is not one of the two at the beginning of ScikitLearn files. -/
def textBody (cfg : TextCfg F) (s : DumpState F) (line : List Char) : Except PyErr (DumpState F) :=
  match treeReg.match line with
  | some (i :: _) => dumpStep cfg.dump s (.tree (Svm.digitsValue i))
  | some [] => .error .indexError
  | none => do
    let node := cfg.node.search line
    let a ← textNode cfg s node
    let a ← textLeaf cfg s a (cfg.leaf.search line)
    textLink s node.isSome a

/-- proxy_ScikitLearn.py 63-71: the number in the line `key=...`. -/
def textHeader (cfg : TextCfg F) (key line : List Char) : Except PyErr (Option F) :=
  if cfg.dump.header then
    match (headerReg key).match line with
    | some (v :: _) => do
      let x ← toFloat cfg.float v
      pure (some x)
    | some [] => .error .indexError
    | none => pure none
  else pure none

/-- One turn of the loop over the lines. -/
def textStep (cfg : TextCfg F) (s : DumpState F) (line : List Char) : Except PyErr (DumpState F) := do
  match ← textHeader cfg "base_score=".toList line with
  | some v => pure { s with baseScore := some v }
  | none =>
    match ← textHeader cfg "learning_rate=".toList line with
    | some v => pure { s with learningRate := v }
    | none => textBody cfg s line

/-- proxy_XGBoost.py 65-119, proxy_ScikitLearn.py 48-114: `load`. -/
def dumpTextLoad (cfg : TextCfg F) (zero minusOne : F) (file : List Char) (learningRate : F) (baseScore : Option F) : Except PyErr (Loaded F) := do
  let lines := Svm.linesFrom [] file
  let n := lines.foldl (textCount cfg) (0, 0)
  let s ← lines.foldlM (textStep cfg) ⟨alloc zero minusOne n.1 n.2, learningRate, baseScore, 0, 0, []⟩
  pure ⟨s.m, s.learningRate, s.baseScore⟩

/-- `ProxyXGBoost.load`. -/
def xgboostTextLoad (zero one minusOne : F) (strictToLe : F → F) (float : List Char → Option F) (file : List Char) :=
  dumpTextLoad ⟨⟨false, strictToLe, false, one⟩, nodeReg ['<'], xgbLeafReg, float⟩ zero minusOne file

/-- `ProxyScikitLearn.load`. -/
def scikitTextLoad (zero one minusOne : F) (float : List Char → Option F) (file : List Char) :=
  dumpTextLoad ⟨⟨true, fun t => t, true, one⟩, nodeReg ['<', '='], skLeafReg, float⟩ zero minusOne file

/-! ### Writing -/

/-- The arrays of a fitted scikit-learn tree, with all outputs of a node. -/
structure SkArrays (F : Type) where
  feature : List Int
  threshold : List F
  childrenLeft : List Int
  childrenRight : List Int
  values : List (List F)

/-- Printing of numbers: `%f`, `%s`; and `np.argmax`. -/
structure Printer (F : Type) where
  showF : F → List Char
  showS : F → List Char
  argmax : List F → Nat

/-- proxy_ScikitLearn.py 217-221: the text of a leaf. -/
def leafText (pr : Printer F) : List F → Except PyErr (List Char)
  | [] => .error .indexError
  | [v] => pure (pr.showS v)
  | vs => pure ('c' :: Svm.decimal (pr.argmax vs))

/-- proxy_ScikitLearn.py 207-223, `recurse`. -/
def exportTextNode (pr : Printer F) (t : SkArrays F) : Nat → Int → Nat → Except PyErr (List Char)
  | 0, _, _ => .error .diverges
  | fuel + 1, node, depth => do
    let f ← pyGet t.feature node
    if f ≠ -2 then
      let th ← pyGet t.threshold node
      let l ← pyGet t.childrenLeft node
      let ls ← exportTextNode pr t fuel l (depth + 1)
      let r ← pyGet t.childrenRight node
      let rs ← exportTextNode pr t fuel r (depth + 1)
      pure (List.replicate depth '\t' ++ Svm.showInt node ++ ":[f".toList ++ Svm.showInt f ++ ['<', '='] ++ pr.showF th ++ [']', '\n'] ++ ls ++ rs)
    else
      let vs ← pyGet t.values node
      let v ← leafText pr vs
      pure (List.replicate depth '\t' ++ Svm.showInt node ++ ":leaf=".toList ++ v ++ ['\n'])

/-- proxy_ScikitLearn.py 203-205: the first line of a tree. The features are those of `np.unique`. -/
def treeHeader (k : Nat) (t : SkArrays F) : List Char :=
  "booster[".toList ++ Svm.decimal k ++ "] [".toList ++
    (List.intersperse [' '] (((t.feature.dedup.insertionSort (· ≤ ·)).filter (· ≠ -2)).map (fun f => 'f' :: Svm.showInt f))).flatten ++ "]:\n".toList

/-- proxy_ScikitLearn.py 174-225, `export_scikit_model` for an ensemble with a base score. -/
def exportText (pr : Printer F) (baseScore learningRate : F) (trees : List (SkArrays F)) : Except PyErr (List Char) := do
  let bodies ← trees.zipIdx.mapM (fun p => do
    let body ← exportTextNode pr p.1 (p.1.feature.length + 1) 0 1
    pure (treeHeader p.2 p.1 ++ body))
  pure ("base_score=".toList ++ pr.showF baseScore ++ ['\n'] ++ ("learning_rate=".toList ++ pr.showF learningRate ++ ['\n']) ++ bodies.flatten)

end Verif.Ensemble
