/-
Model of the text written by `export_graphviz` in `rankeval/visualization/topological.py` (lines 147-477). The statements are those of
`Verif.Model.Graphviz`; here they are written out, with colours and rank groups.

Simplified: how numbers are printed is a parameter (`round(v, precision)`, the output value of lines 274-280, `%.2f`), and so is the colour map of
matplotlib, which gives four bytes (`int(np.round(c*255))`). The file object is left out: the text is that of the returned string.
-/
import Verif.Model.Graphviz
import Verif.Model.Svmlight
import Mathlib.Order.Defs.LinearOrder

namespace Verif.Dot
open Ensemble
variable {F : Type}

/-- The parameters of `export_graphviz` that only change the look. -/
structure Look where
  special : Bool := false
  highlight : Bool := false
  parallel : Bool := false
  rounded : Bool := false
  precision : Int := 3

/-- How numbers are printed. -/
structure Printers (F : Type) where
  threshold : F → List Char
  output : F → List Char
  percent : F → List Char

/-- Lines 228-235. -/
structure Characters where
  hash : List Char
  sub : List Char
  endSub : List Char
  le : List Char
  newline : List Char
  close : List Char
  percent : List Char
  start : List Char

/-- Lines 228-235. -/
def characters : Bool → Characters
  | true => ⟨"&#35;".toList, "<FONT POINT-SIZE=\"10\"><SUB>".toList, "</SUB></FONT>".toList, "&le;".toList, "<br/>".toList, ">".toList, "&#37;".toList, "<".toList⟩
  | false => ⟨"#".toList, "[".toList, "]".toList, "<=".toList, "\\n".toList, "\"".toList, "%".toList, "\"".toList⟩

/-- Lines 237-240. -/
def idChars (c : Characters) : Option Int → List Char
  | none => []
  | some i => "node ".toList ++ c.hash ++ Svm.showInt i ++ c.newline

/-- Lines 242-252. -/
def countChars (c : Characters) (pr : Printers F) : Option (Nat × Option F) → List Char
  | none => []
  | some (n, none) => "counts = ".toList ++ Svm.decimal n ++ c.newline
  | some (n, some q) => "counts = ".toList ++ Svm.decimal n ++ " (".toList ++ pr.percent q ++ c.percent ++ ")".toList ++ c.newline

/-- Lines 258-263. -/
def featureChars (c : Characters) : FeatureText → List Char
  | .index i => "f".toList ++ c.sub ++ Svm.showInt i ++ c.endSub ++ " ".toList
  | .name s => s.toList

/-- Lines 266-269, 272-283. -/
def criterionChars (c : Characters) (pr : Printers F) : Criterion F → List Char
  | .split f v => featureChars c f ++ " ".toList ++ c.le ++ " ".toList ++ pr.threshold v ++ c.newline
  | .output v => "output = ".toList ++ pr.output v ++ c.newline

/-- Lines 285-288: `if s[-k:] == end: s = s[:-k]`. -/
def stripEnd (e s : List Char) : List Char := if e.isSuffixOf s then s.take (s.length - e.length) else s

/-- Lines 224-290, `node_to_str`. -/
def nodeToStr (special : Bool) (pr : Printers F) (t : NodeText F F) : List Char :=
  let c := characters special
  let s := c.start ++ idChars c t.id ++ countChars c pr t.count ++ criterionChars c pr t.criterion
  stripEnd "<br/>".toList (stripEnd "\\n".toList s) ++ c.close

/-- Line 211. -/
def hexCodes : List Char := "0123456789abcdef".toList

/-- Line 220, for one component. -/
def hexPair (c : Int) : Except PyErr (List Char) := do
  let a ← pyGet hexCodes (c / 16)
  let b ← pyGet hexCodes (c % 16)
  pure [a, b]

/-- A quotient of floats. -/
inductive Ratio (F : Type) where
  | num (q : F)
  | nan
  | inf (negative : Bool)
  deriving DecidableEq, Repr

section
variable [Field F] [LinearOrder F]

/-- Lines 214-215. -/
def colorRatio (lo hi v : F) : Ratio F :=
  if hi - lo ≠ 0 then .num ((v - lo) / (hi - lo)) else if v - lo = 0 then .nan else .inf (decide (v - lo < 0))

/-- Line 219: the last component becomes three quarters. -/
def dimLast : List Int → List Int
  | [] => []
  | [a] => [min 255 ((a * 3).tdiv 4)]
  | a :: b :: r => a :: dimLast (b :: r)

/-- Lines 210-222, `get_color`. -/
def getColor (cmap : Ratio F → List Int) (bounds : F × F) (v : F) : Except PyErr (List Char) := do
  let parts ← (dimLast (cmap (colorRatio bounds.1 bounds.2 v))).mapM hexPair
  pure ('#' :: parts.flatten)

/-- `(np.min(l), np.max(l))`. -/
def bounds : List F → Except PyErr (F × F)
  | [] => .error .valueError
  | a :: l => pure (l.foldl min a, l.foldl max a)

variable (cmap : Ratio F → List Int) (pr : Printers F) (look : Look) (round : F → F) (m : Ensemble F) (o : Options) (treeId : Nat)

/-- Lines 418-424: the bounds of the counts. -/
def countBounds (counts : Counts) (leaves : List (List Int)) : Except PyErr (F × F) := do
  let col ← leaves.mapM (fun row => pyGet row (treeId : Int))
  bounds ((if o.labelAll then counts else leafCounts col).map (fun p => (p.2 : F)))

/-- Lines 430-439: the bounds of the outputs. -/
def valueBounds : Except PyErr (F × F) := do
  let start ← pyGet m.root (treeId : Int)
  let sizes ← numNodes m
  let size ← pyGet sizes (treeId : Int)
  let ids ← (List.range size.toNat).filterM (fun (i : Nat) => isLeafNode m (start + i))
  let vs ← ids.mapM (fun (i : Nat) => pyGet m.value (start + i))
  bounds vs

/-- Lines 413-439: the counts, if any, and `colors['bounds']`. -/
def colorSetup : Option (List (List Int)) → Except PyErr (Option Counts × (F × F))
  | some leaves => do
    let (counts, _) ← countAll m o treeId leaves
    let b ← countBounds o treeId counts leaves
    pure (some counts, b)
  | none => do
    let b ← valueBounds m treeId
    pure (none, b)

/-- Lines 318-334: the colour of a box. -/
def fillColor (setup : Option Counts × (F × F)) (leaf : Bool) (i : Int) : Except PyErr (Option (List Char)) :=
  match setup.1 with
  | some counts =>
    if leaf || o.labelAll then do
      let c ← getColor cmap setup.2 ((getCount counts i).1 : F)
      pure (some c)
    else pure (some "#ffffffff".toList)
  | none =>
    if look.highlight then
      if leaf then do
        let v ← pyGet m.value i
        let c ← getColor cmap setup.2 v
        pure (some c)
      else pure (some "#ffffffff".toList)
    else pure none

/-- Lines 321-323, 326, 330-332, 334, 362: the colour as an attribute. -/
def fillChars : Option (List Char) → List Char
  | none => []
  | some c => ", fillcolor=\"".toList ++ c ++ "\"".toList

/-- A label with a threshold belongs to an inner node, one with an output to a leaf. -/
def Criterion.isOutput : Criterion F → Bool
  | .split _ _ => false
  | .output _ => true

/-- Lines 314-347, 358-367: the text of a statement. -/
def stmtChars (setup : Option Counts × (F × F)) : Stmt F F → Except PyErr (List Char)
  | .node i t => do
    let fill ← fillColor cmap look m o setup t.criterion.isOutput i
    pure (Svm.showInt i ++ " [label=".toList ++ nodeToStr look.special pr t ++ fillChars fill ++ "] ;\n".toList)
  | .cropped i =>
    pure (Svm.showInt i ++ " [label=\"(...)\"".toList ++
      fillChars (if look.highlight || setup.1.isSome then some "#C0C0C0".toList else none) ++ "] ;\n".toList)
  | .edge p i none => pure (Svm.showInt p ++ " -> ".toList ++ Svm.showInt i ++ " ;\n".toList)
  | .edge p i (some true) =>
    pure (Svm.showInt p ++ " -> ".toList ++ Svm.showInt i ++ " [labeldistance=2.5, labelangle=45, headlabel=\"True\"]".toList ++ " ;\n".toList)
  | .edge p i (some false) =>
    pure (Svm.showInt p ++ " -> ".toList ++ Svm.showInt i ++ " [labeldistance=2.5, labelangle=-45, headlabel=\"False\"]".toList ++ " ;\n".toList)

/-- Lines 309-312, 359: what `recurse` adds to `ranks`, in order: the key and the id. -/
def recurseRanks : Nat → Int → Nat → Except PyErr (List (List Char × Int))
  | 0, _, _ => .error .diverges
  | fuel + 1, i, depth =>
    if o.maxDepth.all (fun d => decide (depth ≤ d)) then do
      let leaf ← isLeafNode m i
      if leaf then pure [("leaves".toList, i)]
      else do
        let l ← pyGet m.left i
        let a ← recurseRanks fuel l (depth + 1)
        let r ← pyGet m.right i
        let b ← recurseRanks fuel r (depth + 1)
        pure ((Svm.decimal depth, i) :: a ++ b)
    else pure [("leaves".toList, i)]

/-- `"; ".join`. -/
def joinSemicolon : List (List Char) → List Char
  | [] => []
  | [a] => a
  | a :: b :: r => a ++ "; ".toList ++ joinSemicolon (b :: r)

/-- Lines 466-470: a line for each key, in the order of the keys as strings. -/
def rankChars (ranks : List (List Char × Int)) : List Char :=
  ((ranks.map (·.1)).dedup.insertionSort (· ≤ ·)).flatMap (fun key =>
    "{rank=same ; ".toList ++ joinSemicolon ((ranks.filter (fun p => p.1 = key)).map (fun p => Svm.showInt p.2)) ++ "} ;\n".toList)

/-- Lines 441-461. -/
def headChars (filled : Bool) : List Char :=
  "digraph Tree {\nnode [shape=box".toList ++
    (match filled, look.rounded with
    | false, false => []
    | true, false => ", style=\"filled\", color=\"black\"".toList
    | false, true => ", style=\"rounded\", color=\"black\"".toList
    | true, true => ", style=\"filled, rounded\", color=\"black\"".toList) ++
    (if look.rounded then ", fontname=helvetica".toList else []) ++ "] ;\n".toList ++
    (if look.parallel then "graph [ranksep=equally, splines=polyline] ;\n".toList else []) ++
    (if look.rounded then "edge [fontname=helvetica] ;\n".toList else [])

/-- Lines 464-470: the text after the tree. -/
def tailChars : Except PyErr (List Char) :=
  if look.parallel then do
    let root ← pyGet m.root (treeId : Int)
    let ranks ← recurseRanks m o (m.left.length + 1) root 0
    pure (rankChars ranks ++ "}".toList)
  else pure "}".toList

/-- Lines 369-477. `badLabel`: the parameter `label` is neither 'all' nor 'leaves' (line 427; the check is only made with output leaves, after the
counting, which does not fail on a model that represents trees). -/
def exportText (badLabel : Bool) (outputLeaves : Option (List (List Int))) : Except PyErr (List Char) :=
  if look.precision < 0 then .error .valueError
  else if badLabel && outputLeaves.isSome then .error .valueError
  else do
    let stmts ← exportGraphviz round m o treeId outputLeaves
    let setup ← colorSetup m o treeId outputLeaves
    let body ← stmts.mapM (stmtChars cmap pr look m o setup)
    let rest ← tailChars look m o treeId
    pure (headChars look (look.highlight || outputLeaves.isSome) ++ body.flatten ++ rest)

end
end Verif.Dot
