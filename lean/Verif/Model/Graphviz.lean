/-
Model of `export_graphviz` in `rankeval/visualization/topological.py` (lines 145-477).

The text written is a list of statements with structured labels. Simplified (see `Model.DotText` for the text): fonts, colours, `precision` checks and the rank groups of
`leaves_parallel` are left out; `round` is the rounding of thresholds and outputs; opening and closing of the output file is left out.
`'] ;\n' % node_id` (line 363) does not raise: node ids are numpy integers, which Python's `%` takes for mappings.
-/
import Verif.Model.Ensemble
import Mathlib.Algebra.Field.Defs
import Mathlib.Data.List.Dedup
import Mathlib.Data.List.Sort

namespace Verif.Dot
open Ensemble
variable {F K : Type}

/-- A feature in a label: `f[3]` or its name. -/
inductive FeatureText where
  | index (i : Int)
  | name (s : String)
  deriving DecidableEq, Repr

/-- The main line of a label: `f[3] <= 0.5` or `output = 2.0`. -/
inductive Criterion (F : Type) where
  | split (feature : FeatureText) (threshold : F)
  | output (value : F)
  deriving DecidableEq, Repr

/-- A label: `node #3`, `counts = 7 (50.00%)`, criterion. -/
structure NodeText (F K : Type) where
  id : Option Int
  count : Option (Nat × Option K)
  criterion : Criterion F
  deriving DecidableEq, Repr

/-- A statement of the DOT file. -/
inductive Stmt (F K : Type) where
  | node (id : Int) (text : NodeText F K)
  | cropped (id : Int)
  | edge (parent child : Int) (headlabel : Option Bool)
  deriving DecidableEq, Repr

structure Options where
  maxDepth : Option Nat := none
  labelAll : Bool := true
  labelShow : Bool := false
  featureNames : Option (List String) := none
  nodeIds : Bool := false
  proportion : Bool := false

/-- A `dict` from node ids to counts. -/
abbrev Counts := List (Int × Nat)

/-- `counts[k]` for `defaultdict(lambda: 0)`: a missing key is added. -/
def getCount (d : Counts) (k : Int) : Nat × Counts :=
  match d.lookup k with
  | some v => (v, d)
  | none => (0, d ++ [(k, 0)])

/-- `counts[k] = v`. -/
def setCount (d : Counts) (k : Int) (v : Nat) : Counts :=
  match d.lookup k with
  | some _ => d.map (fun p => if p.1 = k then (k, v) else p)
  | none => d ++ [(k, v)]

/-- Lines 292-299, `recursive_count`: the value returned and the new counts. A recursion deeper than the number of nodes is in a cycle. -/
def recursiveCount (m : Ensemble F) : Nat → Counts → Int → Except PyErr (Nat × Counts)
  | 0, _, _ => .error .diverges
  | fuel + 1, d, i => do
    if ← isLeafNode m i then pure (getCount d i)
    else do
      let l ← pyGet m.left i
      let (a, d) ← recursiveCount m fuel d l
      let r ← pyGet m.right i
      let (b, d) ← recursiveCount m fuel d r
      pure (a + b, setCount d i (a + b))

/-- `np.max` of counts. -/
def maxCount : List Nat → Except PyErr Nat
  | [] => .error .valueError
  | n :: ns => pure (ns.foldl max n)

/-- Lines 414-416, `np.unique(output_leaves[:, tree_id], return_counts=True)` as a `dict`. -/
def leafCounts (col : List Int) : Counts := (col.dedup.insertionSort (· ≤ ·)).map (fun i => (i, col.count i))

/-- Lines 413-427: the counts and the upper bound of the colours. -/
def countAll (m : Ensemble F) (o : Options) (treeId : Nat) (leaves : List (List Int)) : Except PyErr (Counts × Nat) := do
  let col ← leaves.mapM (fun row => pyGet row (treeId : Int))
  let root ← pyGet m.root (treeId : Int)
  let (_, counts) ← recursiveCount m (m.left.length + 1) (leafCounts col) root
  let bound ← maxCount (if o.labelAll then counts.map (·.2) else (leafCounts col).map (·.2))
  pure (counts, bound)

/-- Lines 430-439: the bounds of the colours are those of the outputs, `np.min` of an empty list raises. -/
def outputBounds (m : Ensemble F) (treeId : Nat) : Except PyErr Unit := do
  let start ← pyGet m.root (treeId : Int)
  let sizes ← numNodes m
  let size ← pyGet sizes (treeId : Int)
  let leaf ← (List.range size.toNat).mapM (fun (i : Nat) => isLeafNode m (start + i))
  if leaf.any id then pure () else .error .valueError

section
variable [Field K] (round : F → F) (m : Ensemble F) (o : Options) (treeId : Nat)

/-- Lines 242-252: the count in a label. -/
def countLabel (counts : Option (Counts × Nat)) (leaf : Bool) (i : Int) : Option (Nat × Option K) :=
  match counts with
  | none => none
  | some (d, bound) =>
    if o.labelShow && (o.labelAll || leaf) then
      let c := (getCount d i).1
      some (c, if o.proportion then some ((c : K) / (bound : K) * 100) else none)
    else none

/-- Lines 258-263. -/
def featureText (f : Int) : Except PyErr FeatureText :=
  match o.featureNames with
  | none => pure (.index f)
  | some names => do
    let s ← pyGet names f
    pure (.name s)

/-- Lines 224-290, `node_to_str`. -/
def nodeText (counts : Option (Counts × Nat)) (i : Int) : Except PyErr (NodeText F K) := do
  let leaf ← isLeafNode m i
  let v ← pyGet m.value i
  let id := if o.nodeIds then some i else none
  if leaf then pure ⟨id, countLabel o counts leaf i, .output (round v)⟩
  else do
    let f ← pyGet m.feature i
    let txt ← featureText o f
    pure ⟨id, countLabel o counts leaf i, .split txt (round v)⟩

/-- Lines 336-347: the edge from the parent, labelled at the root. -/
def edgeTo (parent : Option Int) (i : Int) : Except PyErr (List (Stmt F K)) :=
  match parent with
  | none => pure []
  | some p => do
    let root ← pyGet m.root (treeId : Int)
    if root = p then do
      let l ← pyGet m.left p
      pure [.edge p i (some (l == i))]
    else pure [.edge p i none]

/-- Line 302. -/
def parentIsLeaf : Option Int → Except PyErr Bool
  | none => pure false
  | some p => isLeafNode m p

/-- Lines 301-367, `recurse`. -/
def recurse (counts : Option (Counts × Nat)) : Nat → Int → Option Int → Nat → Except PyErr (List (Stmt F K))
  | 0, _, _, _ => .error .diverges
  | fuel + 1, i, parent, depth => do
    let bad ← parentIsLeaf m parent
    if bad then .error .valueError
    else if o.maxDepth.all (fun d => decide (depth ≤ d)) then do
      let leaf ← isLeafNode m i
      let t ← nodeText round m o counts i
      let e ← edgeTo m treeId parent i
      if leaf then pure (.node i t :: e)
      else do
        let l ← pyGet m.left i
        let a ← recurse counts fuel l (some i) (depth + 1)
        let r ← pyGet m.right i
        let b ← recurse counts fuel r (some i) (depth + 1)
        pure (.node i t :: e ++ a ++ b)
    else pure (.cropped i :: (parent.elim [] (fun p => [.edge p i none])))

/-- Lines 394-400: the check of the feature names. -/
def namesCheck : Option (List String) → Except PyErr Unit
  | none => pure ()
  | some names =>
    match m.feature with
    | [] => .error .valueError
    | f :: fs => if (names.length : Int) > fs.foldl max f + 1 then .error .valueError else pure ()

/-- Lines 413-439. -/
def counting : Option (List (List Int)) → Except PyErr (Option (Counts × Nat))
  | some leaves => do
    let c ← countAll m o treeId leaves
    pure (some c)
  | none => do
    outputBounds m treeId
    pure none

/-- Lines 369-477, `export_graphviz`. -/
def exportGraphviz (outputLeaves : Option (List (List Int))) : Except PyErr (List (Stmt F K)) := do
  namesCheck m o.featureNames
  if (treeId : Int) > m.nTrees - 1 then .error .valueError
  else do
    let counts ← counting m o treeId outputLeaves
    let root ← pyGet m.root (treeId : Int)
    recurse round m o treeId counts (m.left.length + 1) root none 0

end

end Verif.Dot
