/-
Model of `export_graphviz` in `rankeval/visualization/topological.py` (lines 147-477) with what has been written at the moment an exception is
raised, the output file, and Python's limit on nested calls. The texts are those of `Verif.Model.DotText`.

`frames` is the number of calls that can still be nested in `export_graphviz`; a call beyond raises `RecursionError`, a `RuntimeError`.
`colour` is the number of calls nested by a call of `get_color`, itself included (it calls functions of matplotlib and numpy written in Python).
Simplified: the nested calls of numpy in lines 394-439 and of `num_nodes` are not counted. Opening, writing, encoding and closing the file do not fail.
-/
import Verif.Model.DotText

namespace Verif.Dot
open Ensemble
variable {F : Type}

/-- What has been written when a piece of code ends, and its result or the exception. -/
structure Written (A : Type) where
  text : List Char
  result : Except PyErr A

/-- One piece of code after another. -/
def Written.andThen {A B : Type} (a : Written A) (f : A → Written B) : Written B :=
  match a.result with
  | .error e => ⟨a.text, .error e⟩
  | .ok x => ⟨a.text ++ (f x).text, (f x).result⟩

instance : Monad Written where
  pure x := ⟨[], .ok x⟩
  bind := Written.andThen

/-- Code that writes nothing. -/
def quiet {A : Type} (x : Except PyErr A) : Written A := ⟨[], x⟩

/-- `out_file.write(s)`. -/
def write (s : List Char) : Written Unit := ⟨s, .ok ()⟩

/-- Code that nests `n` calls. -/
def nested (n frames : Nat) : Written Unit := ⟨[], if n ≤ frames then .ok () else .error .runtimeError⟩

section
variable [Field F] [LinearOrder F]
variable (cmap : Ratio F → List Int) (pr : Printers F) (look : Look) (round : F → F) (m : Ensemble F) (o : Options) (treeId : Nat)

/-- Lines 292-299, `recursive_count`; line 293 calls `is_leaf_node`, a Python function. -/
def recursiveCountR : Nat → Counts → Int → Except PyErr (Nat × Counts)
  | 0, _, _ => .error .runtimeError
  | frames + 1, d, i =>
    if frames = 0 then .error .runtimeError
    else do
      if ← isLeafNode m i then pure (getCount d i)
      else do
        let l ← pyGet m.left i
        let (a, d) ← recursiveCountR frames d l
        let r ← pyGet m.right i
        let (b, d) ← recursiveCountR frames d r
        pure (a + b, setCount d i (a + b))

/-- Lines 318-332: whether `get_color` is called for a box. -/
def asksColour (counted leaf : Bool) : Bool := if counted then leaf || o.labelAll else look.highlight && leaf

/-- Lines 308-347 in `recurse`, where `frames` more calls can be nested: the box of a node and the edge to it; whether the node is a leaf.
Line 316 calls `node_to_str`, which calls `is_leaf_node`. -/
def boxW (colour : Nat) (counts : Option (Counts × Nat)) (setup : Option Counts × (F × F)) (frames : Nat) (i : Int) (parent : Option Int) :
    Written Bool := do
  nested 1 frames
  let leaf ← quiet (isLeafNode m i)
  nested 2 frames
  let t ← quiet (nodeText round m o counts i)
  write (Svm.showInt i ++ " [label=".toList ++ nodeToStr look.special pr t)
  nested (if asksColour look o setup.1.isSome leaf then colour else 0) frames
  let fill ← quiet (fillColor cmap look m o setup leaf i)
  write (fillChars fill ++ "] ;\n".toList)
  let e ← quiet (edgeTo (K := F) m treeId parent i)
  let s ← quiet (e.mapM (stmtChars cmap pr look m o setup))
  write s.flatten
  pure leaf

/-- Lines 301-367, `recurse`: it gives what was added to `ranks`. -/
def recurseW (colour : Nat) (counts : Option (Counts × Nat)) (setup : Option Counts × (F × F)) :
    Nat → Int → Option Int → Nat → Written (List (List Char × Int))
  | 0, _, _, _ => quiet (.error .runtimeError)
  | frames + 1, i, parent, depth => do
    nested (if parent.isSome then 1 else 0) frames
    let bad ← quiet (parentIsLeaf m parent)
    if bad then quiet (.error .valueError)
    else if o.maxDepth.all (fun d => decide (depth ≤ d)) then do
      let leaf ← boxW cmap pr look round m o treeId colour counts setup frames i parent
      if leaf then pure [("leaves".toList, i)]
      else do
        let l ← quiet (pyGet m.left i)
        let a ← recurseW colour counts setup frames l (some i) (depth + 1)
        let r ← quiet (pyGet m.right i)
        let b ← recurseW colour counts setup frames r (some i) (depth + 1)
        pure ((Svm.decimal depth, i) :: a ++ b)
    else do
      let s ← quiet ((.cropped i :: (parent.elim [] (fun p => [.edge p i none])) : List (Stmt F F)).mapM (stmtChars cmap pr look m o setup))
      write s.flatten
      pure [("leaves".toList, i)]

/-- Lines 413-439: the counts with their bound, and what is needed for the colours. -/
def prepare (frames : Nat) (badLabel : Bool) : Option (List (List Int)) → Except PyErr (Option (Counts × Nat) × (Option Counts × (F × F)))
  | some leaves => do
    let col ← leaves.mapM (fun row => pyGet row (treeId : Int))
    let root ← pyGet m.root (treeId : Int)
    let (_, counts) ← recursiveCountR m frames (leafCounts col) root
    if badLabel then .error .valueError
    else do
      let bound ← maxCount (if o.labelAll then counts.map (·.2) else (leafCounts col).map (·.2))
      let b ← countBounds o treeId counts leaves
      pure (some (counts, bound), (some counts, b))
  | none =>
    if frames = 0 then .error .runtimeError
    else do
      outputBounds m treeId
      let b ← valueBounds m treeId
      pure (none, (none, b))

/-- Lines 383-471: what is written to `out_file`. -/
def exportWritten (colour frames : Nat) (badLabel : Bool) (outputLeaves : Option (List (List Int))) : Written Unit :=
  if look.precision < 0 then quiet (.error .valueError)
  else do
    quiet (namesCheck m o.featureNames)
    if (treeId : Int) > m.nTrees - 1 then quiet (.error .valueError)
    else do
      let p ← quiet (prepare m o treeId frames badLabel outputLeaves)
      write (headChars look (look.highlight || outputLeaves.isSome))
      let root ← quiet (pyGet m.root (treeId : Int))
      let ranks ← recurseW cmap pr look round m o treeId colour p.1 p.2 frames root none 0
      write ((if look.parallel then rankChars ranks else []) ++ "}".toList)

/-- The parameter `out_file`: the path of a file, an open file, `None`. -/
inductive OutFile where
  | path
  | handle
  | none
  deriving DecidableEq

/-- Lines 369-477: what the call gives, and the text in the file afterwards. `old` is the text in the file before; an open file is at its end.
The file is opened, and so emptied, by line 374, before anything is checked; line 477 closes it whatever happens. -/
def exportFile (out : OutFile) (old : List Char) (colour frames : Nat) (badLabel : Bool) (outputLeaves : Option (List (List Int))) :
    Except PyErr (Option (List Char)) × List Char :=
  let w := exportWritten cmap pr look round m o treeId colour frames badLabel outputLeaves
  match out with
  | .path => (w.result.map (fun _ => none), w.text)
  | .handle => (w.result.map (fun _ => none), old ++ w.text)
  | .none => (w.result.map (fun _ => some w.text), old)

end
end Verif.Dot
