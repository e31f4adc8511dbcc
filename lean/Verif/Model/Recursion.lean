/-
Model of the recursive functions on trees with Python's limit on nested calls: `RTEnsemble.height_trees`
(rankeval/model/rt_ensemble.py) and `ProxyQuickRank.save` (rankeval/model/proxy_QuickRank.py). `frames` is the number of
calls that can still be nested; a call beyond raises `RecursionError`, a `RuntimeError`. Calls of functions written in C
are not counted, nor are the few nested calls of `max_leaves`, which are less than those needed for any tree.
-/
import Verif.Model.QuickRank

namespace Verif
namespace Ensemble
variable {F : Type}

/-- rt_ensemble.py 247-256, `height_node`. The arguments of `max` are evaluated before `max` is called. -/
def heightNodeR (m : Ensemble F) : Nat → Int → Nat → Except PyErr Nat
  | 0, _, _ => .error .runtimeError
  | frames + 1, i, depth => do
    let l ← pyGet m.left i
    if l = -1 then pure depth
    else do
      let a ← heightNodeR m frames l (depth + 1)
      let r ← pyGet m.right i
      let b ← heightNodeR m frames r (depth + 1)
      pure (max a b)

/-- rt_ensemble.py 258-262, `height_trees`, called where `frames` more calls can be nested in it. -/
def heightTreesR (m : Ensemble F) (frames : Nat) : Except PyErr (List Nat) :=
  (List.range m.nTrees).mapM (fun k => do
    let r ← pyGet m.root (k : Nat)
    heightNodeR m frames r 0)

/-- proxy_QuickRank.py 172-207, `_get_node_xml_element`; line 194 calls `is_leaf_node`, a Python function. -/
def nodeXmlR (m : Ensemble F) : Nat → Int → Option String → Except PyErr (Xml F)
  | 0, _, _ => .error .runtimeError
  | frames + 1, i, child => do
    if frames = 0 then .error .runtimeError
    else if ← isLeafNode m i then
      let v ← pyGet m.value i
      pure (.elem "split" (posAttrs child) none [textElem "output" (.num v)])
    else
      let f ← pyGet m.feature i
      let t ← pyGet m.value i
      let l ← pyGet m.left i
      let xl ← nodeXmlR m frames l (some "left")
      let r ← pyGet m.right i
      let xr ← nodeXmlR m frames r (some "right")
      pure (.elem "split" (posAttrs child) none [textElem "feature" (.int (f + 1)), textElem "threshold" (.num t), xl, xr])

/-- proxy_QuickRank.py 152-161: the element of tree `k`. -/
def treeXmlR (m : Ensemble F) (frames : Nat) (k : Nat) : Except PyErr (Xml F) := do
  let w ← pyGet m.weight (k : Nat)
  let r ← pyGet m.root (k : Nat)
  let x ← nodeXmlR m frames r none
  pure (.elem "tree" [("id", .int (k + 1 : Nat)), ("weight", .num w)] none [x])

/-- The nested calls of a function that calls itself for every child of an element: `_xmlprettyprint` (proxy_QuickRank.py 96-114,
the recursion is line 107; what it writes between the elements is in `Verif/Model/QuickRankText.lean`), and the function
inside of `etree.tostring`. -/
def walkXml : Nat → Xml F → Except PyErr Unit
  | 0, _ => .error .runtimeError
  | frames + 1, .elem _ _ _ children => children.forM (walkXml frames)

/-- The file with the model after the call. -/
inductive Saved (F : Type) where
  | asBefore
  | empty
  | doc (x : Xml F)

/-- proxy_QuickRank.py 117-169, `save`. The file is opened for writing, which empties it, before `etree.tostring` is called
(lines 166-167). `extra` is the number of nested calls of `tostring` besides one for each element. -/
def quickrankSaveR (m : Ensemble F) (learningRate : F) (frames extra : Nat) : Except PyErr Unit × Saved F :=
  match maxLeaves m with
  | .error e => (.error e, .asBefore)
  | .ok leaves =>
    match (List.range m.nTrees).mapM (treeXmlR m frames) with
    | .error e => (.error e, .asBefore)
    | .ok trees =>
      let root : Xml F := .elem "ranker" [] none [infoXml m.nTrees leaves learningRate, .elem "ensemble" [] none trees]
      match walkXml frames root with
      | .error e => (.error e, .asBefore)
      | .ok () =>
        match walkXml (frames - extra) root with
        | .error e => (.error e, .empty)
        | .ok () => (.ok (), .doc root)

end Ensemble
end Verif
