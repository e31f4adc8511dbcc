/-
Model of `rankeval/model/proxy_QuickRank.py`: XML documents, their events, loading and saving.
Simplifications: texts and attributes are given by what they are converted to; whitespace (`_xmlprettyprint`) is left out; `repr` and
reading a number back are exact (numpy 1); Python's limit on the depth of recursion is left out.
-/
import Verif.Model.Loader

namespace Verif
namespace Ensemble

/-- A text or the value of an attribute. -/
inductive Text (F : Type) where
  | int (i : Int)
  | num (v : F)
  | str (s : String)
  deriving DecidableEq, Repr

/-- An XML element. -/
inductive Xml (F : Type) where
  | elem (tag : String) (attrs : List (String × Text F)) (text : Option (Text F)) (children : List (Xml F))

/-- Events of `iterparse`. -/
inductive XmlEvent (F : Type) where
  | start (tag : String) (attrs : List (String × Text F))
  | finish (tag : String) (text : Option (Text F))
  deriving DecidableEq, Repr

mutual
/-- The events while an element is parsed. -/
def Xml.events {F : Type} : Xml F → List (XmlEvent F)
  | .elem tag attrs text children => .start tag attrs :: (Xml.eventsList children ++ [.finish tag text])

def Xml.eventsList {F : Type} : List (Xml F) → List (XmlEvent F)
  | [] => []
  | x :: xs => x.events ++ Xml.eventsList xs
end

variable {F : Type}

/-- `elem.attrib[key]`. -/
def attrib (attrs : List (String × Text F)) (key : String) : Option (Text F) := (attrs.find? (·.1 == key)).map (·.2)

/-- `int(elem.text.strip())`. -/
def textInt : Option (Text F) → Except PyErr Int
  | none => .error .attributeError
  | some (.int i) => pure i
  | some _ => .error .valueError

/-- The conversion to float32 when `elem.text.strip()` is stored. -/
def textNum : Option (Text F) → Except PyErr F
  | none => .error .attributeError
  | some (.num v) => pure v
  | some _ => .error .valueError

/-- The variables of `load`; the top of `split_stack` is the head. -/
structure QrState (F : Type) where
  m : Ensemble F
  currTree : Int
  currNode : Int
  stack : List Int

/-- proxy_QuickRank.py 227-241, `_count_nodes`: the first `end` event is skipped. -/
def qrCount (doc : Xml F) : Nat × Nat :=
  let tags := (doc.events.filterMap (fun e => match e with | .finish tag _ => some tag | _ => none)).drop 1
  (tags.count "tree", tags.count "feature" + tags.count "output")

/-- proxy_QuickRank.py 67-68: the weight of a tree. -/
def weightAttr (attrs : List (String × Text F)) : Except PyErr F :=
  match attrib attrs "weight" with
  | none => .error .keyError
  | some (.num v) => pure v
  | some _ => .error .valueError

/-- proxy_QuickRank.py 60-89: one turn of the loop over the events. -/
def qrStep (s : QrState F) : XmlEvent F → Except PyErr (QrState F)
  | .start tag attrs =>
    if tag = "tree" then do
      let m ← setRoot s.m (s.currTree + 1) (s.currNode + 1)
      let w ← weightAttr attrs
      let m ← setWeight m (s.currTree + 1) w
      pure { s with m := m, currTree := s.currTree + 1, currNode := s.currNode + 1 }
    else if tag = "split" then
      match attrib attrs "pos" with
      | none => pure { s with stack := s.currNode :: s.stack }
      | some pos =>
        match s.stack with
        | [] => .error .indexError
        | parent :: rest => do
          let m ← (match pos with
            | .str p => if p = "left" then setLeft s.m parent (s.currNode + 1) else setRight s.m parent (s.currNode + 1)
            | _ => setRight s.m parent (s.currNode + 1))
          pure { s with m := m, currNode := s.currNode + 1, stack := (s.currNode + 1) :: parent :: rest }
    else pure s
  | .finish tag text =>
    if tag = "split" then
      match s.stack with
      | [] => .error .indexError
      | _ :: rest => pure { s with stack := rest }
    else if tag = "feature" then do
      let f ← textInt text
      let m ← setFeature s.m s.currNode (f - 1)
      pure { s with m := m }
    else if tag = "threshold" ∨ tag = "output" then do
      let v ← textNum text
      let m ← setValue s.m s.currNode v
      pure { s with m := m }
    else pure s

/-- proxy_QuickRank.py 40-89, `ProxyQuickRank.load`: the first event is skipped. -/
def quickrankLoad (zero minusOne : F) (doc : Xml F) (learningRate : F) (baseScore : Option F) : Except PyErr (Loaded F) := do
  let (nTrees, nNodes) := qrCount doc
  let s ← (doc.events.drop 1).foldlM qrStep ⟨alloc zero minusOne nTrees nNodes, -1, -1, []⟩
  pure ⟨s.m, learningRate, baseScore⟩

/-- An element with a text only. -/
def textElem (tag : String) (text : Text F) : Xml F := .elem tag [] (some text) []

/-- proxy_QuickRank.py 189-191: the attribute of a child. -/
def posAttrs : Option String → List (String × Text F)
  | none => []
  | some p => [("pos", .str p)]

/-- proxy_QuickRank.py 172-207, `_get_node_xml_element`. -/
def nodeXml (m : Ensemble F) : Nat → Int → Option String → Except PyErr (Xml F)
  | 0, _, _ => .error .diverges
  | fuel + 1, i, child => do
    if ← isLeafNode m i then
      let v ← pyGet m.value i
      pure (.elem "split" (posAttrs child) none [textElem "output" (.num v)])
    else
      let f ← pyGet m.feature i
      let t ← pyGet m.value i
      let l ← pyGet m.left i
      let xl ← nodeXml m fuel l (some "left")
      let r ← pyGet m.right i
      let xr ← nodeXml m fuel r (some "right")
      pure (.elem "split" (posAttrs child) none [textElem "feature" (.int (f + 1)), textElem "threshold" (.num t), xl, xr])

/-- proxy_QuickRank.py 152-163: the element of tree `k`. -/
def treeXml (m : Ensemble F) (k : Nat) : Except PyErr (Xml F) := do
  let w ← pyGet m.weight (k : Nat)
  let r ← pyGet m.root (k : Nat)
  let x ← nodeXml m (m.nNodes + 1) r none
  pure (.elem "tree" [("id", .int (k + 1 : Nat)), ("weight", .num w)] none [x])

/-- proxy_QuickRank.py 135-146: the section about learning. -/
def infoXml (nTrees maxLeaves : Nat) (learningRate : F) : Xml F :=
  .elem "info" [] none [textElem "type" (.str "MART"), textElem "trees" (.int nTrees), textElem "leaves" (.int maxLeaves),
    textElem "shrinkage" (.num learningRate), textElem "leafsupport" (.int 0), textElem "discretization" (.int 0),
    textElem "estop" (.int 0)]

/-- proxy_QuickRank.py 117-169, `ProxyQuickRank.save`: the document written. The base score is not looked at. -/
def quickrankSave (m : Ensemble F) (learningRate : F) : Except PyErr (Xml F) := do
  let leaves ← maxLeaves m
  let trees ← (List.range m.nTrees).mapM (treeXml m)
  pure (.elem "ranker" [] none [infoXml m.nTrees leaves learningRate, .elem "ensemble" [] none trees])

end Ensemble
end Verif
