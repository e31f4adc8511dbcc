/-
Model of `rankeval/model/proxy_QuickRank.py` on the text of the file: the elements built by `save`, their indentation, the text written, and
`load` on the text read.

Simplified: `repr` and the conversion of a text to a number are parameters; opening and closing of files is left out. The events are those of
the whole file (`_count_nodes` reads it to the end first, so that a `ParseError` comes before anything else).
-/
import Verif.Model.QuickRank
import Verif.Model.LightgbmText
import Verif.Py.Etree

namespace Verif.Ensemble
open Etree
variable {F : Type}

/-- `not text or not text.strip()`. -/
def blank (t : Option (List Char)) : Bool := (pyStrip (textOf t)).isEmpty

/-- `"\n" + level * indent_str`. -/
def newline (level : Nat) : List Char := '\n' :: List.replicate level '\t'

/-- `elem.tail = s`. -/
def setTail (s : List Char) : Elem → Elem
  | .mk tag attrs text _ children => .mk tag attrs text (some s) children

/-- `list(elem)[-1].tail = s`. -/
def setLastTail (s : List Char) : List Elem → List Elem
  | [] => []
  | [e] => [setTail s e]
  | e :: e' :: es => e :: setLastTail s (e' :: es)

mutual
/-- proxy_QuickRank.py 91-110, `_xmlprettyprint`, as the element afterwards. -/
def pretty (level : Nat) : Elem → Elem
  | .mk tag attrs text tail children =>
    match children with
    | [] => .mk tag attrs text (if level ≠ 0 ∧ blank tail then some (newline level) else tail) []
    | c :: cs => .mk tag attrs (if blank text then some (newline level ++ ['\t']) else text) (if blank tail then some (newline level) else tail)
        (setLastTail (newline level) (prettyList (level + 1) (c :: cs)))

def prettyList (level : Nat) : List Elem → List Elem
  | [] => []
  | e :: es => pretty level e :: prettyList level es
end

/-- `repr`. -/
structure Reprs (F : Type) where
  int : Int → List Char
  num : F → List Char

/-- The text set for a value. -/
def Reprs.text (pr : Reprs F) : Text F → List Char
  | .int i => pr.int i
  | .num v => pr.num v
  | .str s => s.toList

mutual
/-- proxy_QuickRank.py 133-163, 187-207: the elements made with `etree.Element` and `etree.SubElement`. -/
def toElem (pr : Reprs F) : Xml F → Elem
  | .elem tag attrs text children =>
    .mk tag.toList (attrs.map (fun a => (a.1.toList, pr.text a.2))) (text.map pr.text) none (toElems pr children)

def toElems (pr : Reprs F) : List (Xml F) → List Elem
  | [] => []
  | x :: xs => toElem pr x :: toElems pr xs
end

/-- proxy_QuickRank.py 117-169, `save`: the text written. -/
def quickrankSaveText (pr : Reprs F) (m : Ensemble F) (learningRate : F) : Except PyErr (List Char) := do
  let doc ← quickrankSave m learningRate
  pure (serialize (pretty 0 (toElem pr doc)))

/-- `elem.attrib[key]`. -/
def attribText (attrs : List (List Char × List Char)) (key : List Char) : Option (List Char) := (attrs.find? (·.1 == key)).map (·.2)

/-- The tag of an `end` event. -/
def endTag : Event → Option (List Char)
  | .start _ _ => none
  | .finish tag _ => some tag

/-- proxy_QuickRank.py 227-241, `_count_nodes`: the first `end` event is skipped. -/
def qrTextCount (es : List Event) : Nat × Nat :=
  let tags := (es.filterMap endTag).drop 1
  (tags.count "tree".toList, tags.count "feature".toList + tags.count "output".toList)

/-- proxy_QuickRank.py 64-68: a tree begins. -/
def qrTextTree (float : List Char → Option F) (s : QrState F) (attrs : List (List Char × List Char)) : Except PyErr (QrState F) := do
  let m ← setRoot s.m (s.currTree + 1) (s.currNode + 1)
  let w ← (match attribText attrs "weight".toList with
    | none => .error .keyError
    | some w => toFloat float w)
  let m ← setWeight m (s.currTree + 1) w
  pure { s with m := m, currTree := s.currTree + 1, currNode := s.currNode + 1 }

/-- proxy_QuickRank.py 69-77: a node begins. -/
def qrTextSplit (s : QrState F) (attrs : List (List Char × List Char)) : Except PyErr (QrState F) :=
  match attribText attrs "pos".toList with
  | none => pure { s with stack := s.currNode :: s.stack }
  | some pos =>
    match s.stack with
    | [] => .error .indexError
    | parent :: rest => do
      let m ← (if pos = "left".toList then setLeft s.m parent (s.currNode + 1) else setRight s.m parent (s.currNode + 1))
      pure { s with m := m, currNode := s.currNode + 1, stack := (s.currNode + 1) :: parent :: rest }

/-- proxy_QuickRank.py 60-84: one turn of the loop over the events. -/
def qrTextStep (float : List Char → Option F) (s : QrState F) : Event → Except PyErr (QrState F)
  | .start tag attrs =>
    if tag = "tree".toList then qrTextTree float s attrs
    else if tag = "split".toList then qrTextSplit s attrs
    else pure s
  | .finish tag text =>
    if tag = "split".toList then
      match s.stack with
      | [] => .error .indexError
      | _ :: rest => pure { s with stack := rest }
    else if tag = "feature".toList then
      match text with
      | none => .error .attributeError
      | some t => do
        let f ← pyInt (pyStrip t)
        let m ← setFeature s.m s.currNode (f - 1)
        pure { s with m := m }
    else if tag = "threshold".toList ∨ tag = "output".toList then
      match text with
      | none => .error .attributeError
      | some t => do
        let v ← toFloat float (pyStrip t)
        let m ← setValue s.m s.currNode v
        pure { s with m := m }
    else pure s

/-- proxy_QuickRank.py 32-89, `load` on the text of the file. -/
def quickrankLoadText (float : List Char → Option F) (zero minusOne : F) (text : List Char) (learningRate : F) (baseScore : Option F) :
    Except PyErr (Loaded F) := do
  let es ← parse text
  let (nTrees, nNodes) := qrTextCount es
  let s ← (es.drop 1).foldlM (qrTextStep float) ⟨alloc zero minusOne nTrees nNodes, -1, -1, []⟩
  pure ⟨s.m, learningRate, baseScore⟩

end Verif.Ensemble
