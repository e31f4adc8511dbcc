/-
Specification of XML documents: the events of an element, and its layout with one tag per line.
-/
import Verif.Py.Etree

namespace Verif.Spec
open Etree

/-- A name of XML (of its ASCII part). -/
def Name (s : List Char) : Prop := s ≠ [] ∧ ∀ c ∈ s, nameChar c = true

/-- A text as it is read back: an empty text is no text. -/
def content (t : Option (List Char)) : Option (List Char) := if textOf t = [] then none else some (textOf t)

mutual
/-- Tags and attributes are names, and no attribute occurs twice. -/
def ValidElem : Elem → Prop
  | .mk tag attrs _ _ children => Name tag ∧ (∀ a ∈ attrs, Name a.1) ∧ (attrs.map (·.1)).Nodup ∧ ValidElems children

def ValidElems : List Elem → Prop
  | [] => True
  | e :: es => ValidElem e ∧ ValidElems es
end

mutual
/-- The events of an element: its start, those of its children, its end. -/
def elemEvents : Elem → List Event
  | .mk tag attrs text _ children => .start tag attrs :: (elemsEvents children ++ [.finish tag (content text)])

def elemsEvents : List Elem → List Event
  | [] => []
  | e :: es => elemEvents e ++ elemsEvents es
end

/-- The text after the end of the element. -/
def tailOf : Elem → List Char
  | .mk _ _ _ tail _ => textOf tail

mutual
/-- Elements with either children or a text, and nothing between the tags. -/
def Plain : Elem → Prop
  | .mk _ _ text tail children => textOf tail = [] ∧ (children ≠ [] → textOf text = []) ∧ Plains children

def Plains : List Elem → Prop
  | [] => True
  | e :: es => Plain e ∧ Plains es
end

mutual
/-- The lines of an element, each with its depth: an element without children on one line, otherwise one line for each of the tags. -/
def layout (depth : Nat) : Elem → List (Nat × List Char)
  | .mk tag attrs text _ children =>
    match children with
    | [] =>
      if textOf text = [] then [(depth, '<' :: tag ++ attrsText attrs ++ [' ', '/', '>'])]
      else [(depth, '<' :: tag ++ attrsText attrs ++ ['>'] ++ escapeText (textOf text) ++ ['<', '/'] ++ tag ++ ['>'])]
    | c :: cs => (depth, '<' :: tag ++ attrsText attrs ++ ['>']) :: (layouts (depth + 1) (c :: cs) ++ [(depth, '<' :: '/' :: tag ++ ['>'])])

def layouts (depth : Nat) : List Elem → List (Nat × List Char)
  | [] => []
  | e :: es => layout depth e ++ layouts depth es
end

/-- The text of lines, each indented by its depth. -/
def indented (lines : List (Nat × List Char)) : List Char := lines.flatMap (fun l => List.replicate l.1 '\t' ++ l.2 ++ ['\n'])

end Verif.Spec
