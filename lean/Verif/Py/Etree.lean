/-
The part of Python's `xml.etree.ElementTree` used by `rankeval/model/proxy_QuickRank.py`: elements, the text `tostring` writes, and the events
`iterparse` gives.

Simplified: ASCII only; no comments, processing instructions, DOCTYPE, CDATA sections or single quotes; of the character references only
`&#10;`; carriage returns are not translated to line feeds. Whatever is outside of this raises `ParseError`.
-/
import Verif.Py.Basic

namespace Verif.Etree

/-- An element. The tail is the text between the end of the element and the next tag. -/
inductive Elem where
  | mk (tag : List Char) (attrs : List (List Char × List Char)) (text tail : Option (List Char)) (children : List Elem)

/-- `_escape_cdata`. -/
def escapeText (s : List Char) : List Char :=
  s.flatMap (fun c => if c = '&' then "&amp;".toList else if c = '<' then "&lt;".toList else if c = '>' then "&gt;".toList else [c])

/-- `_escape_attrib`. -/
def escapeAttr (s : List Char) : List Char :=
  s.flatMap (fun c => if c = '&' then "&amp;".toList else if c = '<' then "&lt;".toList else if c = '>' then "&gt;".toList
    else if c = '"' then "&quot;".toList else if c = '\n' then "&#10;".toList else [c])

/-- The attributes in the opening tag. -/
def attrsText (attrs : List (List Char × List Char)) : List Char :=
  attrs.flatMap (fun a => ' ' :: a.1 ++ ['=', '"'] ++ escapeAttr a.2 ++ ['"'])

/-- A text that may be missing. -/
def textOf : Option (List Char) → List Char
  | none => []
  | some s => s

mutual
/-- `_serialize_xml`: the element and its tail. -/
def serialize : Elem → List Char
  | .mk tag attrs text tail children =>
    '<' :: tag ++ attrsText attrs ++
      (if textOf text ≠ [] ∨ children ≠ [] then '>' :: escapeText (textOf text) ++ serializeList children ++ ['<', '/'] ++ tag ++ ['>']
        else [' ', '/', '>']) ++ escapeText (textOf tail)

def serializeList : List Elem → List Char
  | [] => []
  | e :: es => serialize e ++ serializeList es
end

/-- White space of XML. -/
def space (c : Char) : Bool := c ∈ [' ', '\t', '\n', '\r']

/-- The characters of names. -/
def nameChar (c : Char) : Bool := c.isAlphanum || c ∈ ['_', '-', '.', ':']

/-- Replaces the references. -/
def unescape : List Char → Option (List Char)
  | [] => some []
  | '&' :: 'a' :: 'm' :: 'p' :: ';' :: s => (unescape s).map ('&' :: ·)
  | '&' :: 'l' :: 't' :: ';' :: s => (unescape s).map ('<' :: ·)
  | '&' :: 'g' :: 't' :: ';' :: s => (unescape s).map ('>' :: ·)
  | '&' :: 'q' :: 'u' :: 'o' :: 't' :: ';' :: s => (unescape s).map ('"' :: ·)
  | '&' :: 'a' :: 'p' :: 'o' :: 's' :: ';' :: s => (unescape s).map ('\'' :: ·)
  | '&' :: '#' :: '1' :: '0' :: ';' :: s => (unescape s).map ('\n' :: ·)
  | c :: s => if c = '&' then none else (unescape s).map (c :: ·)

/-- The attributes at the beginning of a text, and what follows them. -/
def lexAttrs : Nat → List Char → Except PyErr (List (List Char × List Char) × List Char)
  | 0, _ => .error .diverges
  | n + 1, s =>
    let r := s.dropWhile space
    let name := r.takeWhile nameChar
    if name = [] then pure ([], r)
    else match r.dropWhile nameChar with
      | '=' :: '"' :: v =>
        match v.dropWhile (· ≠ '"') with
        | '"' :: rest =>
          match unescape (v.takeWhile (· ≠ '"')) with
          | none => .error .parseError
          | some value =>
            if '<' ∈ v.takeWhile (· ≠ '"') then .error .parseError
            else do
              let (attrs, rest) ← lexAttrs n rest
              pure ((name, value) :: attrs, rest)
        | _ => .error .parseError
      | _ => .error .parseError

/-- A tag, or the text between two tags (with references). -/
inductive Token where
  | start (tag : List Char) (attrs : List (List Char × List Char))
  | finish (tag : List Char)
  | data (s : List Char)
  deriving DecidableEq, Repr

/-- A closing tag, after `</`, and what follows it. -/
def closeTag (r : List Char) : Except PyErr (List Token × List Char) :=
  match (r.dropWhile nameChar).dropWhile space with
  | '>' :: rest => pure ([.finish (r.takeWhile nameChar)], rest)
  | _ => .error .parseError

/-- The end of an opening tag. -/
def openEnd (name : List Char) (attrs : List (List Char × List Char)) : List Char → Except PyErr (List Token × List Char)
  | '>' :: rest => pure ([.start name attrs], rest)
  | '/' :: '>' :: rest => pure ([.start name attrs, .finish name], rest)
  | _ => .error .parseError

/-- An opening tag, after `<`, and what follows it. -/
def openTag (r : List Char) : Except PyErr (List Token × List Char) :=
  let name := r.takeWhile nameChar
  if name = [] then .error .parseError
  else do
    let (attrs, rest) ← lexAttrs (r.length + 1) (r.dropWhile nameChar)
    if ¬ (attrs.map (·.1)).Nodup then .error .parseError
    else openEnd name attrs rest

/-- A tag, after `<`, and what follows it. -/
def tagAt : List Char → Except PyErr (List Token × List Char)
  | '/' :: r => closeTag r
  | r => openTag r

/-- The tags and texts of a document. -/
def lex : Nat → List Char → Except PyErr (List Token)
  | 0, _ => .error .diverges
  | _ + 1, [] => pure []
  | n + 1, c :: s =>
    if c = '<' then do
      let (t, rest) ← tagAt s
      let ts ← lex n rest
      pure (t ++ ts)
    else do
      let ts ← lex n (s.dropWhile (· ≠ '<'))
      pure (.data (c :: s.takeWhile (· ≠ '<')) :: ts)

/-- Events of `iterparse`, with the tag, the attributes and the text of the element. -/
inductive Event where
  | start (tag : List Char) (attrs : List (List Char × List Char))
  | finish (tag : List Char) (text : Option (List Char))
  deriving DecidableEq, Repr

/-- An element being read: its tag, its text, and whether a child has been met. -/
structure Open where
  tag : List Char
  text : Option (List Char)
  child : Bool
  deriving DecidableEq, Repr

/-- The text after a child belongs to the child. -/
def Open.add (o : Open) (s : List Char) : Open := if o.child then o else { o with text := some (textOf o.text ++ s) }

/-- The open elements, innermost first, and whether the root has been met. -/
structure Builder where
  stack : List Open
  root : Bool
  deriving DecidableEq, Repr

/-- `TreeBuilder`: one tag or text. -/
def buildStep (b : Builder) : Token → Except PyErr (Builder × List Event)
  | .start tag attrs =>
    match b.stack with
    | [] => if b.root then .error .parseError else pure (⟨[⟨tag, none, false⟩], true⟩, [.start tag attrs])
    | o :: rest => pure (⟨⟨tag, none, false⟩ :: { o with child := true } :: rest, b.root⟩, [.start tag attrs])
  | .finish tag =>
    match b.stack with
    | [] => .error .parseError
    | o :: rest => if o.tag = tag then pure (⟨rest, b.root⟩, [.finish tag o.text]) else .error .parseError
  | .data s =>
    match b.stack with
    | [] => if s.all space then pure (b, []) else .error .parseError
    | o :: rest =>
      match unescape s with
      | none => .error .parseError
      | some t => pure (⟨o.add t :: rest, b.root⟩, [])

/-- All tags and texts; at the end the root must be complete. -/
def build (b : Builder) : List Token → Except PyErr (List Event)
  | [] => if b.stack = [] ∧ b.root then pure [] else .error .parseError
  | t :: ts => do
    let (b, es) ← buildStep b t
    let es' ← build b ts
    pure (es ++ es')

/-- The events for the text of a file, when it is read to the end. -/
def parse (s : List Char) : Except PyErr (List Event) := do
  let ts ← lex (s.length + 1) s
  build ⟨[], false⟩ ts

end Verif.Etree
