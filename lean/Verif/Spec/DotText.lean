/-
What a text in the DOT language shows: a reader for the part of the language used here, independent of the writer
(https://graphviz.org/doc/info/lang.html: words and numerals, quoted strings in which `\"` is a quote, HTML strings in balanced `<` and `>`).
-/
import Verif.Spec.Graphviz
import Verif.Model.DotText
import Mathlib.Algebra.Field.Defs

namespace Verif.Spec.DotText

inductive Token where
  | word (s : List Char)
  | quoted (s : List Char)
  | html (s : List Char)
  | arrow
  | sym (c : Char)
  deriving DecidableEq, Repr

/-- Inside which token the reader is. -/
inductive Mode where
  | out
  | word (s : List Char)
  | dash
  | quoted (s : List Char)
  | escape (s : List Char)
  | html (depth : Nat) (s : List Char)
  deriving DecidableEq, Repr

def isWordChar (c : Char) : Bool := c.isAlphanum || c = '_' || c = '.'

/-- The next character outside of tokens. -/
def outside (c : Char) : Option (List Token × Mode) :=
  if c = ' ' ∨ c = '\n' ∨ c = '\t' ∨ c = '\r' then some ([], .out)
  else if isWordChar c then some ([], .word [c])
  else if c = '"' then some ([], .quoted [])
  else if c = '<' then some ([], .html 0 [])
  else if c = '-' then some ([], .dash)
  else if c ∈ ['[', ']', '{', '}', ';', ',', '='] then some ([.sym c], .out)
  else none

/-- The next character: the tokens that are complete, and the new mode. -/
def step : Mode → Char → Option (List Token × Mode)
  | .out, c => outside c
  | .word s, c => if isWordChar c then some ([], .word (s ++ [c])) else (outside c).map (fun r => (.word s :: r.1, r.2))
  | .dash, c => if c = '>' then some ([.arrow], .out) else if c.isDigit then some ([], .word ['-', c]) else none
  | .quoted s, c => if c = '"' then some ([.quoted s], .out) else if c = '\\' then some ([], .escape s) else some ([], .quoted (s ++ [c]))
  | .escape s, c => if c = '"' then some ([], .quoted (s ++ ['"'])) else some ([], .quoted (s ++ ['\\', c]))
  | .html d s, c =>
    if c = '<' then some ([], .html (d + 1) (s ++ [c]))
    else if c = '>' then if d = 0 then some ([.html s], .out) else some ([], .html (d - 1) (s ++ [c]))
    else some ([], .html d (s ++ [c]))

def run : Mode → List Char → Option (List Token × Mode)
  | m, [] => some ([], m)
  | m, c :: s =>
    match step m c with
    | none => none
    | some (t, m') => (run m' s).map (fun r => (t ++ r.1, r.2))

/-- The tokens of a text that ends outside of a token. -/
def tokens (s : List Char) : Option (List Token) :=
  match run .out s with
  | some (ts, .out) => some ts
  | _ => none

/-- The lines shown for a quoted label: `\n` begins a new line, `\\` is a backslash; other escapes are not read. -/
def quotedLines : List Char → Option (List (List Char))
  | [] => some [[]]
  | '\\' :: 'n' :: r => (quotedLines r).map ([] :: ·)
  | '\\' :: '\\' :: r => (quotedLines r).map (fun ls => ('\\' :: ls.headD []) :: ls.tail)
  | '\\' :: _ => none
  | c :: r => (quotedLines r).map (fun ls => (c :: ls.headD []) :: ls.tail)

inductive HtmlMode where
  | text
  | tag (s : List Char)
  | entity (s : List Char)

/-- The characters of the entities. -/
def entity (s : List Char) : Option Char :=
  [("#35".toList, '#'), ("#37".toList, '%'), ("le".toList, '≤'), ("lt".toList, '<'), ("gt".toList, '>'), ("amp".toList, '&')].lookup s

/-- Tags that change the font. -/
def fontTag (s : List Char) : Bool := s ∈ ["FONT POINT-SIZE=\"10\"".toList, "SUB".toList, "/SUB".toList, "/FONT".toList]

/-- The lines shown for an HTML label. -/
def htmlLines : HtmlMode → List Char → Option (List (List Char))
  | .text, [] => some [[]]
  | .tag _, [] => none
  | .entity _, [] => none
  | .text, c :: r =>
    if c = '<' then htmlLines (.tag []) r else if c = '&' then htmlLines (.entity []) r
    else if c = '>' then none else (htmlLines .text r).map (fun ls => (c :: ls.headD []) :: ls.tail)
  | .tag s, c :: r =>
    if c = '>' then
      if s = "br/".toList then (htmlLines .text r).map ([] :: ·) else if fontTag s then htmlLines .text r else none
    else htmlLines (.tag (s ++ [c])) r
  | .entity s, c :: r =>
    if c = ';' then (entity s).bind (fun x => (htmlLines .text r).map (fun ls => (x :: ls.headD []) :: ls.tail))
    else htmlLines (.entity (s ++ [c])) r

/-- A value of an attribute. -/
inductive Value where
  | text (s : List Char)
  | html (s : List Char)
  deriving DecidableEq, Repr

def value : Token → Option Value
  | .word s => some (.text s)
  | .quoted s => some (.text s)
  | .html s => some (.html s)
  | _ => none

abbrev Attrs := List (List Char × Value)

/-- `k=v, k=v]`. -/
def attrs : List Token → Option (Attrs × List Token)
  | .word k :: .sym '=' :: v :: .sym ',' :: r =>
    match value v, attrs r with
    | some x, some (l, r') => some ((k, x) :: l, r')
    | _, _ => none
  | .word k :: .sym '=' :: v :: .sym ']' :: r => (value v).map (fun x => ([(k, x)], r))
  | _ => none

/-- `a; b; c}`. -/
def idList : List Token → Option (List (List Char) × List Token)
  | .word a :: .sym ';' :: r => (idList r).map (fun p => (a :: p.1, p.2))
  | .word a :: .sym '}' :: r => some ([a], r)
  | _ => none

/-- A statement: a node (or a default, with the name `node`, `edge` or `graph`), an edge, nodes of the same rank. -/
inductive Item where
  | node (name : List Char) (attrs : Attrs)
  | edge (tail head : List Char) (attrs : Attrs)
  | sameRank (names : List (List Char))
  deriving DecidableEq, Repr

def item : List Token → Option (Item × List Token)
  | .word a :: .sym '[' :: r =>
    match attrs r with
    | some (l, .sym ';' :: r') => some (.node a l, r')
    | _ => none
  | .word a :: .arrow :: .word b :: .sym ';' :: r => some (.edge a b [], r)
  | .word a :: .arrow :: .word b :: .sym '[' :: r =>
    match attrs r with
    | some (l, .sym ';' :: r') => some (.edge a b l, r')
    | _ => none
  | .sym '{' :: .word k :: .sym '=' :: .word v :: .sym ';' :: r =>
    if k = "rank".toList ∧ v = "same".toList then
      match idList r with
      | some (l, .sym ';' :: r') => some (.sameRank l, r')
      | _ => none
    else none
  | _ => none

/-- Statements up to the closing brace at the end. Each has at least one token. -/
def items : Nat → List Token → Option (List Item)
  | 0, _ => none
  | _ + 1, [.sym '}'] => some []
  | n + 1, ts =>
    match item ts with
    | some (i, r) => (items n r).map (i :: ·)
    | none => none

/-- The statements of a text `digraph Tree { ... }`. -/
def readDot (s : List Char) : Option (List Item) :=
  match tokens s with
  | some (.word k :: .word _ :: .sym '{' :: ts) => if k = "digraph".toList then items (ts.length + 1) ts else none
  | _ => none

/-- The lines shown in a box. -/
def labelLines (l : Attrs) : Option (List (List Char)) :=
  match l.lookup "label".toList with
  | some (.text s) => quotedLines s
  | some (.html s) => htmlLines .text s
  | none => none

section
variable {F : Type}
open Dot

/-- A number in a label. -/
def idText (i : Int) : List Char := (toString i).toList

/-- A feature in a box. -/
def featureShown (special : Bool) : FeatureText → List Char
  | .index i => if special then "f".toList ++ idText i ++ " ".toList else "f[".toList ++ idText i ++ "] ".toList
  | .name s => s.toList

/-- The test or the output in a box. -/
def criterionShown (special : Bool) (pr : Printers F) : Criterion F → List Char
  | .split f v => featureShown special f ++ (if special then " ≤ ".toList else " <= ".toList) ++ pr.threshold v
  | .output v => "output = ".toList ++ pr.output v

/-- The line with the id. -/
def idLine : Option Int → List (List Char)
  | none => []
  | some i => ["node #".toList ++ idText i]

/-- The line with the number of documents. -/
def countLine (pr : Printers F) : Option (Nat × Option F) → List (List Char)
  | none => []
  | some (n, none) => ["counts = ".toList ++ (toString n).toList]
  | some (n, some q) => ["counts = ".toList ++ (toString n).toList ++ " (".toList ++ pr.percent q ++ "%)".toList]

/-- The lines of a box. -/
def boxLines (special : Bool) (pr : Printers F) (t : NodeText F F) : List (List Char) :=
  idLine t.id ++ countLine pr t.count ++ [criterionShown special pr t.criterion]

/-- The colour of a box as an attribute. -/
def fillAttr : Option (List Char) → Attrs
  | none => []
  | some c => [("fillcolor".toList, .text c)]

/-- The label of an edge as attributes. -/
def headAttrs : Option Bool → Attrs
  | none => []
  | some b => [("labeldistance".toList, .text "2.5".toList), ("labelangle".toList, .text (if b then "45".toList else "-45".toList)),
      ("headlabel".toList, .text (if b then "True".toList else "False".toList))]

/-- What a statement of the drawing is in the text: a box with its lines and colour, `(...)`, an edge. -/
def Shows (special : Bool) (pr : Printers F) (fill : Option (List Char)) : Stmt F F → Item → Prop
  | .node i t, .node n l => n = idText i ∧ labelLines l = some (boxLines special pr t) ∧ l.length = 1 + (fillAttr fill).length ∧ l.tail = fillAttr fill
  | .cropped i, .node n l => n = idText i ∧ l = ("label".toList, .text "(...)".toList) :: fillAttr fill
  | .edge p i b, .edge a c l => a = idText p ∧ c = idText i ∧ l = headAttrs b
  | _, _ => False

/-- Numbers are printed without quotes, backslashes and characters of HTML. -/
def PlainNumbers (pr : Printers F) : Prop :=
  ∀ v, (∀ c ∈ pr.threshold v, c ∉ ['"', '\\', '<', '>', '&']) ∧ (∀ c ∈ pr.output v, c ∉ ['"', '\\', '<', '>', '&']) ∧
    ∀ c ∈ pr.percent v, c ∉ ['"', '\\', '<', '>', '&']

/-- A feature name without characters that have a meaning in the label. -/
def PlainName (special : Bool) (s : String) : Prop := ∀ c ∈ s.toList, c ∉ (if special then ['<', '>', '&'] else ['"', '\\'])

/-- The defaults for boxes and edges. -/
def settings (filled rounded parallel : Bool) : List Item :=
  [.node "node".toList ([("shape".toList, .text "box".toList)] ++
    (if filled || rounded then
      [("style".toList, .text (if filled && rounded then "filled, rounded".toList else if filled then "filled".toList else "rounded".toList)),
        ("color".toList, .text "black".toList)] else []) ++
    if rounded then [("fontname".toList, .text "helvetica".toList)] else [])] ++
  (if parallel then [.node "graph".toList [("ranksep".toList, .text "equally".toList), ("splines".toList, .text "polyline".toList)]] else []) ++
  if rounded then [.node "edge".toList [("fontname".toList, .text "helvetica".toList)]] else []

/-- The nodes in the drawing: those up to the maximal depth, and their children. -/
def shownNodes (maxDepth : Option Nat) (it : IdTree F) : List (NodeItem F) := (it.items 0 none).filter (fun n => within maxDepth (n.depth - 1))

/-- The rank of a node: inner nodes by depth; leaves and `(...)` have a common one. -/
def rankOf (maxDepth : Option Nat) (n : NodeItem F) : Option Nat :=
  match n.info with
  | .split _ _ => if within maxDepth n.depth then some n.depth else none
  | .output _ => none

/-- One group for each rank that occurs, with the nodes of the rank. -/
def Groups (maxDepth : Option Nat) (ns : List (NodeItem F)) (gs : List Item) : Prop :=
  ∃ ks : List (Option Nat), ks.Nodup ∧ (∀ k, k ∈ ks ↔ ∃ n ∈ ns, rankOf maxDepth n = k) ∧
    gs = ks.map (fun k => .sameRank ((ns.filter (fun n => rankOf maxDepth n = k)).map (fun n => idText n.id)))

/-- Two hexadecimal digits. -/
def hexByte (b : Nat) : List Char := [Nat.digitChar (b / 16), Nat.digitChar (b % 16)]

/-- A colour with its opacity reduced to three quarters. -/
def colourText (c : Nat × Nat × Nat × Nat) : List Char := '#' :: (hexByte c.1 ++ hexByte c.2.1 ++ hexByte c.2.2.1 ++ hexByte (c.2.2.2 * 3 / 4))

section
variable [Field F] [LinearOrder F]

/-- The position between two bounds. -/
def position (lo hi v : F) : Ratio F := if lo = hi then if v = lo then .nan else .inf (decide (v < lo)) else .num ((v - lo) / (hi - lo))

/-- The colour of a node: none if nothing is highlighted. `counts`: the number of documents of each node, if given. -/
def boxFill (rgba : Ratio F → Nat × Nat × Nat × Nat) (highlight labelAll : Bool) (counts : Option (Nat → Nat)) (lo hi : F) (maxDepth : Option Nat)
    (n : NodeItem F) : Option (List Char) :=
  if within maxDepth n.depth then
    match counts, n.info with
    | some c, .output _ => some (colourText (rgba (position lo hi (c n.id))))
    | some c, .split _ _ => some (if labelAll then colourText (rgba (position lo hi (c n.id))) else "#ffffffff".toList)
    | none, .output v => if highlight then some (colourText (rgba (position lo hi v))) else none
    | none, .split _ _ => if highlight then some "#ffffffff".toList else none
  else if highlight || counts.isSome then some "#C0C0C0".toList else none

end

end

end Verif.Spec.DotText
