/-
The part of Python's `re` used by the model loaders: a backtracking matcher that lists its matches in the order in which Python tries them.

Simplified: repetition of single characters only, groups are not nested, `\d` is an ASCII digit (Python 3 also accepts other decimal digits).
-/
import Mathlib.Data.List.Basic

namespace Verif

inductive Re where
  /-- a character with a property, like `\d`, `.` or a literal -/
  | chr (p : Char → Bool)
  /-- `c*` or `c*?` -/
  | star (p : Char → Bool) (greedy : Bool)
  | seq (a b : Re)
  /-- `(?:a)?` -/
  | opt (a : Re)
  /-- `(a)` -/
  | group (a : Re)
  /-- `$`: the end, or before a line feed at the end -/
  | eol
  | empty

namespace Re

/-- A match: the text matched, the text after it, and the groups. -/
structure Hit where
  text : List Char
  rest : List Char
  groups : List (List Char)
  deriving DecidableEq, Repr

/-- The ways in which `c*` can match, shortest first. -/
def starHits (p : Char → Bool) : List Char → List Hit
  | [] => [⟨[], [], []⟩]
  | c :: cs => ⟨[], c :: cs, []⟩ :: (if p c then (starHits p cs).map (fun h => ⟨c :: h.text, h.rest, []⟩) else [])

/-- The matches at the beginning of the text, in the order of Python. -/
def run : Re → List Char → List Hit
  | chr p, s =>
    match s with
    | [] => []
    | c :: cs => if p c then [⟨[c], cs, []⟩] else []
  | star p greedy, s => if greedy then (starHits p s).reverse else starHits p s
  | seq a b, s => (run a s).flatMap (fun h => (run b h.rest).map (fun k => ⟨h.text ++ k.text, k.rest, h.groups ++ k.groups⟩))
  | opt a, s => run a s ++ [⟨[], s, []⟩]
  | group a, s => (run a s).map (fun h => ⟨h.text, h.rest, [h.text]⟩)
  | eol, s => if s = [] ∨ s = ['\n'] then [⟨[], s, []⟩] else []
  | empty, s => [⟨[], s, []⟩]

/-- `re.match(...).groups()`. -/
def «match» (re : Re) (s : List Char) : Option (List (List Char)) := (run re s).head?.map (·.groups)

/-- `re.search(...).groups()`: the first position with a match. -/
def search (re : Re) : List Char → Option (List (List Char))
  | [] => re.match []
  | c :: cs => (re.match (c :: cs)).orElse (fun _ => search re cs)

/-- A literal text followed by an expression. -/
def lit : List Char → Re → Re
  | [], r => r
  | c :: cs, r => seq (chr (fun d => d == c)) (lit cs r)

/-- `\d`. -/
def isDigit (c : Char) : Bool := c ∈ ['0', '1', '2', '3', '4', '5', '6', '7', '8', '9']

/-- `.`. -/
def dot (c : Char) : Bool := c != '\n'

/-- `c+` and `c+?`. -/
def plus (p : Char → Bool) (greedy : Bool) : Re := seq (chr p) (star p greedy)

end Re

/-- Python's `str.strip`. -/
def pyStrip (s : List Char) : List Char :=
  let sp : Char → Bool := fun c => c ∈ [' ', '\t', '\n', '\x0b', '\x0c', '\r']
  ((s.dropWhile sp).reverse.dropWhile sp).reverse

end Verif
