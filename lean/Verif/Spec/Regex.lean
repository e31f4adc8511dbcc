/-
Specification of regular expressions: what it means that a text matches.
-/
import Verif.Py.Regex

namespace Verif.Spec

/-- `text` matches when it is followed by `rest`, with the given groups. -/
inductive Matches : Re → List Char → List Char → List (List Char) → Prop where
  | chr {p : Char → Bool} {c : Char} {rest : List Char} (h : p c = true) : Matches (.chr p) [c] rest []
  | star {p : Char → Bool} {greedy : Bool} {t rest : List Char} (h : ∀ c ∈ t, p c = true) : Matches (.star p greedy) t rest []
  | seq {a b : Re} {t u rest : List Char} {g g' : List (List Char)} (ha : Matches a t (u ++ rest) g) (hb : Matches b u rest g') :
      Matches (.seq a b) (t ++ u) rest (g ++ g')
  | skip {a : Re} {rest : List Char} : Matches (.opt a) [] rest []
  | opt {a : Re} {t rest : List Char} {g : List (List Char)} (h : Matches a t rest g) : Matches (.opt a) t rest g
  | group {a : Re} {t rest : List Char} {g : List (List Char)} (h : Matches a t rest g) : Matches (.group a) t rest [t]
  | eol {rest : List Char} (h : rest = [] ∨ rest = ['\n']) : Matches .eol [] rest []
  | empty {rest : List Char} : Matches .empty [] rest []

end Verif.Spec
