/-
Specification of SVMlight files.
-/
import Verif.Model.Svmlight

namespace Verif.Spec
open Svm
variable {F : Type}

/-- What a row of a file says. -/
structure SvmRow (F : Type) where
  label : F
  qid : Option Int
  feats : List (Nat × F)

/-- Feature ids start from 1 and increase. -/
def SvmRow.Ordered (r : SvmRow F) : Prop := (∀ p ∈ r.feats, 1 ≤ p.1) ∧ (r.feats.map (·.1)).Pairwise (· < ·)

/-- The value of feature `i`, 0 if not given. -/
def SvmRow.at (zero : F) (r : SvmRow F) (i : Nat) : F :=
  match r.feats.find? (fun p => p.1 = i) with
  | some p => p.2
  | none => zero

/-- The largest feature id of a file. -/
def svmWidth (rows : List (SvmRow F)) : Nat := (rows.flatMap (fun r => r.feats.map (·.1))).foldl max 0

/-- Row of the matrix: features 1 to `n`. -/
def SvmRow.dense (zero : F) (n : Nat) (r : SvmRow F) : List F := (List.range n).map (fun j => r.at zero (j + 1))

/-- White space only. -/
def AllSpace (s : List Char) : Prop := ∀ c ∈ s, c ∈ [' ', '\t', '\n', '\x0b', '\x0c', '\r']

/-- Nonempty and without white space or comment sign. -/
def IsWord (s : List Char) : Prop := s ≠ [] ∧ ∀ c ∈ s, c ∉ ['#', ' ', '\t', '\n', '\x0b', '\x0c', '\r']

instance (s : List Char) : Decidable (AllSpace s) := inferInstanceAs (Decidable (∀ c ∈ s, _))

instance (s : List Char) : Decidable (IsWord s) := inferInstanceAs (Decidable (_ ∧ ∀ c ∈ s, _))

/-- `s` is a decimal numeral of `n`. -/
inductive Numeral : List Char → Nat → Prop where
  | one {d : Nat} (hd : d < 10) : Numeral [digit d] d
  | more {s : List Char} {n d : Nat} (h : Numeral s n) (hd : d < 10) : Numeral (s ++ [digit d]) (10 * n + d)

/-- `s` is a numeral that is read as the label `v` when followed by nothing or by white space. -/
def LabelText (sc : Scan F) (s : List Char) (v : F) : Prop :=
  IsWord s ∧ ∀ rest, (∀ c ∈ rest.head?, c ∈ [' ', '\t', '\n', '\x0b', '\x0c', '\r']) → sc.label (s ++ rest) = some (v, rest)

/-- `s` is a numeral that is read as the value `v` of a feature. -/
def ValueText (sc : Scan F) (s : List Char) (v : F) : Prop := IsWord s ∧ sc.value s = some v

/-- The word `id:value`. -/
def PairText (sc : Scan F) (s : List Char) (p : Nat × F) : Prop :=
  ∃ a b, s = a ++ ':' :: b ∧ Numeral a p.1 ∧ p.1 < 2 ^ 31 ∧ ValueText sc b p.2

/-- The word `qid:n`. -/
def QidText (s : List Char) (q : Int) : Prop :=
  ∃ a n, s = ['q', 'i', 'd', ':'] ++ a ∧ Numeral a n ∧ q = n ∧ n < 2 ^ 31

/-- A text made of the given words, each after some white space. -/
inductive Spaced : List (List Char) → List Char → Prop where
  | nil {s : List Char} (h : AllSpace s) : Spaced [] s
  | cons {sp w s : List Char} {ws : List (List Char)} (hsp : AllSpace sp) (hne : sp ≠ []) (hw : IsWord w) (h : Spaced ws s) :
      Spaced (w :: ws) (sp ++ w ++ s)

/-- Nothing, or a comment. -/
def CommentTail (s : List Char) : Prop := s = [] ∨ ∃ c, s = '#' :: c

/-- `line` is a line of the file that stands for the row `r`: white space, label, query id (if given), features, and perhaps a
comment. There is a query id or a feature. -/
def SpellsRow (sc : Scan F) (line : List Char) (r : SvmRow F) : Prop :=
  ∃ sp lab body tail ws, line = sp ++ lab ++ body ++ tail ∧ AllSpace sp ∧ LabelText sc lab r.label ∧ CommentTail tail ∧ Spaced ws body ∧ ws ≠ [] ∧
    match r.qid with
    | none => List.Forall₂ (PairText sc) ws r.feats
    | some q => ∃ w ws', ws = w :: ws' ∧ QidText w q ∧ List.Forall₂ (PairText sc) ws' r.feats

/-- The lines of a file stand for the rows; lines that begin with `#` stand for nothing. -/
inductive SpellsRows (sc : Scan F) : List (List Char) → List (SvmRow F) → Prop where
  | nil : SpellsRows sc [] []
  | comment {l c : List Char} {ls : List (List Char)} {rs : List (SvmRow F)} (hl : l = '#' :: c) (h : SpellsRows sc ls rs) :
      SpellsRows sc (l :: ls) rs
  | row {l : List Char} {r : SvmRow F} {ls : List (List Char)} {rs : List (SvmRow F)} (hl : SpellsRow sc l r) (h : SpellsRows sc ls rs) :
      SpellsRows sc (l :: ls) (r :: rs)

/-- `file` consists of the given lines: each ends with its only line feed, which may be missing in the last line. -/
inductive IsLines : List (List Char) → List Char → Prop where
  | nil : IsLines [] []
  | last {l : List Char} (hne : l ≠ []) (h : '\n' ∉ l) : IsLines [l] l
  | cons {l file : List Char} {ls : List (List Char)} (hl : '\n' ∉ l) (h : IsLines ls file) :
      IsLines ((l ++ ['\n']) :: ls) (l ++ '\n' :: file)

end Verif.Spec
