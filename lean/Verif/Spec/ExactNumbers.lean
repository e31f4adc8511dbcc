/-
Specification of exact decisions: data and models as the exact numbers their texts stand for.
-/
import Verif.Spec.DecimalText
import Verif.Spec.Tree
import Verif.Model.DecimalText

namespace Verif.Spec
open Svm Decimal

/-- A number with its sign, so that there is a -0. -/
abbrev Signed := Bool × ℚ

/-- The number itself. -/
def exactValue (x : Signed) : ℚ := if x.1 then -x.2 else x.2

/-- The exact decision. -/
def exactLe (x t : Signed) : Bool := decide (exactValue x ≤ exactValue t)

/-- The same number or the same infinity, where -0 and 0 are the same. -/
def SameSingle (a b : Single) : Prop := (∃ m, (a = .num false m ∨ a = .num true m) ∧ b = a) ∨ (∃ s, a = .inf s ∧ b = a) ∨
  ((∃ s, a = .num s 0) ∧ ∃ s, b = .num s 0)

/-- The exact number a text stands for, if it is a decimal number. -/
noncomputable def exactFloat (s : List Char) : Option Signed := by
  classical exact if h : ∃ p : Signed, DecimalText s p.1 p.2 then some h.choose else none

namespace Tree
variable {F G : Type}

/-- The same tree with other numbers. -/
def map (g : F → G) : Tree F → Tree G
  | leaf v => leaf (g v)
  | node f t l r => node f (g t) (l.map g) (r.map g)

/-- The tests of a tree: features and thresholds. -/
def tests : Tree F → List (Nat × F)
  | leaf _ => []
  | node f t l r => (f, t) :: (l.tests ++ r.tests)

end Tree

/-- The word `id:value` with a decimal number. -/
def ExactPair (s : List Char) (p : Nat × Signed) : Prop :=
  ∃ a b, s = a ++ ':' :: b ∧ Numeral a p.1 ∧ p.1 < 2 ^ 31 ∧ DecimalText b p.2.1 p.2.2

/-- A row of a data file, all of whose numbers are decimal numbers. -/
def ExactRow (line : List Char) (r : SvmRow Signed) : Prop :=
  ∃ sp lab body tail ws, line = sp ++ lab ++ body ++ tail ∧ AllSpace sp ∧ DecimalText lab r.label.1 r.label.2 ∧ CommentTail tail ∧ Spaced ws body ∧
    ws ≠ [] ∧ ((r.qid = none ∧ List.Forall₂ ExactPair ws r.feats) ∨
      ∃ q w ws', r.qid = some q ∧ ws = w :: ws' ∧ QidText w q ∧ List.Forall₂ ExactPair ws' r.feats)

/-- The lines of a data file; lines that begin with `#` stand for nothing. -/
inductive ExactRows : List (List Char) → List (SvmRow Signed) → Prop where
  | nil : ExactRows [] []
  | comment {l c : List Char} {ls : List (List Char)} {rs : List (SvmRow Signed)} (hl : l = '#' :: c) (h : ExactRows ls rs) : ExactRows (l :: ls) rs
  | row {l : List Char} {r : SvmRow Signed} {ls : List (List Char)} {rs : List (SvmRow Signed)} (hl : ExactRow l r) (h : ExactRows ls rs) :
      ExactRows (l :: ls) (r :: rs)

end Verif.Spec
