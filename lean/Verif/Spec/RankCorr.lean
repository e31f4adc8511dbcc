/-
Textbook notions for rank correlation, in terms of positions of documents.
-/
import Mathlib.Data.Finset.Card
import Mathlib.Data.Finset.Prod
import Mathlib.Data.Fintype.Prod
import Mathlib.Data.Fintype.Basic
import Mathlib.Order.Basic

namespace Verif.Spec
variable {α β : Type} [LinearOrder α] [LinearOrder β] {n : ℕ}

/-- Pairs `i < j` of documents which labels and scores order in the same way. -/
def concordantPairs (y : Fin n → α) (s : Fin n → β) : Finset (Fin n × Fin n) :=
  {p | p.1 < p.2 ∧ (y p.1 < y p.2 ∧ s p.1 < s p.2 ∨ y p.2 < y p.1 ∧ s p.2 < s p.1)}

/-- Pairs `i < j` of documents which labels and scores order in opposite ways. -/
def discordantPairs (y : Fin n → α) (s : Fin n → β) : Finset (Fin n × Fin n) :=
  {p | p.1 < p.2 ∧ (y p.1 < y p.2 ∧ s p.2 < s p.1 ∨ y p.2 < y p.1 ∧ s p.1 < s p.2)}

/-- Pairs `i < j` of documents with different values. -/
def untiedPairs (v : Fin n → α) : Finset (Fin n × Fin n) := {p | p.1 < p.2 ∧ v p.1 ≠ v p.2}

/-- Scores order all documents as the labels do, ties included. -/
def SameOrder (y : Fin n → α) (s : Fin n → β) : Prop := ∀ i j, y i < y j ↔ s i < s j

/-- Scores order all documents the other way round. -/
def OppositeOrder (y : Fin n → α) (s : Fin n → β) : Prop := ∀ i j, y i < y j ↔ s j < s i

/-- All documents have the same value. -/
def Constant (v : Fin n → α) : Prop := ∀ i j, v i = v j

/-- Position of document `i` when the values are different: one more than the number of smaller ones. -/
def rankOf (v : Fin n → α) (i : Fin n) : ℕ := ({j | v j < v i} : Finset (Fin n)).card + 1

end Verif.Spec
