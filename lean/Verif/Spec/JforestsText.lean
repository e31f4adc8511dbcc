/-
Specification of the text of jforests files.
-/
import Verif.Spec.QuickRankText
import Verif.Spec.Arrays

namespace Verif.Spec
open Ensemble Etree
variable {F : Type}

/-- A number with white space other than blanks around it. -/
def JfWord {α : Type} (text : List Char → α → Prop) (w : List Char) (x : α) : Prop :=
  ∃ sp v sp', w = sp ++ v ++ sp' ∧ AllSpace sp ∧ AllSpace sp' ∧ ' ' ∉ sp ∧ ' ' ∉ sp' ∧ IsWord v ∧ text v x

/-- Numbers separated by single blanks. -/
def JfList {α : Type} (text : List Char → α → Prop) (t : List Char) (xs : List α) : Prop :=
  ∃ ws, t = List.intercalate [' '] ws ∧ List.Forall₂ (JfWord text) ws xs ∧ xs ≠ []

/-- The tags the loader looks for. -/
def jfTags : List (List Char) :=
  ["Tree".toList, "SplitFeatures".toList, "LeftChildren".toList, "RightChildren".toList, "OriginalThresholds".toList, "LeafOutputs".toList]

/-- An event of the parser and an event with converted texts. Elements with other tags may contain anything. -/
def SpellsJf (float : List Char → Option F) : Event → JfEvent F → Prop
  | .start tag attrs, .startTree w => tag = "Tree".toList ∧ (attrs.map (·.1)).Nodup ∧ ∃ s, ("weight".toList, s) ∈ attrs ∧ IsWord s ∧ NumText float s w
  | .start tag _, .other => tag ≠ "Tree".toList
  | .finish tag _, .endTree => tag = "Tree".toList
  | .finish tag text, .splitFeatures fs => tag = "SplitFeatures".toList ∧ ∃ t, text = some t ∧ JfList Numeral t fs
  | .finish tag text, .leftChildren cs => tag = "LeftChildren".toList ∧ ∃ t, text = some t ∧ JfList IntText t cs
  | .finish tag text, .rightChildren cs => tag = "RightChildren".toList ∧ ∃ t, text = some t ∧ JfList IntText t cs
  | .finish tag text, .originalThresholds ts => tag = "OriginalThresholds".toList ∧ ∃ t, text = some t ∧ JfList (NumText float) t ts
  | .finish tag text, .leafOutputs vs => tag = "LeafOutputs".toList ∧ ∃ t, text = some t ∧ JfList (NumText float) t vs
  | .finish tag _, .other => tag ∉ jfTags
  | _, _ => False

/-- Two blanks in a row, or a blank at the beginning or at the end. -/
def LooseBlanks (t : List Char) : Prop := [' ', ' '] <:+: t ∨ [' '] <+: t ∨ [' '] <:+ t

end Verif.Spec
