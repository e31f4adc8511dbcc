/-
Specification of the text of QuickRank documents.
-/
import Verif.Spec.Etree
import Verif.Spec.QuickRank
import Verif.Model.QuickRankText
import Verif.Spec.LightgbmText

namespace Verif.Spec
open Ensemble Etree
variable {F : Type}

/-- A text with what it is converted to; numbers may be surrounded by white space. -/
def SpellsText (float : List Char → Option F) (s : List Char) : Text F → Prop
  | .int i => ∃ sp w sp', s = sp ++ w ++ sp' ∧ AllSpace sp ∧ AllSpace sp' ∧ IntText w i
  | .num v => ∃ sp w sp', s = sp ++ w ++ sp' ∧ AllSpace sp ∧ AllSpace sp' ∧ IsWord w ∧ NumText float w v
  | .str p => s = p.toList

/-- The value of an attribute. -/
def SpellsAttr (float : List Char → Option F) (s : List Char) : Text F → Prop
  | .int i => IntText s i
  | .num v => NumText float s v
  | .str p => s = p.toList

/-- An event of the parser and an event with converted texts. The text of an element with children only may be anything. -/
def SpellsEvent (float : List Char → Option F) : Event → XmlEvent F → Prop
  | .start tag attrs, .start tag' attrs' => tag = tag'.toList ∧
      List.Forall₂ (fun a b => a.1 = b.1.toList ∧ SpellsAttr float a.2 b.2) attrs attrs'
  | .finish tag text, .finish tag' text' => tag = tag'.toList ∧ ∀ t, text' = some t → ∃ s, text = some s ∧ SpellsText float s t
  | _, _ => False

/-- The printed numbers are read back. -/
structure PrintsNumbers (pr : Reprs F) (float : List Char → Option F) : Prop where
  int : ∀ i, IntText (pr.int i) i
  num : ∀ v, IsWord (pr.num v) ∧ NumText float (pr.num v) v

/-- Events which differ in white space only. -/
def SameEvent : Event → Event → Prop
  | .start tag attrs, .start tag' attrs' => tag = tag' ∧ attrs = attrs'
  | .finish tag text, .finish tag' text' => tag = tag' ∧ (text = text' ∨ AllSpace (textOf text) ∧ AllSpace (textOf text'))
  | _, _ => False

end Verif.Spec
