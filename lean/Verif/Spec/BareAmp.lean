/-
Texts that are not XML because of an ampersand.
-/
import Mathlib.Data.List.Basic

namespace Verif.Etree

/-- What follows an ampersand in XML: the five predefined entities, or a number. -/
def references : List (List Char) := ["amp;".toList, "lt;".toList, "gt;".toList, "quot;".toList, "apos;".toList, ['#']]

/-- The text contains an ampersand that begins no reference. -/
def BareAmp (s : List Char) : Prop := ∃ pre b, s = pre ++ '&' :: b ∧ ∀ r ∈ references, ¬ r <+: b

end Verif.Etree
