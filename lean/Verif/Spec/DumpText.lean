/-
Specification of the text of dump files: how a line spells what the loaders look for.
-/
import Verif.Spec.Dump
import Verif.Spec.Svmlight

namespace Verif.Spec
open Ensemble
variable {F : Type}

/-- `s` is a numeral that `float` reads as `v`. -/
def NumText (float : List Char → Option F) (s : List Char) (v : F) : Prop :=
  float s = some v ∧ s ≠ [] ∧ ∀ c ∈ s, c ∉ [':', ']', ',', ' ', '\t', '\n', '\x0b', '\x0c', '\r']

/-- The end of a line. -/
def LineEnd (s : List Char) : Prop := s = [] ∨ s = ['\n']

/-- Nothing, or more attributes after a comma, without colon; then the end of the line. -/
def Attributes (s : List Char) : Prop :=
  LineEnd s ∨ ∃ a e, s = ',' :: a ++ e ∧ (∀ c ∈ a, c ≠ ':' ∧ c ≠ '\n') ∧ LineEnd e

/-- Indentation. -/
def Indent (s : List Char) : Prop := ∀ c ∈ s, c = ' ' ∨ c = '\t'

/-- A line of a dump, with `lt` between feature and threshold. The numbers of trees, nodes and features are decimal numerals. What
follows the test of a node contains neither colon nor closing bracket. Other lines contain no colon, and do not begin with `booster[`,
`base_score=` or `learning_rate=`. -/
def SpellsDump (lt : List Char) (float : List Char → Option F) (line : List Char) : DumpLine F → Prop
  | .tree i => ∃ ds tail, line = "booster[".toList ++ ds ++ ']' :: tail ∧ Numeral ds i
  | .node id f t => ∃ sp ids fs ts tail, line = sp ++ ids ++ ":[f".toList ++ fs ++ lt ++ ts ++ ']' :: tail ∧ Indent sp ∧ Numeral ids id ∧
      Numeral fs f ∧ NumText float ts t ∧ ∀ c ∈ tail, c ≠ ':' ∧ c ≠ ']'
  | .leaf id v => ∃ sp ids vs tail, line = sp ++ ids ++ ":leaf=".toList ++ vs ++ tail ∧ Indent sp ∧ Numeral ids id ∧ NumText float vs v ∧
      Attributes tail
  | .baseScore v => ∃ vs e, line = "base_score=".toList ++ vs ++ e ∧ NumText float vs v ∧ LineEnd e
  | .learningRate v => ∃ vs e, line = "learning_rate=".toList ++ vs ++ e ∧ NumText float vs v ∧ LineEnd e
  | .other => ':' ∉ line ∧ ¬ "booster[".toList <+: line ∧ ¬ "base_score=".toList <+: line ∧ ¬ "learning_rate=".toList <+: line

/-- In ScikitLearn files nothing follows the value of a leaf. -/
def SpellsSk (float : List Char → Option F) (line : List Char) (d : DumpLine F) : Prop :=
  SpellsDump ['<', '='] float line d ∧ ∀ id v, d = .leaf id v → ',' ∉ line

/-- The line of a split whose feature has a name that does not begin with `f`, as in the dump of an XGBoost model trained with names. -/
def NamedSplit (line : List Char) : Prop :=
  ∃ sp ids c tail id, line = sp ++ ids ++ ':' :: '[' :: c :: tail ∧ Indent sp ∧ Numeral ids id ∧ c ≠ 'f' ∧ ':' ∉ c :: tail

end Verif.Spec
