/-
Specification of the text of LightGBM models: how a line spells what the loader looks for.
-/
import Verif.Spec.Arrays
import Verif.Spec.DumpText

namespace Verif.Spec
open Ensemble
variable {F : Type}

/-- The words in `s`, separated by white space. -/
def SepWords (ws : List (List Char)) (s : List Char) : Prop :=
  (ws = [] ∧ AllSpace s) ∨ ∃ sp w ws' s', ws = w :: ws' ∧ s = sp ++ w ++ s' ∧ AllSpace sp ∧ IsWord w ∧ Spaced ws' s'

/-- A decimal numeral with or without a sign. -/
def IntText (s : List Char) (i : Int) : Prop := ∃ ds n, Numeral ds n ∧ ((s = ds ∧ i = n) ∨ (s = '-' :: ds ∧ i = -n) ∨ (s = '+' :: ds ∧ i = n))

/-- The line `key` followed by words with the given values. -/
def KeyLine {α : Type} (key : List Char) (text : List Char → α → Prop) (line : List Char) (xs : List α) : Prop :=
  ∃ ws body e, line = key ++ body ++ e ∧ '\n' ∉ body ∧ LineEnd e ∧ SepWords ws body ∧ List.Forall₂ text ws xs

/-- The keys the loader looks for. -/
def lgbKeys : List (List Char) :=
  ["Tree=".toList, "num_leaves=".toList, "split_feature=".toList, "threshold=".toList, "left_child=".toList, "right_child=".toList,
    "shrinkage=".toList, "leaf_value=".toList, "decision_type=".toList, "default_value=".toList, "has_categorical=".toList]

/-- A line of a LightGBM model. -/
def SpellsLgb (isZero : F → Bool) (float : List Char → Option F) (line : List Char) : LgbLine F → Prop
  | .tree i => ∃ ds e, line = "Tree=".toList ++ ds ++ e ∧ Numeral ds i ∧ LineEnd e
  | .numLeaves i => ∃ ds e, line = "num_leaves=".toList ++ ds ++ e ∧ Numeral ds i ∧ LineEnd e
  | .splitFeature fs => KeyLine "split_feature=".toList Numeral line fs
  | .threshold ts => KeyLine "threshold=".toList (NumText float) line ts
  | .leftChild cs => KeyLine "left_child=".toList IntText line cs
  | .rightChild cs => KeyLine "right_child=".toList IntText line cs
  | .shrinkage => "shrinkage=".toList <+: line
  | .leafValue vs => KeyLine "leaf_value=".toList (NumText float) line vs
  | .decisionType types => KeyLine "decision_type=".toList IntText line types
  | .defaultValue b => ∃ vs, KeyLine "default_value=".toList (NumText float) line vs ∧ b = vs.any (fun v => !isZero v)
  | .hasCategorical b => ∃ i, KeyLine "has_categorical=".toList IntText line [i] ∧ b = decide (i ≠ 0)
  | .other => ∀ key ∈ lgbKeys, ¬ key <+: line

end Verif.Spec
