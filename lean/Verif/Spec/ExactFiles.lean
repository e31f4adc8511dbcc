/-
Specification of a dataset and a LightGBM model in texts, with the exact numbers in them.
-/
import Verif.Spec.ExactNumbers
import Verif.Spec.LightgbmText
import Verif.Model.SingleOrder

namespace Verif.Spec
open Decimal Ensemble Svm

/-- The rows and the trees are those in the texts. Features are numbered from 1 in increasing order, and the first row has one; no number is too large for
single precision; every tested feature occurs in the data; and no value above a threshold is rounded to it. -/
structure ExactFiles (isZero : Single → Bool) (data model : List Char) (rows : List (SvmRow Signed)) (ts : List (Tree Signed)) : Prop where
  data : ∃ dl, IsLines dl data ∧ ExactRows dl rows
  ordered : ∀ r ∈ rows, r.Ordered
  rows_ne : rows ≠ []
  first : ∀ r ∈ rows.head?, r.feats ≠ []
  labels : ∀ r ∈ rows, r.label.2 < 2 ^ 128 - 2 ^ 103
  values : ∀ r ∈ rows, ∀ p ∈ r.feats, p.2.2 ≤ 2 ^ 128 - 2 ^ 104
  model : ∃ ls ds as, IsLines ls model ∧ List.Forall₂ (SpellsLgb (fun v => isZero (narrow v)) exactFloat) ls ds ∧
    ds.filter lgbRelevant = lgbForest 0 as ∧ List.Forall₂ ArrTree.Is as ts ∧ ∀ a ∈ as, ∀ f ∈ a.features, f < 2 ^ 15
  trees_ne : ts ≠ []
  features : ∀ t ∈ ts, ∀ f ∈ t.features, f < svmWidth rows
  separate : ∀ r ∈ rows, ∀ t ∈ ts, ∀ p ∈ t.tests, ∀ x, (r.dense (false, 0) (svmWidth rows))[p.1]? = some x → exactValue p.2 < exactValue x →
    ¬ SameSingle (narrow x) (narrow p.2)

end Verif.Spec
