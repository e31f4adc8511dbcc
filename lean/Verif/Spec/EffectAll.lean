/-
Specification of the values of all metrics that rank documents, for documents given by label and score.
-/
import Verif.Spec.Effect
import Verif.Model.Metrics

namespace Verif.Spec
open Metrics

/-- The gain functions of DCG and NDCG. -/
noncomputable def gainOf : Impl → Option (ℝ → ℝ)
  | .flat => some (fun v => v)
  | .exp => some (fun v => (2 : ℝ) ^ v - 1)
  | .other => none

/-- The probability that a document of label `v` satisfies the user, if `m` is the largest label. -/
noncomputable def satisfies (m v : ℝ) : ℝ := ((2 : ℝ) ^ v - 1) / 2 ^ m

/-- `m` is the largest label. -/
def IsLargest (labels : List ℝ) (m : ℝ) : Prop := m ∈ labels ∧ ∀ v ∈ labels, v ≤ m

/-- `v` is the value of the metric for a ranking of the documents. -/
def ValueOf (c : Option Nat) (docs ranking : List (ℝ × ℝ)) (v : ℝ) : RankMetric → Prop
  | .precision t => v = precision t (retrieved c ranking)
  | .precisionMax => ∃ m, IsLargest (docs.map (·.1)) m ∧ v = precision m (retrieved c ranking)
  | .recall t d => v = if nRelevant t (docs.map (·.1)) = 0 then d else recall t (docs.map (·.1)) (retrieved c ranking)
  | .dcg impl => ∃ g, gainOf impl = some g ∧ v = dcg g (retrieved c ranking)
  | .ndcg impl d => ∃ g, gainOf impl = some g ∧ IsNdcg g c d docs v
  | .err => ∃ m, IsLargest (docs.map (·.1)) m ∧ v = err (satisfies m) (retrieved c ranking)
  | .pfound p => ∃ m, IsLargest (docs.map (·.1)) m ∧ v = pfound p (satisfies m) (retrieved c ranking)
  | .rbp t p => v = rbp p t (retrieved c ranking)
  | .mrr t => (∃ i, IsFirstRelevant t (retrieved c ranking) i ∧ v = 1 / ((i : ℝ) + 1)) ∨ ((∀ x ∈ retrieved c ranking, x < t) ∧ v = 0)
  | .map d =>
    ((∃ x ∈ retrieved c ranking, 0 < x) ∧ v = sumPrecisions (retrieved c ranking) /
      ((min (retrieved c ranking).length ((docs.map (·.1)).countP (fun x => decide (0 < x))) : Nat) : ℝ)) ∨
    ((∀ x ∈ retrieved c ranking, ¬ 0 < x) ∧ v = d)

/-- `v` is the value of the metric for the documents, with some order of equally scored ones. -/
def IsValue (m : RankMetric) (c : Option Nat) (docs : List (ℝ × ℝ)) (v : ℝ) : Prop :=
  ∃ ranking, IsRanking docs ranking ∧ ValueOf c docs ranking v m

end Verif.Spec
