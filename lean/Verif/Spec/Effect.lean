/-
Specification of the effectiveness of a model on a data file.
-/
import Verif.Spec.Svmlight
import Verif.Spec.Metrics

namespace Verif.Spec
variable {F : Type}

/-- The rows of a query. -/
def ofQid (q : Int) (rows : List (SvmRow F)) : List (SvmRow F) := rows.filter (fun r => decide (r.qid = some q))

/-- What the scorer sees of a row. -/
def SvmRow.seen (zero : F) (fix : F → F) (n : Nat) (r : SvmRow F) : List F := (r.dense zero n).map fix

/-- `v` is the NDCG of documents given by label and score: the gains of a ranking over the gains of a ranking by label; `noRel` if the latter are 0. -/
def IsNdcg (g : ℝ → ℝ) (cutoff : Option Nat) (noRel : ℝ) (docs : List (ℝ × ℝ)) (v : ℝ) : Prop :=
  ∃ ranking ideal, IsRanking docs ranking ∧ ideal.Perm (docs.map (·.1)) ∧ ideal.Pairwise (· ≥ ·) ∧
    v = if dcg g (top cutoff ideal) ≠ 0 then dcg g (retrieved cutoff ranking) / dcg g (top cutoff ideal) else noRel

end Verif.Spec
