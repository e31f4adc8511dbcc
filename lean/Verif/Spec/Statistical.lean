/-
Specification of the statistical tests.
-/
import Mathlib.Algebra.Order.Field.Basic
import Mathlib.Algebra.BigOperators.Group.List.Basic
import Mathlib.Algebra.BigOperators.Group.Finset.Defs
import Mathlib.Data.Fintype.Basic

namespace Verif.Spec
variable {K : Type} [Field K] [LinearOrder K]

/-- The two score vectors after exchanging the scores of the selected queries. -/
def exchange (a b : List K) (sel : List Bool) : List K × List K :=
  (List.zipWith (fun s p => if s then p.2 else p.1) sel (a.zip b), List.zipWith (fun s p => if s then p.1 else p.2) sel (a.zip b))

/-- Difference of the mean scores. -/
def meanDiff (p : List K × List K) : K := p.1.sum / p.1.length - p.2.sum / p.2.length

/-- The better system first. -/
def bestFirst (a b : List K) : List K × List K := if a.sum / a.length < b.sum / b.length then (b, a) else (a, b)

/-- All subsets of `n` queries. -/
def allSels : Nat → List (List Bool)
  | 0 => [[]]
  | n + 1 => (allSels n).map (false :: ·) ++ (allSels n).map (true :: ·)

/-- The entries of `a` in the rows whose query satisfies `p`, in order. -/
def pick {α : Type} (p : Int → Bool) (ids : List Int) (a : List α) : List α := ((ids.zip a).filter (fun r => p r.1)).map (·.2)

/-- Mean of the predictions for `i` over the repetitions. -/
def meanPred {n l : Nat} (s : Fin n → Fin l → K) (i : Fin n) : K := (∑ r, s i r) / l

/-- Mean squared error of `s i r`, the prediction for `i` of repetition `r`, for the targets `t`; mean squared error of the mean prediction;
mean squared deviation from the mean prediction. -/
def errorBiasVariance {n l : Nat} (s : Fin n → Fin l → K) (t : Fin n → K) : K × K × K :=
  ((∑ i, ∑ r, (s i r - t i) ^ 2) / (n * l), (∑ i, (meanPred s i - t i) ^ 2) / n, (∑ i, ∑ r, (s i r - meanPred s i) ^ 2) / (n * l))

end Verif.Spec
