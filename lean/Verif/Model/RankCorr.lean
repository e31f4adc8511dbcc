/-
Model of `rankeval/metrics/kendall_tau.py` and `rankeval/metrics/spearman_rho.py`.

Both call `scipy`. The model is scipy's documented result: tau-b from the numbers of concordant, discordant and tied pairs (also the formula
in the documentation of `eval_per_query`), and the Pearson correlation of average ranks. Labels and scores are from linear orders (no NaN);
the result is a real number, `none` for NaN.
-/
import Verif.Py.Basic
import Mathlib.Analysis.SpecialFunctions.Pow.NNReal

namespace Verif.Metrics
variable {α β : Type} [LinearOrder α] [LinearOrder β]

/-- The number of pairs of different positions of a list that satisfy `c`. -/
def countPairs {γ : Type} (c : γ → γ → Bool) : List γ → Nat
  | [] => 0
  | x :: xs => xs.countP (c x) + countPairs c xs

/-- Pairs of documents (label, score) ordered in the same way, in opposite ways, tied in the label only, tied in the score only. -/
def concordant (a b : α × β) : Bool := decide (a.1 < b.1 ∧ a.2 < b.2 ∨ b.1 < a.1 ∧ b.2 < a.2)
def discordant (a b : α × β) : Bool := decide (a.1 < b.1 ∧ b.2 < a.2 ∨ b.1 < a.1 ∧ a.2 < b.2)
def tiedFirst (a b : α × β) : Bool := decide (a.1 = b.1 ∧ a.2 ≠ b.2)
def tiedSecond (a b : α × β) : Bool := decide (a.1 ≠ b.1 ∧ a.2 = b.2)

/-- kendall_tau.py 62-71: `(P - Q) / sqrt((P + Q + T) * (P + Q + U))`, NaN if a factor is zero. -/
noncomputable def tauOf (d : List (α × β)) : Option ℝ :=
  let p := countPairs concordant d
  let q := countPairs discordant d
  let t := countPairs tiedFirst d
  let u := countPairs tiedSecond d
  if (p + q + t) * (p + q + u) = 0 then none
  else some (((p : ℝ) - q) / Real.sqrt (((p : ℝ) + q + t) * ((p : ℝ) + q + u)))

/-- kendall_tau.py 93-94, `Kendalltau.eval_per_query`. -/
noncomputable def kendallPerQuery (y : List α) (s : List β) : Except PyErr (Option ℝ) :=
  if y.length ≠ s.length then .error .valueError else .ok (tauOf (y.zip s))

/-- `scipy.stats.rankdata` with the default method: the average of the positions of equal values, from 1. -/
noncomputable def avgRank (v : List α) (x : α) : ℝ :=
  (v.countP (fun z => decide (z < x)) : ℝ) + ((v.countP (fun z => decide (z = x)) : ℝ) + 1) / 2

/-- Mean of a function of the documents. -/
noncomputable def meanOf {γ : Type} (d : List γ) (f : γ → ℝ) : ℝ := (d.map f).sum / d.length

/-- Sum of squares of the deviations from the mean. -/
noncomputable def spread {γ : Type} (d : List γ) (f : γ → ℝ) : ℝ := (d.map (fun x => (f x - meanOf d f) ^ 2)).sum

/-- Pearson correlation of two functions of the documents, NaN if one of them is constant. -/
noncomputable def pearson {γ : Type} (d : List γ) (f g : γ → ℝ) : Option ℝ :=
  if spread d f * spread d g = 0 then none
  else some ((d.map (fun x => (f x - meanOf d f) * (g x - meanOf d g))).sum / Real.sqrt (spread d f * spread d g))

/-- The correlation of the ranks of labels and scores. -/
noncomputable def rhoOf (d : List (α × β)) : Option ℝ :=
  pearson d (fun x => avgRank (d.map (·.1)) x.1) (fun x => avgRank (d.map (·.2)) x.2)

/-- spearman_rho.py 75-76, `SpearmanRho.eval_per_query`. -/
noncomputable def spearmanPerQuery (y : List α) (s : List β) : Except PyErr (Option ℝ) :=
  if y.length ≠ s.length then .error .valueError else .ok (rhoOf (y.zip s))

end Verif.Metrics
