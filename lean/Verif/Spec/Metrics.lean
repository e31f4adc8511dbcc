/-
Textbook definitions of the ranking metrics, independent of the model. They are functions of the list
of labels in rank order (best ranked first), already cut at the cutoff.
-/
import Mathlib.Analysis.SpecialFunctions.Log.Base
import Mathlib.Analysis.SpecialFunctions.Pow.Real
import Mathlib.Algebra.Order.Field.Basic
import Mathlib.Algebra.BigOperators.Fin

namespace Verif.Spec

/-- `r` is a ranking of the documents `docs` (label, score): the same documents by non-increasing score,
ties in any order. -/
structure IsRanking {L S : Type} [LE S] (docs r : List (L × S)) : Prop where
  perm : r.Perm docs
  sorted : r.Pairwise (fun a b => b.2 ≤ a.2)

/-- The documents retrieved with a cutoff. -/
def top {α : Type} : Option Nat → List α → List α
  | none, l => l
  | some k, l => l.take k

/-- The labels of the retrieved documents of a ranking, best first. -/
def retrieved {L S : Type} (cutoff : Option Nat) (r : List (L × S)) : List L :=
  (top cutoff r).map (·.1)

/-- The number of documents retrieved out of `n`. -/
def nRetrieved : Option Nat → Nat → Nat
  | none, n => n
  | some k, n => min k n

section
variable {K : Type} [Field K] [LinearOrder K]

/-- Number of labels at or above the threshold. -/
def nRelevant (t : K) (l : List K) : Nat := l.countP (fun v => decide (t ≤ v))

/-- Fraction of the retrieved documents that are relevant. -/
def precision (t : K) (l : List K) : K := (nRelevant t l : K) / (l.length : K)

/-- Fraction of the relevant documents (`all`) that are retrieved. -/
def recall (t : K) (all l : List K) : K := (nRelevant t l : K) / (nRelevant t all : K)

/-- Sum over ranks of a rank weight times the gain of the label. Ranks count from 0. -/
def weightedGain (w : Nat → K) (g : K → K) (l : List K) : K :=
  ∑ i : Fin l.length, w i * g l[i]

/-- Rank biased precision. -/
def rbp (p t : K) (l : List K) : K :=
  (1 - p) * weightedGain (fun i => p ^ i) (fun v => if t ≤ v then 1 else 0) l

/-- `r` is the 0-based rank of the first relevant document. -/
def IsFirstRelevant (t : K) (l : List K) (r : Nat) : Prop :=
  (∃ v, l[r]? = some v ∧ t ≤ v) ∧ ∀ i < r, ∀ v, l[i]? = some v → v < t

/-- Sum of the precisions at the ranks of the relevant (positive) documents. -/
def sumPrecisions (l : List K) : K :=
  ∑ i : Fin l.length, if 0 < l[i] then
    ((l.take (i + 1)).countP (fun v => decide (0 < v)) : K) / ((i : Nat) + 1 : K) else 0

end

/-- Discounted cumulative gain. -/
noncomputable def dcg (g : ℝ → ℝ) (l : List ℝ) : ℝ :=
  ∑ i : Fin l.length, g l[i] / Real.logb 2 ((i : Nat) + 2)

/-- Probability that a user who scans the ranking and stops at a document of label `v` with probability
`u v` reaches and stops at rank `i`. -/
noncomputable def stopAt (u : ℝ → ℝ) (l : List ℝ) (i : Fin l.length) : ℝ :=
  ((l.take i).map (fun v => 1 - u v)).prod * u l[i]

/-- Expected reciprocal (1-based) stopping rank. -/
noncomputable def err (u : ℝ → ℝ) (l : List ℝ) : ℝ :=
  ∑ i : Fin l.length, stopAt u l i * (1 / ((i : Nat) + 1))

/-- Probability of stopping when, besides, the user goes on from each rank to the next with probability `c`. -/
noncomputable def pfound (c : ℝ) (u : ℝ → ℝ) (l : List ℝ) : ℝ :=
  ∑ i : Fin l.length, stopAt u l i * c ^ (i : Nat)

end Verif.Spec
