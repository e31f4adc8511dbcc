/-
What the effectiveness analyses should give.
-/
import Verif.Spec.Dataset
import Mathlib.Algebra.Field.Defs
import Mathlib.Data.List.Basic
import Mathlib.Data.List.ProdSigma
import Mathlib.Order.Defs.LinearOrder

namespace Verif.Spec

/-- Numbers of trees to evaluate: the multiples of `step` up to `n`, and `n`. -/
def treeCounts (step n : Nat) : List Nat :=
  (List.range (n / step)).map (fun i => (i + 1) * step) ++ (if n % step = 0 then [] else [n])

/-- Scores of the documents by the first `k` trees. -/
def prefixScores {K : Type} [AddMonoid K] (k : Nat) (partials : List (List K)) : List K := partials.map (fun r => (r.take k).sum)

variable {K : Type} [Field K] [LinearOrder K]

/-- Right edge of bin `i` when the range from `lo` to `hi` is cut into `bins` equal parts. -/
def rightEdge (lo hi : K) (bins i : Nat) : K := lo + ((i : K) + 1) * ((hi - lo) / (bins : K))

/-- Number of values from `lo` up to the right edge of bin `i`; the edge itself only counts for the last bin. -/
def below (xs : List K) (lo hi : K) (bins i : Nat) : Nat :=
  if i + 1 = bins then xs.countP (fun x => decide (lo ≤ x ∧ x ≤ hi))
  else xs.countP (fun x => decide (lo ≤ x ∧ x < rightEdge lo hi bins i))

/-- The values whose class is `c`. -/
def ofClass {C V : Type} [DecidableEq C] (classes : List C) (xs : List V) (c : C) : List V :=
  ((classes.zip xs).filter (fun p => decide (p.1 = c))).map (·.2)

/-- Mean, if there are values. -/
def mean? (xs : List K) : Option K := if xs = [] then none else some (xs.sum / (xs.length : K))

/-- Number of pairs of a document with label `a` and a document with label `b` of the same list, the first with the lower score. -/
def lowerPairs {L S : Type} [DecidableEq L] [LinearOrder S] (docs : List (L × S)) (a b : L) : Nat :=
  (docs ×ˢ docs).countP (fun p => decide (p.1.1 = a ∧ p.2.1 = b ∧ p.1.2 < p.2.2))

/-- The documents of a query: label and score. -/
abbrev docsOf {L S : Type} (q : Int) (ids : List Int) (y : List L) (yPred : List S) : List (L × S) := ofQuery q ids (y.zip yPred)

end Verif.Spec
