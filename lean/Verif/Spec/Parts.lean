/-
What is said about the parts of a dataset.
-/
import Mathlib.Algebra.Field.Defs
import Mathlib.Algebra.BigOperators.Group.List.Basic

namespace Verif.Spec

/-- The entries of `a` that belong to the rows of the queries in `Q`, in order. -/
def ofQueries {α : Type} (Q ids : List Int) (a : List α) : List α :=
  ((ids.zip a).filter (fun p => decide (p.1 ∈ Q))).map (·.2)

/-- The mean of all values, from the mean of each part and the number of values in it. NaN (`none`) if there is no value at all. -/
def weightedMean {K : Type} [Field K] (parts : List (Option K × Nat)) : Option K :=
  if (parts.map (·.2)).sum = 0 then none
  else some ((parts.map (fun p => p.1.getD 0 * (p.2 : K))).sum / (((parts.map (·.2)).sum : Nat) : K))

/-- The number of values that are not NaN. -/
def numbers {K : Type} (l : List (Option K)) : Nat := (l.filter Option.isSome).length

/-- The mean of the values that are not NaN. -/
def meanOf {K : Type} [Field K] (l : List (Option K)) : Option K :=
  if numbers l = 0 then none else some ((l.map (·.getD 0)).sum / (numbers l : K))

/-- A metric on a dataset: the query ids, the average and the values of the queries. -/
structure Result (K : Type) where
  queries : List Int
  avg : Option K
  det : List (Option K)
  deriving DecidableEq, Repr

/-- The parts give the result for the whole: each query has the same value in its part and in the whole, each query is in one part only, and the average
of the whole is the mean of the averages of the parts, weighted by the number of values in them. -/
structure Agrees {K : Type} [Field K] (whole : Result K) (parts : List (Result K)) : Prop where
  aligned : ∀ p ∈ parts, p.det.length = p.queries.length
  values : (parts.flatMap (fun p => p.queries.zip p.det)).Perm (whole.queries.zip whole.det)
  average : whole.avg = weightedMean (parts.map (fun p => (p.avg, numbers p.det)))

/-- Documents (pairs of label and score) with the same score have the same label. -/
def TiesEqual {L S : Type} (docs : List (L × S)) : Prop := ∀ p ∈ docs, ∀ p' ∈ docs, p.2 = p'.2 → p.1 = p'.1

end Verif.Spec
