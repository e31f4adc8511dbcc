/-
Model of DCG and NDCG (`rankeval/metrics/dcg.py`, `rankeval/metrics/ndcg.py`) in floating point: labels are float32, the discounts and the sum are float64,
the ideal scores are stored in an array of type float32.

Simplified: numbers are the rational numbers they stand for, without overflow of float64; `log2 k` is the number that numpy computes for the logarithm of `k`,
`exp2 v` the float32 number that numpy computes for `2 ^ v`. The ideal score is computed for each query, not looked up (C17).
-/
import Verif.Model.Metrics
import Verif.Model.MeanFloat
import Verif.Model.DecimalText

namespace Verif.Metrics
open Decimal

/-- The arithmetic of float64. -/
def doubleOps : FloatOps ℚ where
  zero := 0
  add := fun a b => double (a + b)
  mul := fun a b => double (a * b)
  le := fun a b => decide (a ≤ b)
  sum := fun l => l.foldl (fun a b => double (a + b)) 0
  isOne := fun a => decide (a = 1)
  isZero := fun a => decide (a = 0)

/-- dcg.py 93-96: the gain of a float32 label; `np.exp2(y) - 1.0` is computed in float32. -/
def gainFloat (exp2 : ℚ → ℚ) : Impl → Except PyErr (ℚ → ℚ)
  | .flat => .ok (fun v => v)
  | .exp => .ok (fun v => (Binary32.grid ((exp2 v - 1) * 2 ^ 149) : ℚ) / 2 ^ 149)
  | .other => .error .unboundLocalError

/-- dcg.py 87-99, `DCG.eval_per_query`: the quotients and the sum are float64. -/
def dcgFloat {S : Type} (log2 : Nat → ℚ) (exp2 : ℚ → ℚ) (sort : List S → List Nat) (cutoff : Option Int) (impl : Impl) (y : List ℚ) (yPred : List S) :
    Except PyErr ℚ := do
  let idx := topIdx sort cutoff yPred
  let discount := (List.range' 2 idx.length).map log2
  let g ← gainFloat exp2 impl
  let gain := (gather y idx).map g
  pure (pairwiseSum doubleOps (List.zipWith (fun a b => double (a / b)) gain discount))

/-- ndcg.py 131-135: the float64 score over the float32 ideal score; a finite number over infinity is 0. -/
def ratioFloat (noRelevantResults dcgScore : ℚ) : Option Int → ℚ
  | some k => if k ≠ 0 then double (dcgScore / ((k : ℚ) / 2 ^ 149)) else noRelevantResults
  | none => 0

/-- ndcg.py 90-93 and 122-135, called by `eval`. -/
def ndcgFloat {S : Type} (log2 : Nat → ℚ) (exp2 : ℚ → ℚ) (sort : List S → List Nat) (sortY : List ℚ → List Nat) (cutoff : Option Int) (impl : Impl)
    (noRelevantResults : ℚ) (y : List ℚ) (yPred : List S) : Except PyErr ℚ := do
  let idcgScore ← dcgFloat log2 exp2 sortY cutoff impl y y
  let dcgScore ← dcgFloat log2 exp2 sort cutoff impl y yPred
  pure (ratioFloat noRelevantResults dcgScore (toSingle idcgScore))

end Verif.Metrics
