/-
Model of the averages of `Metric.eval` (`rankeval/metrics/metric.py`) in floating point: the array of the values is of type float32.

The summation is the pairwise summation of numpy for contiguous arrays (`pairwise_sum` of numpy/core/src/umath/loops.c.src): less than 8 numbers are
added from the left, up to 128 numbers in 8 interleaved sums, more numbers are split in two parts. Simplified: the first number is added to 0.
-/
import Verif.Model.Eval
import Verif.Model.Ensemble
import Verif.Py.Binary32

namespace Verif.Metrics
open Ensemble
variable {F V R L S : Type}

/-- The loop over blocks of 8 numbers with 8 sums; what is left are less than 8 numbers. -/
def eightSums (ops : FloatOps F) (r : List F) (l : List F) : List F × List F :=
  if 8 ≤ l.length then eightSums ops (List.zipWith ops.add r (l.take 8)) (l.drop 8) else (r, l)
termination_by l.length
decreasing_by simp; omega

/-- `((r[0] + r[1]) + (r[2] + r[3])) + ((r[4] + r[5]) + (r[6] + r[7]))`. -/
def addEight (ops : FloatOps F) : List F → F
  | [a, b, c, d, e, f, g, h] => ops.add (ops.add (ops.add a b) (ops.add c d)) (ops.add (ops.add e f) (ops.add g h))
  | _ => ops.zero

/-- `pairwise_sum` for at most 128 numbers. -/
def blockSum (ops : FloatOps F) (l : List F) : F :=
  if l.length < 8 then l.foldl ops.add ops.zero
  else
    let p := eightSums ops (l.take 8) (l.drop 8)
    p.2.foldl ops.add (addEight ops p.1)

/-- The size of the first part: half of the numbers, rounded down to a multiple of 8. -/
def firstPart (n : Nat) : Nat := n / 2 - n / 2 % 8

/-- `pairwise_sum`. -/
def pairwiseSum (ops : FloatOps F) (l : List F) : F :=
  if l.length ≤ 128 then blockSum ops l
  else ops.add (pairwiseSum ops (l.take (firstPart l.length))) (pairwiseSum ops (l.drop (firstPart l.length)))
termination_by l.length
decreasing_by
  · simp only [List.length_take, firstPart]; omega
  · simp only [List.length_drop, firstPart]; omega

/-- `np.nanmean` of a float32 array: NaN (`none`) is replaced by 0, the sum is divided by the number of the others. -/
def nanmeanFloat (ops : FloatOps F) (div : F → Nat → F) (l : List (Option F)) : Option F :=
  if l.countP (·.isSome) = 0 then none
  else some (div (pairwiseSum ops (l.map (fun v => v.elim ops.zero id))) (l.countP (·.isSome)))

/-- metric.py 65-70, `Metric.eval`: `V` are the numbers computed by `eval_per_query` (usually float64), `F` is float32. -/
def metricEvalFloat (ops : FloatOps F) (store : V → F) (div : F → Nat → F) (evalQ : List L → List S → Except PyErr (Option V)) (d : Dataset R L)
    (yPred : List S) : Except PyErr (Option F × List (Option F)) := do
  let det ← evalLoop id (fun y s => (evalQ y s).map (Option.map store)) 0 (queryIter d yPred) (List.replicate d.nQueries (some ops.zero))
  pure (nanmeanFloat ops div det, det)

/-- The conversion of a float64 number to float32. -/
def toSingle (x : ℚ) : Option Int := Binary32.round (x * 2 ^ 149)

/-- The division of a float32 number by an int64 number: computed in float64 (`dbl` is the rounding), then converted. -/
def divSingle (dbl : ℚ → ℚ) : Option Int → Nat → Option Int
  | some a, n => toSingle (dbl ((a : ℚ) / 2 ^ 149 / n))
  | none, _ => none

end Verif.Metrics
