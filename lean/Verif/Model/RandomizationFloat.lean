/-
Model of the randomization test of `rankeval/analysis/statistical.py` in floating point: the values of the metrics are arrays of type float32, so that means
and sums are float32; the division by `N`, a Python float, is float64, and so are the means after the exchange and their difference.

Simplified: infinity and NaN are one value (`none`), for which all comparisons are false; the counters are exact, which is so below 2^53.
-/
import Verif.Model.SquaresFloat
import Verif.Model.Statistical

namespace Verif.Stat
open Metrics

/-- `np.mean` of a vector of type float32 that is not empty. -/
def meanSingle (dbl : ℚ → ℚ) (xs : List (Option Int)) : Option Int := divSingle dbl (pairwiseSum Binary32.ops xs) xs.length

/-- The number, as float64. -/
def value : Option Int → Option ℚ := Option.map (fun v => (v : ℚ) / 2 ^ 149)

/-- Division of a float32 number by a Python float: float64. -/
def divDouble (dbl : ℚ → ℚ) (a : Option Int) (n : Nat) : Option ℚ := (value a).map (fun v => dbl (v / n))

/-- Difference of float64 numbers. -/
def subDouble (dbl : ℚ → ℚ) : Option ℚ → Option ℚ → Option ℚ
  | some a, some b => some (dbl (a - b))
  | _, _ => none

/-- statistical.py 154-165: the difference of the means after exchanging the selected scores. -/
def swapDeltaFloat (dbl : ℚ → ℚ) (best worst : List (Option Int)) (sel : List Bool) : Option ℚ :=
  let aSum := pairwiseSum Binary32.ops best
  let bSum := pairwiseSum Binary32.ops worst
  let aSel := pairwiseSum Binary32.ops (maskSelect best sel)
  let bSel := pairwiseSum Binary32.ops (maskSelect worst sel)
  let aMean := divDouble dbl (Binary32.add (subSingle aSum aSel) bSel) best.length
  let bMean := divDouble dbl (Binary32.add (subSingle bSum bSel) aSel) best.length
  subDouble dbl aMean bMean

/-- A comparison: false for NaN. -/
def compareFloat (r : ℚ → ℚ → Bool) : Option ℚ → Option ℚ → Bool
  | some a, some b => r a b
  | _, _ => false

/-- statistical.py 167-170: the two counters after one round. -/
def randStepFloat (dbl : ℚ → ℚ) (best worst : List (Option Int)) (difference : Option ℚ) (p : Nat × Nat) (sel : List Bool) : Nat × Nat :=
  let delta := swapDeltaFloat dbl best worst sel
  (if compareFloat (fun a b => decide (a ≥ b)) delta difference then p.1 + 1 else p.1,
   if compareFloat (fun a b => decide (|a| ≥ |b|)) delta difference then p.2 + 1 else p.2)

/-- statistical.py 129-179, `_randomization`. `sels` are the random subsets, `n_perm` of them. -/
def randomizationFloat (dbl : ℚ → ℚ) (a b : List (Option Int)) (sels : List (List Bool)) : Except PyErr (ℚ × ℚ) :=
  if sels = [] then .error .zeroDivisionError
  else if a.length ≠ b.length then .error .indexError
  else if a = [] then .ok (0, 0)
  else
    let less := compareFloat (fun x y => decide (x < y)) (value (meanSingle dbl a)) (value (meanSingle dbl b))
    let best := if less then b else a
    let worst := if less then a else b
    let p := sels.foldl (randStepFloat dbl best worst (value (subSingle (meanSingle dbl best) (meanSingle dbl worst)))) (0, 0)
    .ok (dbl ((p.1 : ℚ) / sels.length), dbl ((p.2 : ℚ) / sels.length))

end Verif.Stat
