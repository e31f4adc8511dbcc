/-
Model of ERR (`rankeval/metrics/err.py`), Pfound (`rankeval/metrics/pfound.py`) and RBP (`rankeval/metrics/rbp.py`) in floating point. The loops compute in
float64: a label is a float32 number, and the power of the Python float 2.0 with it is float64 for numpy before version 2. `eval` stores the results in an
array of type float32 (metrics/metric.py 64-69).

Simplified: numbers are the rational numbers they stand for; `pow2` is the computed `pow(2., ·)`, and `pw i` the computed power with the integer `i`.
-/
import Verif.Model.Metrics
import Verif.Model.MeanFloat
import Verif.Model.NdcgFloat

namespace Verif.Metrics
open Decimal

/-- err.py 93 and pfound.py 107: `(pow(2., y[idx]) - 1.) / pow(2., max_grade)`. -/
def utilityFloat (pow2 : ℚ → ℚ) (maxGrade v : ℚ) : ℚ := double (double (pow2 v - 1) / pow2 maxGrade)

/-- err.py 89-95: the loop, as `errLoop`; the state is `(i, prob_step_down, err)`. -/
def errLoopFloat (pow2 : ℚ → ℚ) (maxGrade : ℚ) (labels : List ℚ) : Nat × ℚ × ℚ :=
  labels.foldl (fun st v =>
    let u := utilityFloat pow2 maxGrade v
    (st.1 + 1, double (st.2.1 * double (1 - u)), double (st.2.2 + double (st.2.1 * double (u / ((st.1 : ℚ) + 1)))))) (0, 1, 0)

/-- err.py 84-97, `ERR.eval_per_query`. -/
def errFloat {S : Type} (pow2 : ℚ → ℚ) (sort : List S → List Nat) (cutoff : Option Int) (y : List ℚ) (yPred : List S) : Except PyErr ℚ := do
  let idx := topIdx sort cutoff yPred
  let maxGrade ← npMax y
  pure (errLoopFloat pow2 maxGrade (gather y idx)).2.2

/-- pfound.py 103-109: the loop, as `pfoundLoop`; the state is `(i, prob_step_down, pfound)`. -/
def pfoundLoopFloat (pow2 : ℚ → ℚ) (pw : Nat → ℚ) (maxGrade : ℚ) (labels : List ℚ) : Nat × ℚ × ℚ :=
  labels.foldl (fun st v =>
    let u := utilityFloat pow2 maxGrade v
    (st.1 + 1, double (st.2.1 * double (1 - u)), double (st.2.2 + double (double (st.2.1 * u) * pw st.1)))) (0, 1, 0)

/-- pfound.py 98-111, `Pfound.eval_per_query`. -/
def pfoundFloat {S : Type} (pow2 : ℚ → ℚ) (pw : Nat → ℚ) (sort : List S → List Nat) (cutoff : Option Int) (y : List ℚ) (yPred : List S) :
    Except PyErr ℚ := do
  let idx := topIdx sort cutoff yPred
  let maxGrade ← npMax y
  pure (pfoundLoopFloat pow2 pw maxGrade (gather y idx)).2.2

/-- rbp.py 113-121, `RBP.eval_per_query`: the products with booleans are exact, the sum is pairwise. -/
def rbpFloat {S : Type} (pw : Nat → ℚ) (sort : List S → List Nat) (cutoff : Option Int) (threshold p : ℚ) (y : List ℚ) (yPred : List S) : ℚ :=
  let idx := topIdx sort cutoff yPred
  let discount := (List.range idx.length).map pw
  let gain : List ℚ := (gather y idx).map (fun v => if v ≥ threshold then 1 else 0)
  double (double (1 - p) * pairwiseSum doubleOps (List.zipWith (· * ·) gain discount))

end Verif.Metrics
