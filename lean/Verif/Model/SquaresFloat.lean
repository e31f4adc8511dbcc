/-
Model of MSE (`rankeval/metrics/mse.py`) and RMSE (`rankeval/metrics/rmse.py`) in floating point: labels and predictions are of type float32, so the
differences, the squares and the sums of a query are float32 as well; `** 2.0` of an array is the product of the number with itself. The sum of a query is
divided by an integer in float64 and stored as float32 (`div`).
-/
import Verif.Model.MeanFloat
import Verif.Model.Metrics

namespace Verif.Metrics
variable {F R : Type}

/-- mse.py 89 and 91: `(y - y_pred) ** 2`; `sub` is the difference. -/
def squareFloat (ops : FloatOps F) (sub : F → F → F) (a b : F) : F := ops.mul (sub a b) (sub a b)

/-- mse.py 87-91, `MSE.eval_per_query`. -/
def mseFloat (ops : FloatOps F) (sub : F → F → F) (sort : List F → List Nat) (cutoff : Option Int) (y yPred : List F) : F :=
  match cutoff with
  | some _ =>
    let idx := topIdx sort cutoff yPred
    pairwiseSum ops (List.zipWith (squareFloat ops sub) (gather y idx) (gather yPred idx))
  | none => pairwiseSum ops (List.zipWith (squareFloat ops sub) y yPred)

/-- rmse.py 80-81, `RMSE.eval_per_query`; `root` is the float32 square root. -/
def rmseFloat (ops : FloatOps F) (sub : F → F → F) (root : F → F) (sort : List F → List Nat) (cutoff : Option Int) (y yPred : List F) : F :=
  root (mseFloat ops sub sort cutoff y yPred)

/-- mse.py 61-63: the loop of `MSE.eval`; the position written is the query id. -/
def mseLoopFloat (share : List F → List F → F) : List (Int × List F × List F) → List F → Except PyErr (List F)
  | [], a => .ok a
  | (qid, qy, qs) :: rest, a => do
    let a' ← pySet a qid (share qy qs)
    mseLoopFloat share rest a'

/-- mse.py 59-64, `MSE.eval`. -/
def mseEvalFloat (ops : FloatOps F) (sub : F → F → F) (div : F → Nat → F) (sort : List F → List Nat) (cutoff : Option Int) (d : Dataset R F)
    (yPred : List F) : Except PyErr (F × List F) := do
  let det ← mseLoopFloat (fun y s => div (mseFloat ops sub sort cutoff y s) d.nInstances) (queryIter d yPred) (List.replicate d.nQueries ops.zero)
  pure (pairwiseSum ops det, det)

/-- The difference of float32 numbers. -/
def subSingle : Option Int → Option Int → Option Int
  | some a, some b => Binary32.round ((a - b : Int) : ℚ)
  | _, _ => none

end Verif.Metrics
