/-
Model of `avg_tree_shape` and `fullness_per_level` (`rankeval/analysis/topological.py`) in floating point.

The counts of the matrix are float32. Scipy divides a sparse matrix by a number as `self.astype(float64)._mul_scalar(1. / other)` (`_divide` of
scipy/sparse/base.py), so a cell is the count multiplied with the rounded reciprocal of the number of trees. The row sums are float32, and their
quotients by int32 and int numbers are float64. Simplified: numbers are the rational numbers they stand for; the row sums are added without
intermediate roundings, which is so up to 2^24.
-/
import Verif.Model.TopologyResult
import Verif.Model.DecimalText
import Verif.Py.Binary32

namespace Verif.Ensemble
open Decimal

/-- The conversion to float32 of a number below 2^128. -/
def toFloat32 (x : ℚ) : ℚ := (Binary32.grid (x * 2 ^ 149) : ℚ) / 2 ^ 149

/-- topological.py 122: a cell of `avg_tree_shape`; _efficient_topological.pyx 72 for the type of the counts. -/
def avgShapeFloat (top : List Entry) (nTrees row col : Nat) : ℚ := double (toFloat32 (cell top row col) * double (1 / nTrees))

/-- topological.py 141-143: one number of `fullness_per_level`. -/
def fullnessFloat (top : List Entry) (nTrees row : Nat) : ℚ :=
  let es := top.filter (fun e => e.row = row)
  double (double (toFloat32 ((es.map Entry.count).sum : Nat) / es.length) / nTrees)

end Verif.Ensemble
