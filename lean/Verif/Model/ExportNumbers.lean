/-
Model of how `export_scikit_model` writes numbers (rankeval/model/proxy_ScikitLearn.py 193-194, 214 and 221): `%f` for thresholds, base score and
learning rate, `%s` for leaves.

The numbers are finite double precision numbers: a sign and an exact absolute value. Simplified: infinities and NaN are left out; `%s` is a parameter,
because the number of digits depends on the version of Python and NumPy, and `percentG` is what Python 2 does except for the `.0` it adds to integers.
-/
import Verif.Model.ReprText
import Verif.Model.DumpText

namespace Verif.Decimal
open Binary32 Svm

/-- Millionths: the absolute value in units of 10^-6, rounded. -/
def millionths (v : Bool × ℚ) : Nat := (nearest (v.2 * 10 ^ 6)).natAbs

/-- Six digits, with zeros in front. -/
def sixDigits (n : Nat) : List Char := List.replicate (6 - (decimal n).length) '0' ++ decimal n

/-- `'%f' % v`. -/
def percentF (v : Bool × ℚ) : List Char :=
  signText v.1 ++ (decimal (millionths v / 10 ^ 6) ++ '.' :: sixDigits (millionths v % 10 ^ 6))

/-- `'%.12g' % v`. -/
def percentG (v : Bool × ℚ) : List Char :=
  signText v.1 ++ (if v.2 = 0 then ['0'] else general (-4) 12 (firstDigits 12 v.2).1 (firstDigits 12 v.2).2)

/-- The printer of `export_scikit_model`, for trees with one output. -/
def skPrinter (showS : Bool × ℚ → List Char) : Ensemble.Printer (Bool × ℚ) := ⟨percentF, showS, fun _ => 0⟩

end Verif.Decimal
