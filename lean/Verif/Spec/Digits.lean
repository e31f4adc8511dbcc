/-
Specification of printing and reading numbers: nine significant digits, double and single precision.
-/
import Verif.Py.Float32
import Mathlib.Algebra.Order.Field.Rat
import Mathlib.Algebra.Order.Archimedean.Basic

namespace Verif.Spec

/-- The value of the single precision number with ordinal `k`. -/
def f32Val (k : Int) : ℚ := (f32 k : ℚ) / 2 ^ 149

/-- `x` is a finite double precision number. -/
def IsDouble (x : ℚ) : Prop := ∃ m e : Int, |m| < 2 ^ 53 ∧ -1074 ≤ e ∧ e ≤ 971 ∧ x = m * 2 ^ e

/-- `d` is `v` correctly rounded to `n` significant decimal digits (ties either way): _svmlight_format.cpp 403, `out.precision(9)`. -/
def Prints (n : Nat) (v d : ℚ) : Prop :=
  (v = 0 ∧ d = 0) ∨ ∃ m e : Int, d = m * 10 ^ e ∧ 10 ^ (n - 1 : Nat) * 10 ^ e ≤ |v| ∧ |v| < 10 ^ n * 10 ^ e ∧ |d - v| ≤ 10 ^ e / 2

/-- `r` is the double precision number nearest to `d` (ties either way): `%lf`. -/
def ReadsDouble (d r : ℚ) : Prop := IsDouble r ∧ ∀ x, IsDouble x → |r - d| ≤ |x - d|

/-- `r` is narrowed to the single precision number `k`: it does not overflow to infinity, and `k` is a nearest number. -/
def Narrows (r : ℚ) (k : Int) : Prop :=
  F32Finite k ∧ |r| < 2 ^ 128 - 2 ^ 103 ∧ ∀ j, F32Finite j → |f32Val k - r| ≤ |f32Val j - r|

end Verif.Spec
