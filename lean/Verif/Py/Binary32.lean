/-
Binary32 floating point numbers: the finite ones are the integers, in units of 2^-149, with at most 24 significant bits; `none` is infinity or NaN.

Simplified: infinities and NaN are one value; there is one zero; arithmetic is defined for all integers.
-/
import Mathlib.Data.Int.Log
import Mathlib.Data.Rat.Floor
import Verif.Model.Ensemble

namespace Verif.Binary32

/-- The nearest integer, the even one of two. -/
def nearest (x : ℚ) : Int :=
  let n := ⌊x⌋
  if x - n < 1 / 2 then n else if 1 / 2 < x - n then n + 1 else if n % 2 = 0 then n else n + 1

/-- The exponent of the unit in the last place: 24 bits, but nothing below the unit. -/
def ulp (x : ℚ) : Nat := (Int.log 2 |x| - 23).toNat

/-- The nearest number with 24 significant bits. -/
def grid (x : ℚ) : Int := nearest (x / 2 ^ ulp x) * 2 ^ ulp x

/-- Rounding; numbers from 2^128 on overflow. -/
def round (x : ℚ) : Option Int := if |grid x| < 2 ^ (128 + 149) then some (grid x) else none

def add : Option Int → Option Int → Option Int
  | some a, some b => round ((a + b : Int) : ℚ)
  | _, _ => none

def mul : Option Int → Option Int → Option Int
  | some a, some b => round ((a * b : Int) / 2 ^ 149)
  | _, _ => none

def le : Option Int → Option Int → Bool
  | some a, some b => decide (a ≤ b)
  | _, _ => false

/-- The arithmetic of the kernels; the sum of an array with less than eight elements is computed from the left. -/
def ops : FloatOps (Option Int) where
  zero := some 0
  add := add
  mul := mul
  le := le
  sum := List.foldl add (some 0)
  isOne := fun a => decide (a = some (2 ^ 149))
  isZero := fun a => decide (a = some 0)

end Verif.Binary32
