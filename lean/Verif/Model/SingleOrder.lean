/-
Model of the comparison and of the arithmetic of single precision numbers, as in `rankeval/scoring/_efficient_scoring.pyx` 130 (`X[idx_instance, feature_idx] <= feature_threshold`,
both float32).
-/
import Verif.Model.DecimalText
import Verif.Model.Ensemble

namespace Verif.Decimal

/-- A sign and a magnitude as an integer: -0 is 0. -/
def signed (neg : Bool) (m : Nat) : Int := if neg then -(m : Int) else m

/-- `<=` of single precision numbers: false if one of them is NaN. -/
def singleLe : Single → Single → Bool
  | .nan _, _ => false
  | _, .nan _ => false
  | .inf true, _ => true
  | _, .inf false => true
  | .inf false, _ => false
  | _, .inf true => false
  | .num a m, .num b n => decide (signed a m ≤ signed b n)

/-- A decimal number (sign and absolute value) read in double precision and stored in single precision. -/
def narrow (p : Bool × ℚ) : Single := single p.1 (double p.2)

/-- The rounding of an exact result in units of 2^-149; `neg` is the sign of an exact zero. -/
def rounded (neg : Bool) (x : ℚ) : Single :=
  if x = 0 then .num neg 0
  else
    match Binary32.round x with
    | some k => .num (decide (x < 0)) k.natAbs
    | none => .inf (decide (x < 0))

/-- The sum. -/
def singleAdd : Single → Single → Single
  | .nan a, _ => .nan a
  | _, .nan b => .nan b
  | .inf a, .inf b => if a = b then .inf a else .nan false
  | .inf a, .num _ _ => .inf a
  | .num _ _, .inf b => .inf b
  | .num a m, .num b n => rounded (a && b) ((signed a m + signed b n : Int) : ℚ)

/-- The product. -/
def singleMul : Single → Single → Single
  | .nan a, _ => .nan a
  | _, .nan b => .nan b
  | .inf a, .inf b => .inf (a != b)
  | .inf a, .num b n => if n = 0 then .nan false else .inf (a != b)
  | .num a m, .inf b => if m = 0 then .nan false else .inf (a != b)
  | .num a m, .num b n => rounded (a != b) (((signed a m * signed b n : Int) : ℚ) / 2 ^ 149)

/-- The operations used by the scoring. Simplified: `np.sum` of a row adds from left to right. -/
def singleOps : FloatOps Single where
  zero := .num false 0
  add := singleAdd
  mul := singleMul
  le := singleLe
  sum := fun l => l.foldl singleAdd (.num false 0)
  isOne := fun x => decide (x = .num false (2 ^ 149))
  isZero := fun x => decide (x = .num false 0 ∨ x = .num true 0)

end Verif.Decimal
