/-
Model of the text of single precision numbers in saved models (`rankeval/model/proxy_QuickRank.py`): `repr` of `numpy.float32` and the conversion of a
text that is stored in a float32 array, which goes through `float`, in double precision.

Simplified: white space around the number (removed by the callers) and underscores between digits, which `float` accepts, are left out.
-/
import Verif.Model.DecimalText

namespace Verif.Decimal
open Svm

/-- The number of digits behind the first that numpy prints: as few as tell the number from all others, rounded. -/
def moreDigits (m : Nat) : Nat :=
  match (List.range 8).find? (fun p =>
    single false ((firstDigits (p + 1) (m / 2 ^ 149)).1 * 10 ^ ((firstDigits (p + 1) (m / 2 ^ 149)).2 - p)) = .num false m) with
  | some p => p
  | none => 8

/-- A number in positional notation, with at least one digit behind the point. -/
def positional (n : Nat) (x : Int) : List Char :=
  let ds := decimal n
  if x < 0 then '0' :: '.' :: (List.replicate (-x - 1).toNat '0' ++ ds)
  else if x.toNat + 1 < ds.length then ds.take (x.toNat + 1) ++ '.' :: ds.drop (x.toNat + 1)
  else ds ++ List.replicate (x.toNat + 1 - ds.length) '0' ++ ['.', '0']

/-- `repr` of a positive `numpy.float32` (numpy 1.14 to 1.26): positional from 10^-4 up to 10^16, otherwise scientific. -/
def reprPositive (m : Nat) : List Char :=
  let d := firstDigits (moreDigits m + 1) (m / 2 ^ 149)
  if (1 : ℚ) / 10 ^ 4 ≤ m / 2 ^ 149 ∧ (m : ℚ) / 2 ^ 149 < 10 ^ 16 then positional d.1 d.2 else general 0 0 d.1 d.2

/-- `repr` of a `numpy.float32`. -/
def reprSingle : Single → List Char
  | .num neg m => signText neg ++ if m = 0 then "0.0".toList else reprPositive m
  | .inf neg => signText neg ++ "inf".toList
  | .nan _ => "nan".toList

/-- `repr` of a `numpy.float32` in numpy 1.13: `%.8g`, and `.0` behind integers. -/
def repr113 : Single → List Char
  | .num neg m =>
    let s := if m = 0 then ['0'] else general (-4) 8 (firstDigits 8 (m / 2 ^ 149)).1 (firstDigits 8 (m / 2 ^ 149)).2
    signText neg ++ if s.all isDigit then s ++ ['.', '0'] else s
  | .inf neg => signText neg ++ "inf".toList
  | .nan _ => "nan".toList

/-- `float`, with the conversion to single precision; the whole text must be a number. -/
def pyFloat (s : List Char) : Option Single :=
  match scanDouble s with
  | some (x, []) => some x
  | _ => none

end Verif.Decimal
