/-
Specification of decimal numbers in texts.
-/
import Verif.Spec.Svmlight
import Verif.Spec.Digits

namespace Verif.Spec

/-- An optional sign. -/
def SignText (s : List Char) (neg : Bool) : Prop := (s = [] ∧ neg = false) ∨ (s = ['+'] ∧ neg = false) ∨ (s = ['-'] ∧ neg = true)

/-- Digits with an optional point: the number `n` without the point, of which `k` digits are behind it. -/
def MantissaText (s : List Char) (n k : Nat) : Prop :=
  (Numeral s n ∧ k = 0) ∨ ∃ ds fs, s = ds ++ '.' :: fs ∧ Numeral (ds ++ fs) n ∧ k = fs.length

/-- An optional exponent. -/
def ExponentText (s : List Char) (e : Int) : Prop :=
  (s = [] ∧ e = 0) ∨ ∃ c sg neg ds n, s = c :: (sg ++ ds) ∧ (c = 'e' ∨ c = 'E') ∧ SignText sg neg ∧ Numeral ds n ∧ e = if neg then -(n : Int) else n

/-- A decimal number with sign `neg` and absolute value `q`. -/
def DecimalText (s : List Char) (neg : Bool) (q : ℚ) : Prop :=
  ∃ sg m ex n k e, s = sg ++ m ++ ex ∧ SignText sg neg ∧ MantissaText m n k ∧ ExponentText ex e ∧ q = n * 10 ^ (e - k)

/-- `m` units of 2^-149 are a finite single precision number: at most 24 significant bits, below 2^128. -/
def IsMagnitude (m : Nat) : Prop := ∃ k e, m = k * 2 ^ e ∧ k < 2 ^ 24 ∧ e ≤ 253

end Verif.Spec
