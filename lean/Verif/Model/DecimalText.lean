/-
Model of the printing and reading of single precision numbers by the C++ library, as used in `rankeval/dataset/_svmlight_format.cpp`, and of the Python
functions `float` and `repr` as used by the readers and writers of models.

Simplified: hexadecimal numbers, locales and the payload of NaN are left out; a double that overflows is kept as it is, which makes no difference since it
is converted to single precision next.
-/
import Verif.Py.Binary32
import Verif.Model.Svmlight

namespace Verif.Decimal
open Binary32 Svm

/-- Single precision numbers: a sign and a magnitude in units of 2^-149, infinities and NaN. -/
inductive Single where
  | num (neg : Bool) (m : Nat)
  | inf (neg : Bool)
  | nan (neg : Bool)
  deriving DecidableEq, Repr

/-- An optional sign and the rest. -/
def sign : List Char → Bool × List Char
  | '-' :: s => (true, s)
  | '+' :: s => (false, s)
  | s => (false, s)

/-- The digits after a point, and the rest. -/
def fraction : List Char → List Char × List Char
  | '.' :: s => (s.takeWhile isDigit, s.dropWhile isDigit)
  | s => ([], s)

/-- The digits of an exponent; at least one is needed. -/
def exponentDigits (neg : Bool) (s : List Char) : Option (Int × List Char) :=
  if s.takeWhile isDigit = [] then none
  else some (if neg then -(digitsValue (s.takeWhile isDigit) : Int) else digitsValue (s.takeWhile isDigit), s.dropWhile isDigit)

/-- The exponent, 0 if there is none. -/
def exponent : List Char → Option (Int × List Char)
  | [] => some (0, [])
  | c :: s => if c = 'e' ∨ c = 'E' then exponentDigits (sign s).1 (sign s).2 else some (0, c :: s)

/-- A decimal number without sign, and the rest. -/
def scanNumber (s : List Char) : Option (ℚ × List Char) :=
  let ds := s.takeWhile isDigit
  let f := fraction (s.dropWhile isDigit)
  if ds ++ f.1 = [] then none
  else (exponent f.2).map (fun e => ((digitsValue (ds ++ f.1) : ℚ) * 10 ^ (e.1 - (f.1.length : Int)), e.2))

/-- The rounding to double precision. -/
def double (x : ℚ) : ℚ :=
  let e := max (Int.log 2 |x| - 52) (-1074)
  nearest (x / 2 ^ e) * 2 ^ e

/-- The conversion to single precision. -/
def single (neg : Bool) (x : ℚ) : Single :=
  match Binary32.round (x * 2 ^ 149) with
  | some k => .num neg k.natAbs
  | none => .inf neg

/-- `in >> y` with `float y` (_svmlight_format.cpp 258): numbers too large and texts like `inf` and `nan` are refused. -/
def readLabel (s : List Char) : Option (Single × List Char) :=
  match scanNumber (sign s).2 with
  | none => none
  | some (x, rest) =>
    match single (sign s).1 x with
    | .num neg m => some (.num neg m, rest)
    | _ => none

/-- `inf`, `infinity` and `nan`, in any case, as accepted by `%lf` and by `float`. -/
def special (neg : Bool) (s : List Char) : Option (Single × List Char) :=
  if (s.take 3).map Char.toLower = "nan".toList then some (.nan neg, s.drop 3)
  else if (s.take 8).map Char.toLower = "infinity".toList then some (.inf neg, s.drop 8)
  else if (s.take 3).map Char.toLower = "inf".toList then some (.inf neg, s.drop 3)
  else none

/-- A double precision number converted to single precision, and the rest of the text. -/
def scanDouble (s : List Char) : Option (Single × List Char) :=
  match special (sign s).1 (sign s).2 with
  | some r => some r
  | none => (scanNumber (sign s).2).map (fun p => (single (sign s).1 (double p.1), p.2))

/-- `sscanf(token, "...%lf", &x)` and the conversion by `data.push_back(x)` (_svmlight_format.cpp 285-291). -/
def readValue (s : List Char) : Option Single := (scanDouble s).map (·.1)

/-- The largest finite number. -/
def maxFinite : Nat := (2 ^ 24 - 1) * 2 ^ 253

/-- svmlight_format.py 96: only positive infinity is replaced. -/
def fixInf : Single → Single
  | .inf false => .num false maxFinite
  | x => x

/-- The functions of the reader, for single precision numbers. -/
def singleScan : Scan Single := ⟨.num false 0, readLabel, readValue, fixInf⟩

/-- Zeros at the end are not printed. -/
def strip (s : List Char) : List Char := (s.reverse.dropWhile (· = '0')).reverse

/-- No point without digits after it. -/
def withPoint (a b : List Char) : List Char := if b = [] then a else a ++ '.' :: b

/-- Exponents are printed with at least two digits. -/
def twoDigits (n : Nat) : List Char := if n < 10 then '0' :: decimal n else decimal n

/-- The first `p` digits of a positive number, rounded, and the decimal exponent of the first. -/
def firstDigits (p : Nat) (v : ℚ) : Nat × Int :=
  let x := Int.log 10 v
  let n := (nearest (v * 10 ^ ((p : Int) - 1 - x))).toNat
  if n = 10 ^ p then (10 ^ (p - 1), x + 1) else (n, x)

/-- Mantissa and exponent, or a plain decimal number if the exponent `x` is from `lo` to `hi - 1`. -/
def general (lo hi : Int) (n : Nat) (x : Int) : List Char :=
  let ds := decimal n
  if x < lo ∨ hi ≤ x then
    withPoint (ds.take 1) (strip (ds.drop 1)) ++ 'e' :: (if x < 0 then '-' else '+') :: twoDigits x.natAbs
  else if x < 0 then '0' :: '.' :: (List.replicate (-x - 1).toNat '0' ++ strip ds)
  else withPoint (ds.take (x.toNat + 1)) (strip (ds.drop (x.toNat + 1)))

def signText (neg : Bool) : List Char := if neg then ['-'] else []

/-- `out << x` with `out.precision(9)` (_svmlight_format.cpp 404, 410-416), which is `%.9g`. -/
def showSingle : Single → List Char
  | .num neg m => signText neg ++ if m = 0 then ['0'] else general (-4) 9 (firstDigits 9 (m / 2 ^ 149)).1 (firstDigits 9 (m / 2 ^ 149)).2
  | .inf neg => signText neg ++ "inf".toList
  | .nan neg => signText neg ++ "nan".toList

end Verif.Decimal
