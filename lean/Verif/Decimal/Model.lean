import Verif.Rounding.Model
import Verif.Csv.Model
import Verif.Hermite.WriteModel

/-!
# Decimal output and input of numbers

The files written by the library hold numbers printed by `fprintf("%lf")` (`curves/src/CubicHermiteE3Curve.cpp`
70-72, `curves/src/CubicHermiteSE3Curve.cpp` 73-77) or by `ostringstream << double` (`curves/src/helpers.cpp`
14-17), and are read with `atof` (`curves/src/helpers.cpp` 74-78) or MATLAB's `textscan`
(`curves/matlab/readCubicHermiteSE3Curve.m` 40). These are functions of the C library (and of MATLAB), modelled
here in the C locale as the C standard describes them, for finite numbers. Left out: infinities and NaN, the
sign of a negative zero; leading spaces, `inf`, `nan` and hexadecimal numbers in `atof`.
-/

set_option linter.unusedSectionVars false
set_option linter.dupNamespace false

namespace Verif.Decimal

open Verif.Csv Verif.Rounding

/-- The character of the last digit of `d`. -/
def digit (d : ℕ) : Char := Char.ofNat (48 + d % 10)

/-- The last `w` digits of `n`. -/
def pad : ℕ → ℕ → Str
  | 0, _ => []
  | w + 1, n => pad w (n / 10) ++ [digit n]

/-- A natural number without leading zeros. -/
def nat (n : ℕ) : Str := pad (Nat.log 10 n + 1) n

/-- The sign printed in front of a number. -/
def sign {K : Type} [Field K] [LinearOrder K] (x : K) : Str := if x < 0 then ['-'] else []

section
variable {K : Type} [Field K] [LinearOrder K] [FloorRing K]

/-- `%lf` (CubicHermiteE3Curve.cpp:70-72, CubicHermiteSE3Curve.cpp:73-77): six decimals, rounded to nearest,
ties to even. -/
def fixed (x : K) : Str :=
  let n := (roundEven (|x| * 10 ^ 6)).toNat
  sign x ++ (nat (n / 10 ^ 6) ++ '.' :: pad 6 n)

/-- Six significant digits and the decimal exponent of a positive number, rounded to nearest, ties to even. -/
def sci (x : K) : ℕ × ℤ :=
  let e := Int.log 10 x
  let m := (roundEven (x / 10 ^ (e - 5))).toNat
  if m = 10 ^ 6 then (10 ^ 5, e + 1) else (m, e)

/-- A string without its trailing zeros. -/
def strip (s : Str) : Str := (s.reverse.dropWhile (· = '0')).reverse

/-- The fraction: a point and the digits without trailing zeros; nothing if there are only zeros. -/
def frac (s : Str) : Str := if strip s = [] then [] else '.' :: strip s

/-- The digits of `%g`, six significant digits `m`, decimal exponent `e`. -/
def layout (m : ℕ) (e : ℤ) : Str :=
  if e < -4 ∨ 6 ≤ e then
    (pad 6 m).take 1 ++ frac ((pad 6 m).drop 1) ++
      'e' :: (if e < 0 then '-' else '+') :: pad (max 2 (Nat.log 10 e.natAbs + 1)) e.natAbs
  else if e < 0 then '0' :: frac (List.replicate (-1 - e).toNat '0' ++ pad 6 m)
  else (pad 6 m).take (e.toNat + 1) ++ frac ((pad 6 m).drop (e.toNat + 1))

/-- `toString<double>` (`helpers.cpp` 14-17): `ostringstream` with its default format, which is `%g`. -/
def general (x : K) : Str :=
  if x = 0 then ['0'] else sign x ++ layout (sci |x|).1 (sci |x|).2

end

/-- Is it a decimal digit. -/
def isDigit (c : Char) : Bool := 48 ≤ c.toNat && c.toNat ≤ 57

/-- The number written by a string of digits. -/
def value (s : Str) : ℕ := s.foldl (fun n c => 10 * n + (c.toNat - 48)) 0

/-- The optional fraction at the beginning of a string, and what follows it. -/
def splitFrac : Str → Str × Str
  | '.' :: r => (r.takeWhile isDigit, r.dropWhile isDigit)
  | r => ([], r)

/-- The optional exponent at the beginning of a string. -/
def exponent : Str → ℤ
  | 'e' :: '-' :: r => -(value (r.takeWhile isDigit) : ℤ)
  | 'e' :: '+' :: r => value (r.takeWhile isDigit)
  | 'e' :: r => value (r.takeWhile isDigit)
  | _ => 0

/-- The value of an unsigned decimal number: the longest beginning that is one, the rest is ignored. -/
def unsigned {K : Type} [Field K] (s : Str) : K :=
  let f := splitFrac (s.dropWhile isDigit)
  (value (s.takeWhile isDigit ++ f.1) : K) * 10 ^ (exponent f.2 - (f.1.length : ℤ))

/-- `atof` (`helpers.cpp` 74, 76, 120-123) without the final rounding to `double`: the decimal number a string
begins with. -/
def decimal {K : Type} [Field K] : Str → K
  | '-' :: s => -unsigned s
  | '+' :: s => unsigned s
  | s => unsigned s

/-- `textscan` (readCubicHermiteSE3Curve.m:12-40): after one header line, the first 14 numbers of every line, which
are separated by one or more spaces. `none`: a line with fewer numbers (what MATLAB does then is not modelled). -/
def readCurve {K : Type} [Field K] (text : Str) : Option (List (List K)) :=
  ((getlines '\n' none text).drop 1).mapM fun line =>
    let f := (getlines ' ' none line).filter (· ≠ [])
    if 14 ≤ f.length then some ((f.take 14).map decimal) else none

end Verif.Decimal
