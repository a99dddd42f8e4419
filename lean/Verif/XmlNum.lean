/-
Numbers as the XML files hold them: `%d` and `%.9e` of printf, `atoi` and `atof`.

Doubles are rational numbers here: the rounding of `atof` to the nearest double is not modelled, nor are infinities, NaN and the
negative zero.  The formats are those of the C standard in the "C" locale and the default rounding mode, with the int and long
of 32 and 64 bits.
-/
import Verif.Xml
import Mathlib.Data.Int.Log
import Mathlib.Data.Rat.Floor
import Mathlib.Algebra.Order.Floor.Ring
import Mathlib.Tactic.NormNum
import Mathlib.Tactic.Ring
import Mathlib.Tactic.Linarith
import Mathlib.Tactic.FieldSimp

set_option autoImplicit false
set_option linter.unusedSectionVars false

namespace Gear.Xml

/-- A decimal digit. -/
def digit (n : ℕ) : Char := Char.ofNat (48 + n % 10)

/-- The last `w` digits. -/
def digitsOf : ℕ → ℕ → Text
  | 0, _ => []
  | w + 1, n => digitsOf w (n / 10) ++ [digit n]

/-- The number of digits, at least one; `fuel` more than the number. -/
def width : ℕ → ℕ → ℕ
  | 0, _ => 1
  | fuel + 1, n => if n < 10 then 1 else width fuel (n / 10) + 1

/-- An unsigned number. -/
def natText (n : ℕ) : Text := digitsOf (width n n) n

/-- `%d`, as in `SetAttribute( name , int )`, src/gearxml/tinyxml.cc lines 730-735, and `<<` of an int. -/
def printInt (n : ℤ) : Text := if n < 0 then '-' :: natText n.natAbs else natText n.natAbs

/-- `isdigit`. -/
def isDigit (c : Char) : Bool := 48 ≤ c.toNat && c.toNat ≤ 57

/-- The number with the given digits after the ones already read. -/
def digitsVal : ℕ → Text → ℕ
  | n, [] => n
  | n, c :: cs => digitsVal (10 * n + (c.toNat - 48)) cs

/-- An optional sign. -/
def readSign : Text → Bool × Text
  | '-' :: t => (true, t)
  | '+' :: t => (false, t)
  | t => (false, t)

/-- The conversion of a long to an int. -/
def toInt32 (n : ℤ) : ℤ := (n + 2 ^ 31) % 2 ^ 32 - 2 ^ 31

/-- `atoi`: `strtol`, which saturates, converted to int. -/
def atoi (t : Text) : ℤ :=
  let s := readSign (t.dropWhile isSpace)
  let n : ℤ := digitsVal 0 (s.2.takeWhile isDigit)
  toInt32 (max (-2 ^ 63) (min (2 ^ 63 - 1) (if s.1 then -n else n)))

/-- Rounding to the nearest integer, ties to even. -/
def roundEven (q : ℚ) : ℤ :=
  if q - ⌊q⌋ < 1 / 2 then ⌊q⌋
  else if 1 / 2 < q - ⌊q⌋ then ⌊q⌋ + 1
  else if ⌊q⌋ % 2 = 0 then ⌊q⌋
  else ⌊q⌋ + 1

/-- The ten digits and the exponent of a positive number. -/
def mantissa (x : ℚ) : ℕ × ℤ :=
  let e := Int.log 10 x
  let m := (roundEven (x / 10 ^ (e - 9))).toNat
  if m = 10 ^ 10 then (10 ^ 9, e + 1) else (m, e)

/-- The exponent has a sign and at least two digits. -/
def exponentText (e : ℤ) : Text :=
  (if e < 0 then '-' else '+') :: (if e.natAbs < 10 then '0' :: natText e.natAbs else natText e.natAbs)

/-- `%.9e`, as in `SetDoubleAttribute`, src/gearxml/tinyxml.cc lines 738-743, and `<<` with `scientific` and `setprecision(9)`. -/
def formatE (x : ℚ) : Text :=
  if x = 0 then '0' :: '.' :: digitsOf 9 0 ++ 'e' :: exponentText 0
  else
    let m := mantissa |x|
    (if x < 0 then ['-'] else []) ++ digit (m.1 / 10 ^ 9) :: '.' :: digitsOf 9 m.1 ++ 'e' :: exponentText m.2

/-- The exponent after an `e`; none without a digit. -/
def readExponent : Text → ℤ
  | c :: t =>
    if c = 'e' || c = 'E' then
      let s := readSign t
      let n : ℤ := digitsVal 0 (s.2.takeWhile isDigit)
      if s.1 then -n else n
    else 0
  | [] => 0

/-- The fraction after the decimal point, and what follows. -/
def readFraction : Text → Text × Text
  | '.' :: t => (t.takeWhile isDigit, t.dropWhile isDigit)
  | t => ([], t)

/-- `atof`, for decimal numbers. -/
def atof (t : Text) : ℚ :=
  let s := readSign (t.dropWhile isSpace)
  let whole := s.2.takeWhile isDigit
  let f := readFraction (s.2.dropWhile isDigit)
  if whole = [] ∧ f.1 = [] then 0
  else
    let v : ℚ := digitsVal 0 (whole ++ f.1) * 10 ^ (readExponent f.2 - f.1.length)
    if s.1 then -v else v

end Gear.Xml
