/-
Python's `float` (IEEE 754 binary64), as far as abiftool uses it: `int / int`, `int * float`, `float + float`.

A finite float is represented by its value, a rational number.  Simplifications: the two zeros are one; a product or sum
that is too large is an error here (`inf` in Python).  What is shown about these definitions: `Lib/Float`
(`fround_nearest`: the result is a nearest double; that it is the even one of two is in the definition of `roundHalfEven`).
-/
import Verif.Py.Str

namespace Verif

/-- `n / d` rounded to the nearest natural number, to the even one in the middle -/
def roundHalfEven (n d : Nat) : Nat :=
  if 2 * (n % d) < d then n / d
  else if d < 2 * (n % d) then n / d + 1
  else if n / d % 2 = 0 then n / d
  else n / d + 1

/-- `2 ^ e` -/
def pow2 (e : Int) : Rat := if 0 ≤ e then ((2 ^ e.toNat : Nat) : Rat) else 1 / ((2 ^ (-e).toNat : Nat) : Rat)

/-- numerator and denominator of `(n / d) / 2 ^ e` -/
def scaleDown (n d : Nat) (e : Int) : Nat × Nat :=
  if 0 ≤ e then (n, d * 2 ^ e.toNat) else (n * 2 ^ (-e).toNat, d)

/-- the exponent of the last binary digit a double near `n / d` has: 53 digits, none below `2 ^ -1074` -/
def lastDigit (n d : Nat) : Int :=
  let e : Int := (n.log2 : Int) - (d.log2 : Int) - 52
  let s := scaleDown n d e
  max (if s.1 < 2 ^ 52 * s.2 then e - 1 else e) (-1074)

/-- `n / d`, rounded to 53 binary digits -/
def roundPos (n d : Nat) : Rat :=
  let e := lastDigit n d
  let s := scaleDown n d e
  (roundHalfEven s.1 s.2 : Rat) * pow2 e

/-- a rational number rounded to a double, were doubles not limited in size -/
def fround (q : Rat) : Rat :=
  if q.num < 0 then -roundPos q.num.natAbs q.den else roundPos q.num.natAbs q.den

/-- the double nearest to `q`; `OverflowError` (or `inf`) beyond the largest double -/
def toDouble (q : Rat) : Except PyErr Rat :=
  if -pow2 1024 < fround q ∧ fround q < pow2 1024 then .ok (fround q) else .error .other

/-- `a / b` of two ints: correctly rounded -/
def trueDiv (a b : Int) : Except PyErr Rat :=
  if b = 0 then .error .zeroDivision else toDouble ((a : Rat) / (b : Rat))

/-- `a * x` of an int and a float: `a` is made a float first -/
def mulFloat (a : Int) (x : Rat) : Except PyErr Rat := do
  let y ← toDouble (a : Rat)
  toDouble (y * x)

/-- `x + y` of two floats -/
def addFloat (x y : Rat) : Except PyErr Rat := toDouble (x + y)

end Verif
