import Verif.Model.PyNum
import Mathlib.Data.Int.Log
import Mathlib.Data.Rat.Floor

/-!
# `f'{val:g}'`

Formatting of floats with six significant digits: library behaviour, not pelicun code.  The decimal
value of a double is formatted correctly rounded, ties to even; numbers are exact rationals here.
-/

namespace Verif

/-- Rounding of a nonnegative number to an integer, ties to even. -/
def roundEven (q : ℚ) : Nat :=
  let f := ⌊q⌋₊
  if q - f < 1 / 2 then f else if 1 / 2 < q - f then f + 1 else if f % 2 = 0 then f else f + 1

/-- The six significant digits (as a number) and the decimal exponent of a positive number. -/
def sig6 (a : ℚ) : Nat × Int :=
  let e := Int.log 10 a
  let m := roundEven (a / (10 : ℚ) ^ (e - 5))
  if m = 1000000 then (100000, e + 1) else (m, e)

/-- Removes zeros at the end. -/
def rstrip0 (s : Str) : Str := rstrip (fun c => c = '0') s

/-- A fractional part, without the point if there is nothing left. -/
def fracPart (s : Str) : Str := if rstrip0 s = [] then [] else '.' :: rstrip0 s

/-- An exponent has at least two digits. -/
def pad2 (s : Str) : Str := if s.length < 2 then '0' :: s else s

/-- The literal for the digits `d` and the exponent `e`. -/
def fmtDigits (d : Str) (e : Int) : Str :=
  if 0 ≤ e ∧ e < 6 then d.take (e + 1).toNat ++ fracPart (d.drop (e + 1).toNat)
  else if -4 ≤ e ∧ e < 0 then '0' :: '.' :: (List.replicate (-e - 1).toNat '0' ++ rstrip0 d)
  else d.take 1 ++ fracPart (d.drop 1) ++ 'e' :: (if e < 0 then '-' else '+') :: pad2 (decStr e.natAbs)

/-- `f'{val:g}'` -/
def fmtG (q : ℚ) : Str :=
  if q = 0 then ['0']
  else if q < 0 then '-' :: fmtDigits (decStr (sig6 (-q)).1) (sig6 (-q)).2
  else fmtDigits (decStr (sig6 q).1) (sig6 q).2

end Verif
