import Verif.Model.PyStr
import Verif.Model.PySort

/-!
# Python basics: numbers from and to strings

`float(s)`, `str(n)` of an integer, `np.arange` on integers: library behaviour, not pelicun code.
-/

namespace Verif

/-- A Python `float` obtained from a literal.  Finite values are exact rationals; rounding
to the nearest double and overflow of huge literals are not modelled. -/
inductive PyFloat where
  | fin (q : ℚ)
  | inf (negative : Bool)
  | nan
  deriving DecidableEq, Repr

/-- A possibly empty string of digits. -/
def digits0 (s : Str) : Option Nat := digitsVal 0 s

/-- The part of a float literal before the exponent: `12`, `12.`, `.5`, `12.5`. -/
def mantissa? (m : Str) : Option ℚ :=
  match splitChar1 '.' m with
  | (i, none) => if i = [] then none else (digits0 i).map fun n => (n : ℚ)
  | (i, some f) =>
    if i = [] ∧ f = [] then none
    else match digits0 i, digits0 f with
      | some a, some b => some ((a : ℚ) + (b : ℚ) / 10 ^ f.length)
      | _, _ => none

/-- Lower case of an ASCII letter. -/
def lowerC (c : Char) : Char :=
  if 'A' ≤ c ∧ c ≤ 'Z' then Char.ofNat (c.toNat + 32) else c

/-- An exponent: optional sign and at least one digit. -/
def exponent? : Str → Option Int
  | '-' :: c :: cs => (digits0 (c :: cs)).map fun n => -(n : Int)
  | '+' :: c :: cs => (digits0 (c :: cs)).map fun n => (n : Int)
  | c :: cs => (digits0 (c :: cs)).map fun n => (n : Int)
  | [] => none

/-- An unsigned float literal in lower case. -/
def unsignedFloat? (u : Str) : Option ℚ :=
  match splitChar1 'e' u with
  | (m, none) => mantissa? m
  | (m, some e) =>
    match mantissa? m, exponent? e with
    | some q, some k => some (q * (10 : ℚ) ^ k)
    | _, _ => none

/-- Splits off the sign of a literal. -/
def signOf : Str → Bool × Str
  | '-' :: u => (true, u)
  | '+' :: u => (false, u)
  | u => (false, u)

/-- A literal after removing white space and the sign. -/
def floatBody? (neg : Bool) (u : Str) : Option PyFloat :=
  if u = str "inf" ∨ u = str "infinity" then some (.inf neg)
  else if u = str "nan" then some .nan
  else (unsignedFloat? u).map fun q => .fin (if neg then -q else q)

/-- `float(s)`; `none` stands for `ValueError`.  Underscores and non-ASCII digits are not
modelled. -/
def pyFloat? (s : Str) : Option PyFloat :=
  let t := strip isSpace s
  floatBody? (signOf t).1 ((signOf t).2.map lowerC)

/-- Rounds towards zero. -/
def truncQ (q : ℚ) : Int := Int.tdiv q.num q.den

/-- `int(float(s))`: `ValueError` for no number and for `nan`, `OverflowError` for infinity. -/
def intFloat (s : Str) : Except PyErr Int :=
  match pyFloat? s with
  | none => .error .valueError
  | some .nan => .error .valueError
  | some (.inf _) => .error .overflowError
  | some (.fin q) => .ok (truncQ q)

/-- `str(n)` for an integer. -/
def intStr : Int → Str
  | .ofNat n => decStr n
  | .negSucc n => '-' :: decStr (n + 1)

/-- `np.arange(lo, hi)` for integers. -/
def arange (lo hi : Int) : List Int := (List.range (hi - lo).toNat).map fun (i : Nat) => lo + (i : Int)

/-- `np.array(parts, dtype=int)` for a list of strings. -/
def intArray (parts : List Str) : Except PyErr (List Int) :=
  mapE (fun p => match pyInt? p with | some n => .ok n | none => .error .valueError) parts

end Verif
