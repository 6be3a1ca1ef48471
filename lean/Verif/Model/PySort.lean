import Verif.Basic

/-!
# Python basics: stable sorting and `str(n)`

Library behaviour (`sorted`, pandas `sort_index`, `str` of a nonnegative
integer), not pelicun code.
-/

namespace Verif

/-- Insert before the first strictly larger element's position (stable). -/
def insertSorted {α : Type} (le : α → α → Bool) (a : α) : List α → List α
  | [] => [a]
  | b :: l => if le a b then a :: b :: l else b :: insertSorted le a l

/-- Stable sort: the result of Python's `sorted` for a total preorder `le`. -/
def pySort {α : Type} (le : α → α → Bool) : List α → List α
  | [] => []
  | a :: l => insertSorted le a (pySort le l)

/-- Lexicographic order of strings by code point: Python's `<=` on `str`. -/
def strLe : Str → Str → Bool
  | [], _ => true
  | _ :: _, [] => false
  | a :: as, b :: bs => if a.toNat < b.toNat then true else if b.toNat < a.toNat then false else strLe as bs

/-- One decimal digit. -/
def digitChar (n : Nat) : Char := Char.ofNat (48 + n)

/-- Decimal digits with a fuel argument large enough to finish. -/
def decAux : Nat → Nat → Str
  | 0, _ => []
  | fuel + 1, n => if n < 10 then [digitChar n] else decAux fuel (n / 10) ++ [digitChar (n % 10)]

/-- `str(n)` for a nonnegative integer. -/
def decStr (n : Nat) : Str := decAux (n + 1) n

end Verif
