import Verif.Basic

/-!
# Python string primitives used by the modelled code

`str.split(sep)` for a one-character separator, `sep.join`, `str.strip(chars)`,
`sep in s`, `str.split('--')`, `str.startswith`.
These model CPython library functions, not pelicun code; they are part of the
trusted reading of Python.
-/

namespace Verif

/-- `s.split(c)` for a one-character separator (never empty). -/
def splitChar (c : Char) : Str → List Str
  | [] => [[]]
  | x :: xs =>
    if x = c then [] :: splitChar c xs
    else match splitChar c xs with
      | [] => [[x]]
      | w :: ws => (x :: w) :: ws

/-- `c.join(ws)` for a one-character separator. -/
def joinChar (c : Char) : List Str → Str
  | [] => []
  | [w] => w
  | w :: w' :: ws => w ++ c :: joinChar c (w' :: ws)

/-- `s.lstrip(chars)` with the set of stripped characters as a predicate. -/
def lstrip (p : Char → Bool) (s : Str) : Str := s.dropWhile p

/-- `s.rstrip(chars)` -/
def rstrip (p : Char → Bool) (s : Str) : Str := (s.reverse.dropWhile p).reverse

/-- `s.strip(chars)` -/
def strip (p : Char → Bool) (s : Str) : Str := rstrip p (lstrip p s)

/-- ASCII white space as removed by `str.strip()`; the remaining Unicode white
space is not modelled. -/
def isSpace (c : Char) : Bool :=
  c = ' ' || c = '\t' || c = '\n' || c = '\r' || c = Char.ofNat 11 || c = Char.ofNat 12

/-- `c in s` for one character. -/
def hasChar (c : Char) (s : Str) : Bool := s.contains c

/-- `s.split('--')`: leftmost, non-overlapping. -/
def splitDash2 : Str → List Str
  | [] => [[]]
  | '-' :: '-' :: xs => [] :: splitDash2 xs
  | x :: xs =>
    match splitDash2 xs with
      | [] => [[x]]
      | w :: ws => (x :: w) :: ws

/-- `'--' in s` -/
def hasDash2 : Str → Bool
  | [] => false
  | '-' :: '-' :: _ => true
  | _ :: xs => hasDash2 xs

/-- `s.split(c, 1)`: at most one split. -/
def splitChar1 (c : Char) : Str → Str × Option Str
  | [] => ([], none)
  | x :: xs =>
    if x = c then ([], some xs)
    else let r := splitChar1 c xs
         (x :: r.1, r.2)

/-- Value of a decimal digit. -/
def digitVal? (c : Char) : Option Nat :=
  if '0' ≤ c ∧ c ≤ '9' then some (c.toNat - '0'.toNat) else none

/-- Digits to a number, most significant first. -/
def digitsVal : Nat → Str → Option Nat
  | acc, [] => some acc
  | acc, c :: cs =>
    match digitVal? c with
    | some d => digitsVal (acc * 10 + d) cs
    | none => none

/-- `int(s)` on an already stripped string: optional sign and ASCII digits.
Underscores inside the number and non-ASCII digits (both accepted by CPython)
are not modelled. -/
def pyInt? (s : Str) : Option Int :=
  match strip isSpace s with
  | [] => none
  | '-' :: c :: cs => (digitsVal 0 (c :: cs)).map (fun n => -(n : Int))
  | '+' :: c :: cs => (digitsVal 0 (c :: cs)).map (fun n => (n : Int))
  | '-' :: [] => none
  | '+' :: [] => none
  | cs => (digitsVal 0 cs).map (fun n => (n : Int))

end Verif
