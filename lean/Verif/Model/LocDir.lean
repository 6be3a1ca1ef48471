import Verif.Model.PyNum

/-!
# Location and direction strings (`/repo/pelicun/model/pelicun_model.py` 262-428)

The functions return integers; `getLocations` and `getDirections` turn them into strings
as the code does (`astype(str)`).
-/

namespace Verif.LocDir

/-- The number of stories, which `assert stories is not None` requires. -/
def needStories : Option Int → Except PyErr Int
  | some n => .ok n
  | none => .error .assertionError

/-- pelicun_model.py 336-350: keywords. -/
def locKeyword (stories : Option Int) (s : Str) : Except PyErr (List Int) :=
  if s = str "all" then
    match needStories stories with | .ok n => .ok (arange 1 (n + 1)) | .error e => .error e
  else if s = str "top" then
    match needStories stories with | .ok n => .ok [n] | .error e => .error e
  else if s = str "roof" then
    match needStories stories with | .ok n => .ok [n + 1] | .error e => .error e
  else .error .valueError

/-- pelicun_model.py 333-350: a string that is no number and does not contain `--`. -/
def locNoRange (stories : Option Int) (s : Str) : Except PyErr (List Int) :=
  if hasChar ',' s then intArray (splitChar ',' s) else locKeyword stories s

/-- `_get_locations` on a string without `--`. -/
def locPart (stories : Option Int) (s : Str) : Except PyErr (List Int) :=
  match intFloat s with
  | .ok n => .ok [n]
  | .error .valueError => locNoRange stories s
  | .error e => .error e

/-- `x[0]` -/
def first : List Int → Except PyErr Int
  | n :: _ => .ok n
  | [] => .error .indexError

/-- `self._get_locations(part)[0]` -/
def firstOf (r : Except PyErr (List Int)) : Except PyErr Int :=
  match r with
  | .ok l => first l
  | .error e => .error e

/-- `np.arange(int(s_low), int(s_high) + 1)` for the first entries of both ends. -/
def rangeOf (lo hi : Except PyErr Int) : Except PyErr (List Int) :=
  match lo with
  | .error e => .error e
  | .ok a =>
    match hi with
    | .error e => .error e
    | .ok b => .ok (arange a (b + 1))

/-- pelicun_model.py 327-331: `s_low, s_high = loc_str.split('--')` fails with `ValueError`
unless there are exactly two parts.  The parts of the split do not contain `--`
(`splitDash2_parts`), so the recursive calls are calls of `locPart`. -/
def locRange (stories : Option Int) : List Str → Except PyErr (List Int)
  | [lo, hi] => rangeOf (firstOf (locPart stories lo)) (firstOf (locPart stories hi))
  | _ => .error .valueError

/-- pelicun_model.py 319-350 `_get_locations`, as integers. -/
def locInts (stories : Option Int) (s : Str) : Except PyErr (List Int) :=
  match intFloat s with
  | .ok n => .ok [n]
  | .error .valueError =>
    if hasDash2 s then locRange stories (splitDash2 s) else locNoRange stories s
  | .error e => .error e

/-- pelicun_model.py 262-350 `_get_locations`. -/
def getLocations (stories : Option Int) (s : Str) : Except PyErr (List Str) :=
  match locInts stories s with
  | .ok l => .ok (l.map intStr)
  | .error e => .error e

/-- `_get_directions` on a string without `--`. -/
def dirPart (s : Str) : Except PyErr (List Int) :=
  match intFloat s with
  | .ok n => .ok [n]
  | .error .valueError => if hasChar ',' s then intArray (splitChar ',' s) else .error .valueError
  | .error e => .error e

/-- pelicun_model.py 418-422. -/
def dirRange : List Str → Except PyErr (List Int)
  | [lo, hi] => rangeOf (firstOf (dirPart lo)) (firstOf (dirPart hi))
  | _ => .error .valueError

/-- pelicun_model.py 404-428 `_get_directions` on a string, as integers. -/
def dirInts (s : Str) : Except PyErr (List Int) :=
  match intFloat s with
  | .ok n => .ok [n]
  | .error .valueError =>
    if hasChar ',' s then intArray (splitChar ',' s)
    else if hasDash2 s then dirRange (splitDash2 s)
    else .error .valueError
  | .error e => .error e

/-- pelicun_model.py 352-428 `_get_directions`; `none` is a missing value, for which
`np.ones(1).astype(str)` gives `'1.0'`. -/
def getDirections : Option Str → Except PyErr (List Str)
  | none => .ok [str "1.0"]
  | some s =>
    match dirInts s with
    | .ok l => .ok (l.map intStr)
    | .error e => .error e

end Verif.LocDir
