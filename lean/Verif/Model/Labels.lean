import Verif.Model.PyStr
import Verif.Model.PySort

/-!
# Index labels (pelicun/base.py)

A pandas index is `simple` (one level) or `multi` (a `MultiIndex` with a number
of levels).  Labels are strings: `str(label)` has already been applied
(base.py:753-755, 838); label types other than `str` are not modelled.
-/

namespace Verif.Labels

inductive Index where
  | simple (labels : List Str)
  | multi (nlevels : Nat) (rows : List (List Str))
  deriving DecidableEq, Repr

/-- base.py:718-783 `convert_to_SimpleIndex` (one axis; the index name and the
rejection of an invalid axis number are not modelled). -/
def toSimple : Index → Index
  | .simple ls => .simple ls
  | .multi n rows => if n > 1 then .simple (rows.map (joinChar '-')) else .multi n rows

/-- base.py:846: `np.max` over the numbers of parts. -/
def maxLen (parts : List (List Str)) : Nat := (parts.map List.length).foldr max 0

/-- base.py:848-851: pad with empty labels. -/
def pad (n : Nat) (p : List Str) : List Str := p ++ List.replicate (n - p.length) []

/-- base.py:798-867 `convert_to_MultiIndex` (one axis).  `np.max` of an empty list
raises `ValueError` (base.py:846).  That NumPy strips trailing NUL characters of
strings is not modelled. -/
def toMulti : Index → Except PyErr Index
  | .multi n rows => .ok (.multi n rows)
  | .simple ls =>
    if ls = [] then .error .valueError
    else
      let parts := ls.map (splitChar '-')
      let m := maxLen parts
      if m > 1 then .ok (.multi m (parts.map (pad m))) else .ok (.simple ls)

/-- base.py:1302-1303: `groupby(names).cumcount()` converted to `str`: how often the
label occurred before. `seen` are the labels of the rows above.  Labels with NaN
are not modelled. -/
def withUid {κ ρ : Type} [DecidableEq κ] (seen : List κ) : List (κ × ρ) → List ((κ × Str) × ρ)
  | [] => []
  | (k, r) :: rest => ((k, decStr (seen.count k)), r) :: withUid (k :: seen) rest

/-- base.py:1275-1305 `dedupe_index` with the default `dtype=str`; `le` is the
order used by `sort_index`. -/
def dedupeIndex {κ ρ : Type} [DecidableEq κ] (le : κ × Str → κ × Str → Bool)
    (rows : List (κ × ρ)) : List ((κ × Str) × ρ) :=
  pySort (fun a b => le a.1 b.1) (withUid [] rows)

end Verif.Labels
