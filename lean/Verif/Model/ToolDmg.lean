import Verif.Model.DmgQty
import Verif.Model.LossAgg

/-!
# Saved damage results

pelicun/tools/DL_calculation.py `_damage_save` (1269-1407).

A table is a list of columns and one function from columns to values per realization; missing values
are `none`.
-/

namespace Verif.ToolDmg

open Verif.FileIO (uniqueVals labelLe)
open Verif.DmgQty (sumMin1)
open Verif.LossAgg (maxL)

/-- A table of results. -/
structure Sample (κ : Type) where
  cols : List κ
  rows : List (κ → Option ℚ)

/-- `x.T.groupby(level=...).<agg>().T`: one column per group, sorted by label.  `agg` includes the
treatment of missing values. -/
def group {κ γ : Type} [DecidableEq γ] (g : κ → γ) (le : γ → γ → Bool) (agg : List (Option ℚ) → Option ℚ)
    (s : Sample κ) : Sample γ where
  cols := pySort le (uniqueVals [] (s.cols.map g))
  rows := s.rows.map fun row c => agg ((s.cols.filter fun k => decide (g k = c)).map row)

/-- The labels of the columns of the damage sample. -/
structure Key where
  cmp : Str
  loc : Str
  dir : Str
  uid : Str
  ds : Str
  deriving DecidableEq

/-- Levels `cmp`, `loc`, `dir`, `ds`. -/
structure Key4 where
  cmp : Str
  loc : Str
  dir : Str
  ds : Str
  deriving DecidableEq

/-- Levels `cmp`, `loc`, `ds`. -/
structure Key3 where
  cmp : Str
  loc : Str
  ds : Str
  deriving DecidableEq

def le4 (a b : Key4) : Bool := labelLe [a.cmp, a.loc, a.dir, a.ds] [b.cmp, b.loc, b.dir, b.ds]
def le3 (a b : Key3) : Bool := labelLe [a.cmp, a.loc, a.ds] [b.cmp, b.loc, b.ds]
def le2 (a b : Str × Str) : Bool := labelLe [a.1, a.2] [b.1, b.2]

/-- 1305-1310: with `AggregateColocatedComponentResults` the results with the same component, location,
direction and damage state are added; the sum is missing if all values are. -/
def aggregate (s : Sample Key) : Sample Key4 := group (fun k => ⟨k.cmp, k.loc, k.dir, k.ds⟩) le4 sumMin1 s

/-- 1340-1343: the sums per component, location and damage state. -/
def grpDamage (colocated : Bool) (s : Sample Key) : Sample Key3 :=
  if colocated then group (fun k => ⟨k.cmp, k.loc, k.ds⟩) le3 sumMin1 (aggregate s)
  else group (fun k => ⟨k.cmp, k.loc, k.ds⟩) le3 sumMin1 s

/-- The largest of the values that are not missing, 1361-1363. -/
def maxMin1 (l : List (Option ℚ)) : Option ℚ :=
  if l.filterMap id = [] then none else some (maxL (l.filterMap id))

/-- 1348-1350 and 1356: positive values are replaced with 1, then all are multiplied with the number
of the damage state. -/
def dsCell (n : Int) (x : Option ℚ) : Option ℚ := x.map fun q => (if q > 0 then 1 else q) * (n : ℚ)

/-- 1353: the number of the damage state of a column. -/
def dsNumber (k : Key3) : Except PyErr Int :=
  match pyInt? k.ds with
  | some n => .ok n
  | none => .error .valueError

/-- 1346-1363: condensed damage states. -/
def condense (s : Sample Key3) : Except PyErr (Sample (Str × Str)) :=
  match mapE dsNumber s.cols with
  | .error e => .error e
  | .ok _ =>
    .ok (group (fun k => (k.cmp, k.loc)) le2 maxMin1
      { s with rows := s.rows.map fun row k => dsCell ((pyInt? k.ds).getD 0) (row k) })

/-- 1369-1376: the total damaged quantity per component. -/
def total (s : Sample Key3) : Sample Str := group (fun k => k.cmp) strLe sumMin1 s

end Verif.ToolDmg
