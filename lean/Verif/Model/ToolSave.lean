import Verif.Model.ToolDmg

/-!
# Saved components and losses, and the summary

pelicun/tools/DL_calculation.py `_result_summary` (1078-1132), `_asset_save` (1208-1266) and `_loss_save` (1410-1533): the
tables that are written.  Their statistics are those of `Stats`, the labels in the files those of `Labels`.

The labels of components are `cmp, loc, dir, uid`; those of losses `dv, loss, dmg, loc, dir, uid`, with `ds` after `dmg`
if there are losses from damage states.
-/

namespace Verif.ToolSave

open Verif.FileIO (uniqueVals labelLe)
open Verif.DmgQty (sumMin1)
open Verif.ToolDmg (Sample Key group le2)

/-- 1238-1243 and 1443-1454: with `AggregateColocatedComponentResults`, results that differ in `uid` only are added. -/
def colocate (agg : Bool) (s : Sample (List Str)) : Sample (List Str) :=
  if agg then group List.dropLast labelLe sumMin1 s else s

/-- 1485-1487: the sums by decision variable, consequence and component. -/
def grouped (agg : Bool) (s : Sample (List Str)) : Sample (List Str) := group (List.take 3) labelLe sumMin1 (colocate agg s)

/-- `units.T.groupby(level=...).first().T`: the first unit in a group that is not missing. -/
def firstUnit {κ γ : Type} [DecidableEq γ] (g : κ → γ) (cols : List κ) (unit : κ → Option Str) (c : γ) : Option Str :=
  ((cols.filter fun k => decide (g k = c)).filterMap unit).head?

/-- 1239, 1449: the units of the saved sample. -/
def colocateUnits (agg : Bool) (cols : List (List Str)) (unit : List Str → Option Str) : List Str → Option Str :=
  if agg then firstUnit List.dropLast cols unit else unit

/-- 1486: the units of the grouped losses. -/
def groupedUnits (agg : Bool) (s : Sample (List Str)) (unit : List Str → Option Str) : List Str → Option Str :=
  firstUnit (List.take 3) (colocate agg s).cols (colocateUnits agg s.cols unit)

/-- 1103: the quantities by component and damage state; a sum of missing values is zero. -/
def byState (s : Sample Key) : Sample (Str × Str) :=
  group (fun k => (k.cmp, k.ds)) le2 (fun l => some (l.filterMap id).sum) s

/-- 1107-1115: the column with a label, or zeros.  If two columns have the label, they cannot be assigned to one column. -/
def flag (label : Str) (s : Sample (Str × Str)) : Except PyErr (List (Option ℚ)) :=
  match s.cols.filter fun c => decide (c.1 ++ '-' :: c.2 = label) with
  | [] => .ok (s.rows.map fun _ => some 0)
  | [c] => .ok (s.rows.map fun row => row c)
  | _ => .error .valueError

/-- 1078-1132 `_result_summary`, the table: the aggregated losses, then collapse and irreparable damage.  The
realizations are the same. -/
def summary (damage : Option (Sample Key)) (agg : Option (List (Str × List (Option ℚ)))) : Except PyErr (List (Str × List (Option ℚ))) :=
  match damage with
  | none => .ok (agg.getD [])
  | some s =>
    match flag (str "collapse-1") (byState s) with
    | .error e => .error e
    | .ok collapse =>
      match flag (str "irreparable-1") (byState s) with
      | .error e => .error e
      | .ok irreparable => .ok (agg.getD [] ++ [(str "collapse", collapse), (str "irreparable", irreparable)])

end Verif.ToolSave
