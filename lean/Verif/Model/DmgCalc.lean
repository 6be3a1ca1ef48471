import Verif.Model.DmgQty
import Verif.Model.DmgSample

/-!
# The damage calculation

pelicun/model/damage_model.py `DamageModel.calculate` (241-332): the sample of damage states
(`Model/DmgSample`), the damage process (`Model/DmgTasks`) and the damaged quantities
(`Model/DmgQty`), one after the other.  Log messages are not modelled.
-/

namespace Verif.DmgCalc

open Verif.UQ
open Verif.DmgEval (BlockId)
open Verif.DmgTasks (Sample Targets runProcess)
open Verif.DmgRVs (LSRow)
open Verif.DemandReq (PGid)
open Verif.DmgSample (Input Draws obtainDs)
open Verif.DmgQty (Table)

/-- What `calculate` reads of the asset model. -/
structure Assets where
  /-- the column `Blocks` of `cmp_marginal_params`, whole numbers (asset_model.py 355-381) -/
  blocks : Option (List (PGid × Int))
  /-- the columns of `cmp_sample` -/
  groups : List PGid
  /-- the rows of `cmp_sample` -/
  qty : List (PGid → ℚ)

/-- 278-294: the number of blocks of each performance group, one without the column. -/
def componentBlocks (a : Assets) : List (PGid × Int) :=
  match a.blocks with
  | some t => t
  | none => a.groups.map fun pg => (pg, 1)

/-- 1638-1654 `get_num_blocks`.  A `KeyError` for a group that is not in the table is not
modelled: the sample of damage states only has groups of the table. -/
def blocksOf (a : Assets) (pg : PGid) : ℚ :=
  match a.blocks with
  | some t => (((Dict.get? t pg).getD 0 : Int) : ℚ)
  | none => 1

/-- `ds_sample` as columns and rows.  Without realizations the columns are lost. -/
def toSample (out : List (Dict BlockId Int)) : Sample where
  cols := (out.headD []).keys
  rows := out.map fun row b => (row.get? b).getD 0

/-- 305-317: the damage process, if there is one. -/
def applyProcess (visit : List Str → List Str) (process : Option (Dict Str (Dict Str Targets)))
    (s : Sample) : Except PyErr Sample :=
  match process with
  | none => .ok s
  | some p => runProcess visit p s

/-- 319-323 with 1630, 1674-1681: a group without quantities is a `KeyError`, another number of
rows a `ValueError` (a single row would be repeated instead). -/
def quantities (a : Assets) (s : Sample) : Except PyErr Table :=
  if (DmgQty.seriesKeys false s).all fun k => decide (DmgQty.pgOf k.1 ∈ a.groups) then
    if a.qty.length = s.rows.length then DmgQty.prepare false s (blocksOf a) a.qty
    else .error .valueError
  else .error .keyError

section
variable {F : Type} [Field F] [LinearOrder F] [FloorRing F]

/-- 241-332 `calculate`.  `listAll` is the option `list_all_ds`, `params` are the damage parameters
of the components, `visit` the order in which a set of locations is visited. -/
def calculate (N : Num F) (NQ : Num F) (x : Input F) (available missing : List Str) (a : Assets)
    (process : Option (Dict Str (Dict Str Targets))) (batchSize : Int) (listAll : Bool)
    (params : List (Str × List LSRow)) (visit : List Str → List Str) (dc : Nat → Draws F)
    (dl : Nat → Draws F) : Except PyErr Table :=
  match obtainDs N NQ x available missing (componentBlocks a) batchSize dc dl with
  | .error e => .error e
  | .ok out =>
    match applyProcess visit process (toSample out) with
    | .error e => .error e
    | .ok s =>
      match quantities a s with
      | .error e => .error e
      | .ok t => if listAll then DmgQty.complete params x.size t else .ok t

end

end Verif.DmgCalc
