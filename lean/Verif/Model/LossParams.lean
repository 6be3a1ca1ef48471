import Verif.Model.FileIO
import Verif.Model.DmgParams

/-!
# Loss map and consequence parameters

pelicun/model/loss_model.py `LossModel.add_loss_map` (203-293), `load_model_parameters` (310-419),
`_load_from_data_path` (421-452), `_ensure_loss_parameter_availability` (1580-1604),
`RepairModel_Base.load_model_parameters` (1638-1663), `drop_unused_loss_parameters` (1664-1699) and
`remove_incomplete_components` (1701-1731).  The conversion of units (399-403) and the names of the
columns used by old versions (1685-1692, 422-428) are not part of this file.
-/

namespace Verif.LossParams

open DmgParams (Cell Row)

/-- `'DMG' in x` for a string `x`: some position starts with the word. -/
def hasInfix (w : Str) : Str → Bool
  | [] => w.isPrefixOf []
  | c :: s => w.isPrefixOf (c :: s) || hasInfix w s

/-- `x[1]` of a string. -/
def secondChar (s : Str) : Except PyErr Str :=
  match s with
  | _ :: c :: _ => .ok [c]
  | _ => .error .indexError

/-- A loss map: its rows, the label of each and the entry of the `Repair` column.  Further columns
are not modelled. -/
abbrev LossMap := List (Str × Str)

/-- 264-269, one-level labels: the second character of each label. -/
def cutSimple (rows : LossMap) : Except PyErr LossMap :=
  mapE (fun r => match secondChar r.1 with
    | .error e => .error e
    | .ok c => .ok (c, r.2)) rows

/-- 246-269: the table is loaded (`file_io.load_data` splits labels at dashes and sorts the rows)
and, if some label has the flag `DMG`, every label is replaced by its entry number one.  For labels
with several levels and no flag the later membership tests are tests of the first level; this case
is not modelled (`notImplementedError`). -/
def userMap (rows : LossMap) : Except PyErr LossMap :=
  match Labels.toMulti (.simple (rows.map (·.1))) with
  | .error e => .error e
  | .ok (.simple _) =>
    let sorted := pySort (fun a b => strLe a.1 b.1) rows
    if sorted.any fun r => hasInfix (str "DMG") r.1 then cutSimple sorted else .ok sorted
  | .ok (.multi _ parts) =>
    let sorted := pySort (fun a b => FileIO.labelLe a.1 b.1) (parts.zip (rows.map (·.2)))
    if sorted.any fun r => decide (str "DMG" ∈ r.1) then .ok (sorted.map fun r => (r.1.getD 1 [], r.2))
    else .error .notImplementedError

/-- 277-283: one component of the loop. -/
def fillStep (all : Bool) (m : LossMap) (c : Str) : LossMap :=
  if c ∈ m.map (·.1) then m
  else if all = false ∧ c = str "excessiveRID" then m
  else m ++ [(c, c)]

/-- 244-275: the given map or an empty one. -/
def startMap (given : Option LossMap) : Except PyErr LossMap :=
  match given with
  | none => .ok []
  | some rows => userMap rows

/-- 203-293 `add_loss_map`.  `cmpIter` lists the component ids of the asset in the order in which the
set `cmp_set` is iterated. -/
def addLossMap (given : Option LossMap) (policy : Option Str) (cmpIter : List Str) : Except PyErr LossMap :=
  if given = none ∧ policy = none then .error .valueError
  else
    match startMap given with
    | .error e => .error e
    | .ok m =>
      match policy with
      | none => .ok m
      | some p =>
        if p = str "fill" then .ok (cmpIter.foldl (fillStep false) m)
        else if p = str "fill_all" then .ok (cmpIter.foldl (fillStep true) m)
        else .error .valueError

/-- A consequence is identified by its id and a decision variable. -/
abbrev Key := Str × Str

/-- A source of parameters. -/
structure Source where
  cols : List (Str × Str)
  rows : List (Key × Row)

/-- The first cell of the group that is not missing. -/
def firstCell (rows : List (Key × Row)) (k : Key) (c : Str × Str) : Option Cell :=
  rows.findSome? fun r => if r.1 = k then r.2 c else none

/-- Order of the keys. -/
def keyLe (a b : Key) : Bool := if a.1 = b.1 then strLe a.2 b.2 else strLe a.1 b.1

/-- `data.groupby(level=[0, 1]).first()`, 1657-1659: missing cells are skipped (the default of
`first`), separately in each column. -/
def groupFirst (rows : List (Key × Row)) : List (Key × Row) :=
  (pySort keyLe (FileIO.uniqueVals [] (rows.map (·.1)))).map fun k => (k, firstCell rows k)

/-- 1638-1663 `RepairModel_Base.load_model_parameters` -/
def addSource (params : Option (List (Key × Row))) (data : List (Key × Row)) : List (Key × Row) :=
  match params with
  | none => groupFirst data
  | some p => groupFirst (p ++ data)

/-- 434-442: no decision variable has two different units in the file (`nunique` skips missing
cells). -/
def unitsAgree (s : Source) : Bool :=
  s.rows.all fun a => s.rows.all fun b =>
    decide (a.1.2 = b.1.2 → a.2 (str "DV", str "Unit") ≠ none → b.2 (str "DV", str "Unit") ≠ none →
      a.2 (str "DV", str "Unit") = b.2 (str "DV", str "Unit"))

/-- The parameters of the two models, `ds_model` and `lf_model`. -/
structure Params where
  ds : Option (List (Key × Row))
  lf : Option (List (Key × Row))

/-- `X in data.columns.get_level_values(0)` -/
def hasTop (x : Str) (s : Source) : Bool := s.cols.any fun c => c.1 == x

/-- 421-452 `_load_from_data_path` -/
def loadSource (p : Params) (s : Source) : Except PyErr Params :=
  if (str "DV", str "Unit") ∉ s.cols then .error .keyError
  else if unitsAgree s = false then .error .inconsistentUnitsError
  else if hasTop (str "DS1") s then .ok { p with ds := some (addSource p.ds s.rows) }
  else if hasTop (str "LossFunction") s then .ok { p with lf := some (addSource p.lf s.rows) }
  else .error .valueError

/-- 353-354: the loop over the sources. -/
def loadSources : Params → List Source → Except PyErr Params
  | p, [] => .ok p
  | p, s :: ss =>
    match loadSource p s with
    | .error e => .error e
    | .ok p => loadSources p ss

/-- 1664-1699 `drop_unused_loss_parameters` -/
def dropUnused (m : LossMap) (p : List (Key × Row)) : List (Key × Row) :=
  p.filter fun r => decide (r.1.1 ∈ m.map (·.2))

/-- 1701-1731 `remove_incomplete_components` -/
def removeIncomplete (p : List (Key × Row)) : List (Key × Row) :=
  p.filter fun r => decide (r.2 (str "Incomplete", []) ≠ some (.num 1))

/-- 369-373 for one model -/
def clean (m : LossMap) (p : Option (List (Key × Row))) : Option (List (Key × Row)) :=
  p.map fun q => removeIncomplete (dropUnused m q)

/-- `get_available`, 1733-1745 -/
def available (p : Option (List (Key × Row))) : List Key :=
  match p with
  | none => []
  | some q => q.map (·.1)

/-- 1580-1604 `_ensure_loss_parameter_availability`: the set of missing definitions (as a list
without duplicates). -/
def missingOf (dvs : List Str) (m : LossMap) (p : Params) : List Key :=
  (FileIO.uniqueVals [] (dvs.flatMap fun dv => m.map fun r => (r.2, dv))).filter fun k =>
    decide (k ∉ available p.ds ∧ k ∉ available p.lf)

/-- 310-419 `load_model_parameters` on models without parameters. -/
def loadParams (sources : List Source) (m : LossMap) (dvs : List Str) : Except PyErr (Params × List Key) :=
  match loadSources ⟨none, none⟩ sources with
  | .error e => .error e
  | .ok p =>
    let p' : Params := ⟨clean m p.ds, clean m p.lf⟩
    .ok (p', missingOf dvs m p')

/-- 2232-2300 (`RepairModel_DS._create_DV_RVs`): the random variables of one decision variable are
created in the order of the rows of the loss map; here only the components that have them. -/
def rvComponents (m : LossMap) (damaged : List Str) : List Str :=
  (m.map (·.1)).filter fun c => decide (c ∈ damaged)

end Verif.LossParams
