import Verif.Model.FileIO

/-!
# Saving and loading component, damage and loss samples

pelicun/model/asset_model.py 84-260, damage_model.py 336-431, loss_model.py 112-146, 696-772, 1755-1900.  Samples are saved
to a file and loaded from it; the labels of the columns are joined with dashes in the file.  Log messages are not modelled, nor
is the renaming of repeated column names when a CSV file is read (`A-1-1`, `A-1-1.1`).
-/

namespace Verif.Samples

open FileIO

/-- Number of levels of an index. -/
def levelsOf : Labels.Index → Nat
  | .simple _ => 1
  | .multi n _ => n

/-- What `load_data(return_units=True)` returns: the number of levels of the labels, the columns and the units. -/
structure Loaded where
  levels : Nat
  cols : List Column
  units : Option (List (Label × Str))
  deriving DecidableEq

/-- file_io.py 455-549 `load_data(return_units=True)`: empty cells of the row of units are dropped (543). -/
def loadDataUnits (t : FileTable) (table : Dict Str ℚ) : Except PyErr Loaded :=
  match Labels.toMulti (.simple (t.cols.map Prod.fst)) with
  | .error e => .error e
  | .ok idx => .ok {
      levels := levelsOf idx
      cols := pySort (fun a b => labelLe a.1 b.1) ((rowsOf idx).zip (loadCells t (some table)))
      units := if t.hasUnits then some (pySort (fun a b => labelLe a.1 b.1)
          (((rowsOf idx).zip (t.cols.map fun c => c.2.1)).filterMap fun e => e.2.map fun u => (e.1, u)))
        else none }

/-- A series of units in which a unit is missing: `unit_conversion_factors[nan]` in `save_to_csv` (file_io.py 198) raises
`KeyError`, as an unknown unit does. -/
def seriesE (l : List (Label × Option Str)) : Except PyErr (List (Label × Str)) :=
  mapE (fun e => match e.2 with
    | none => .error .keyError
    | some u => .ok (e.1, u)) l

/-- `units.groupby(level=0).first()`: the first unit for each value of the first level, sorted. -/
def firstUnits (us : List (Label × Str)) : Dict Str Str :=
  (pySort strLe (uniqueVals [] (us.filterMap fun e => e.1.head?))).filterMap fun k =>
    (us.find? fun e => decide (e.1.head? = some k)).map fun e => (k, e.2)

/-! ### Components -/

/-- `cmp_sample`, `cmp_units` and the blocks of `cmp_marginal_params`. -/
structure CmpSample where
  cols : List Column
  units : Dict Str Str
  blocks : List (Label × Nat)
  deriving DecidableEq

/-- asset_model.py 132-149 `save_cmp_sample(filepath)`: `units.loc[cmp_id, :] = ...` raises `KeyError` for a component that is
not in the sample. -/
def saveCmp (table : Dict Str ℚ) (s : CmpSample) : Except PyErr FileTable :=
  if ∀ k ∈ s.units.keys, ∃ c ∈ s.cols, c.1.head? = some k then
    match seriesE (s.cols.map fun c => (c.1, c.1.head?.bind s.units.get?)) with
    | .error e => .error e
    | .ok us => saveToCsv s.cols (some us) (some table)
  else .error .keyError

/-- `dedupe_index(sample.T).T` (asset_model.py 230): a number is added to each label, which tells equal labels apart. -/
def addUid (cols : List Column) : List Column :=
  (Labels.dedupeIndex (fun a b => labelLe (a.1 ++ [a.2]) (b.1 ++ [b.2])) cols).map fun e => (e.1.1 ++ [e.1.2], e.2)

/-- asset_model.py 211-256 `load_cmp_sample`: a file without a row of units fails the assertion in line 221. -/
def loadCmp (table : Dict Str ℚ) (t : FileTable) : Except PyErr CmpSample :=
  match loadDataUnits t table with
  | .error e => .error e
  | .ok l =>
    match l.units with
    | none => .error .assertionError
    | some us =>
      if l.levels = 3 then
        .ok ⟨addUid l.cols, firstUnits us, (addUid l.cols).map fun c => (c.1, 1)⟩
      else if l.levels = 4 then .ok ⟨l.cols, firstUnits us, l.cols.map fun c => (c.1, 1)⟩
      else .error .valueError

/-! ### Damage -/

/-- damage_model.py 379-394 `save_sample(filepath)`: `qnt_units.loc[cmp] = ...` for a component that is not in the sample
appends an entry with empty levels. -/
def saveDmg (table : Dict Str ℚ) (cols : List Column) (cmpUnits : Dict Str Str) : Except PyErr FileTable :=
  match seriesE (cols.map (fun c => (c.1, c.1.head?.bind cmpUnits.get?)) ++
      (cmpUnits.filter fun e => decide (∀ c ∈ cols, c.1.head? ≠ some e.1)).map
        fun e => ([e.1, [], [], [], []], some e.2)) with
  | .error e => .error e
  | .ok us => saveToCsv cols (some us) (some table)

/-- damage_model.py 416-431 `load_sample`: `columns.names = [...]` with five names raises `ValueError` for another number of
levels. -/
def loadDmg (table : Dict Str ℚ) (t : FileTable) : Except PyErr (List Column) :=
  match loadDataUnits t table with
  | .error e => .error e
  | .ok l => if l.levels = 5 then .ok l.cols else .error .valueError

/-! ### Losses -/

/-- The unit of the parameters for the label of a column. -/
def paramUnit (params : Dict (Str × Str) (Option Str)) : Label → Option Str
  | dv :: cmp :: _ => (params.get? (cmp, dv)).bind id
  | _ => none

/-- loss_model.py 739-751 (and 1797-1809): the unit of each column.  `params` is the column `DV-Unit` of the loss parameters,
labelled by consequence and decision variable.  Both values of a label may be in the sample without the combination of the two:
then `dv_units.loc[dv_type, cmp_id] = ...` raises `KeyError`. -/
def lossUnits (params : Dict (Str × Str) (Option Str)) (cols : List Column) : Except PyErr (List (Label × Str)) :=
  if ∀ p ∈ params, (∃ c ∈ cols, c.1.head? = some p.1.2) → (∃ c ∈ cols, c.1[1]? = some p.1.1) →
      ∃ c ∈ cols, c.1.head? = some p.1.2 ∧ c.1[1]? = some p.1.1 then
    seriesE ((pySort (fun a b => labelLe a.1 b.1) cols).map fun c => (c.1, paramUnit params c.1))
  else .error .keyError

/-- loss_model.py 696-772 `save_sample(filepath)` -/
def saveLoss (table : Dict Str ℚ) (params : Dict (Str × Str) (Option Str)) (cols : List Column) : Except PyErr FileTable :=
  match lossUnits params cols with
  | .error e => .error e
  | .ok us => saveToCsv cols (some us) (some table)

/-- loss_model.py 1834-1900 `RepairModel_DS.load_sample`: the columns and the unit of each decision variable.
`units.index.names = names` with seven names (1868) raises `ValueError` for another number of levels, before the number of
levels is looked at (1880-1895). -/
def loadLoss (table : Dict Str ℚ) (t : FileTable) : Except PyErr (List Column × Dict Str Str) :=
  match loadDataUnits t table with
  | .error e => .error e
  | .ok l =>
    match l.units with
    | none => .error .assertionError
    | some us =>
      if l.levels ≠ 7 then .error .valueError
      else .ok (l.cols, firstUnits us)

/-- loss_model.py 138-144: the label of a loss function result with a damage state level. -/
def withDs : Label → Label
  | [dv, loss, dmg, loc, dir, uid] => [dv, loss, dmg, str "N/A", loc, dir, uid]
  | [dv, loss, dmg, _, loc, dir, uid] => [dv, loss, dmg, str "N/A", loc, dir, uid]
  | l => l

/-- loss_model.py 112-146 the property `sample`, and the sample of the loss function model after it was read. -/
def readSample (ds lf : Option (List Column)) : Option (List Column) × Option (List Column) :=
  match ds, lf with
  | none, none => (none, none)
  | none, some lf => (some lf, some lf)
  | some ds, none => (some ds, none)
  | some ds, some lf => (some (ds ++ lf.map fun c => (withDs c.1, c.2)), some (lf.map fun c => (withDs c.1, c.2)))

end Verif.Samples
