import Verif.Model.Labels

/-!
# Saving and loading tables (`/repo/pelicun/file_io.py`)

Only orientation 0 (variables along columns, the layout of all samples).  Cells are
numbers or missing.  Writing the table as text and reading it back is not modelled: the
cells are assumed to be restored exactly.  Log messages are not modelled.
-/

namespace Verif.FileIO

/-- A column label: the values of the index levels. -/
abbrev Label := List Str

/-- A column: its label and its cells (`none` is NaN). -/
abbrev Column := Label × List (Option ℚ)

/-- A table in the file: simple labels, the entry of the `Units` row (`none` is an empty
cell) and the cells.  `hasUnits` tells if there is a `Units` row. -/
structure FileTable where
  hasUnits : Bool
  cols : List (Str × Option Str × List (Option ℚ))
  deriving DecidableEq

/-- `Series.unique()`: values in order of first appearance. -/
def uniqueVals {α : Type} [DecidableEq α] : List α → List α → List α
  | _, [] => []
  | seen, a :: l => if a ∈ seen then uniqueVals seen l else a :: uniqueVals (a :: seen) l

/-- Multiply the cells of a column; NaN stays NaN. -/
def scaleCells (f : ℚ) (v : List (Option ℚ)) : List (Option ℚ) := v.map (Option.map (· * f))

/-- file_io.py 193-205: the labels with this unit that are columns of the data are
multiplied by `unit_factor`; labels that are not in the data are skipped. -/
def scaleLabels (f : ℚ) (labels : List Label) (data : List Column) : List Column :=
  data.map fun c => if c.1 ∈ labels then (c.1, scaleCells f c.2) else c

/-- file_io.py 190-218: the loop over the units; `unit_conversion_factors[unit_name]` raises
`KeyError` for an unknown unit. -/
def scaleLoop (table : Dict Str ℚ) (units : Dict Label Str) :
    List Str → List Column → Except PyErr (List Column)
  | [], data => .ok data
  | u :: us, data =>
    match table.get? u with
    | none => .error .keyError
    | some f =>
      scaleLoop table units us
        (scaleLabels (1 / f) ((units.filter fun e => e.2 = u).map Prod.fst) data)

/-- Order of labels in `sort_index`: lexicographic over the levels.  All labels of a table
have the same number of levels. -/
def labelLe : Label → Label → Bool
  | [], _ => true
  | _ :: _, [] => false
  | a :: as, b :: bs => if a = b then labelLe as bs else strLe a b

/-- file_io.py 220-243: add the row of units and join the label levels with dashes
(`convert_to_SimpleIndex`, a single level is kept). -/
def withUnits (units : Dict Label Str) (data : List Column) : List (Str × Option Str × List (Option ℚ)) :=
  (pySort (fun a b => labelLe a.1 b.1) data).map fun c => (joinChar '-' c.1, units.get? c.1, c.2)

/-- file_io.py 100-262 `save_to_csv` with orientation 0 and `use_simpleindex=True`.  The
result is the content of the file.  `units` is a series with one entry per label, named `Units`
as in all calls; missing (NaN) unit names are not modelled. -/
def saveToCsv (data : List Column) (units : Option (Dict Label Str))
    (table : Option (Dict Str ℚ)) : Except PyErr FileTable :=
  match units with
  | none => .ok ⟨false, data.map fun c => (joinChar '-' c.1, none, c.2)⟩
  | some units =>
    match table with
    | none => .error .valueError
    | some table =>
      match scaleLoop table units (uniqueVals [] (units.map Prod.snd)) data with
      | .error e => .error e
      | .ok data => .ok ⟨true, withUnits units data⟩

/-- file_io.py 482-489: missing and unknown units have the factor one. -/
def loadFactor (table : Dict Str ℚ) : Option Str → ℚ
  | none => 1
  | some u => match table.get? u with
    | some f => f
    | none => 1

/-- file_io.py 464-508: apply the factors when there are both a `Units` row and a unit table. -/
def loadCells (t : FileTable) (table : Option (Dict Str ℚ)) : List (List (Option ℚ)) :=
  match t.hasUnits, table with
  | true, some table => t.cols.map fun c => scaleCells (loadFactor table c.2.1) c.2.2
  | _, _ => t.cols.map fun c => c.2.2

/-- The labels of an index as lists of levels. -/
def rowsOf : Labels.Index → List Label
  | .simple ls => ls.map fun l => [l]
  | .multi _ rows => rows

/-- file_io.py 400-549 `load_data` with orientation 0, `reindex=True` and
`return_units=False`. -/
def loadData (t : FileTable) (table : Option (Dict Str ℚ)) : Except PyErr (List Column) :=
  match Labels.toMulti (.simple (t.cols.map Prod.fst)) with
  | .error e => .error e
  | .ok idx =>
    .ok (pySort (fun a b => labelLe a.1 b.1) ((rowsOf idx).zip (loadCells t table)))

end Verif.FileIO
