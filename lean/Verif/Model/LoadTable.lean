import Verif.Model.FileIO
import Verif.Model.DmgParams
import Verif.Model.CommandLine

/-!
# Reading tables (pelicun/file_io.py, pelicun/base.py)

Models `load_data` (file_io.py 400-549) for tables with numbers, text and missing cells in both orientations, `load_from_file`
(552-614), and `check_if_str_is_na` (1211-1248), `with_parsed_str_na_values` (1251-1272) and `convert_dtypes` (870-909) of base.py.

`parse` is the number that pandas reads in a text, if it is one; `read_csv` and `to_numeric` are assumed to agree on it.  Not
modelled: truth values, infinities, labels that are not text, repeated labels (`read_csv` renames repeated columns), labels that
stand for missing values, log messages.
-/

namespace Verif.LoadTable

open DmgParams (Cell)
open FileIO (Label labelLe rowsOf)

/-- A table with row labels `index` and columns.  Every column has one cell per row; `none` is NaN. -/
structure Table where
  index : List Str
  cols : List (Str × List (Option Cell))
  deriving DecidableEq

/-- The text of a table in a file: the entries of the first column and the other columns. -/
structure TextTable where
  index : List Str
  cols : List (Str × List Str)
  deriving DecidableEq

/-- base.py 1225-1245: the strings that stand for a missing value (`STR_NA_VALUES` in pandas). -/
def naVals : List Str :=
  [str "", str "N/A", str "-1.#QNAN", str "null", str "None", str "<NA>", str "nan", str "-NaN", str "1.#IND", str "NaN", str "#NA",
   str "1.#QNAN", str "NULL", str "-nan", str "#N/A", str "#N/A N/A", str "n/a", str "-1.#IND", str "NA"]

/-- base.py 1211-1248 `check_if_str_is_na` -/
def checkNa : Option Cell → Bool
  | some (.text s) => naVals.contains s
  | _ => false

/-- base.py 1251-1272 `with_parsed_str_na_values` -/
def parseNa (t : Table) : Table :=
  { t with cols := t.cols.map fun c => (c.1, c.2.map fun x => if checkNa x then none else x) }

/-- Conversion of a column to numbers: `none` if a cell is not a number (`pd.to_numeric` raises `ValueError`). -/
def toNumeric (parse : Str → Option ℚ) : List (Option Cell) → Option (List (Option Cell))
  | [] => some []
  | none :: l => (toNumeric parse l).map (none :: ·)
  | some (.num q) :: l => (toNumeric parse l).map (some (.num q) :: ·)
  | some (.text s) :: l =>
    match parse s with
    | none => none
    | some q => (toNumeric parse l).map (some (.num q) :: ·)

/-- base.py 902-906: a column that cannot be converted is left as it is. -/
def toNumericIfPossible (parse : Str → Option ℚ) (l : List (Option Cell)) : List (Option Cell) :=
  (toNumeric parse l).getD l

/-- base.py 870-909 `convert_dtypes` -/
def convertDtypes (parse : Str → Option ℚ) (t : Table) : Table :=
  { t with cols := t.cols.map fun c => (c.1, toNumericIfPossible parse c.2) }

/-- `pd.read_csv(header=0, index_col=0)`: strings that stand for a missing value are missing; a column of numbers is numeric. -/
def readCsv (parse : Str → Option ℚ) (t : TextTable) : Table :=
  convertDtypes parse
    ⟨t.index, t.cols.map fun c => (c.1, c.2.map fun s => if naVals.contains s then none else some (.text s))⟩

/-- Does `select_dtypes(include=[np.number])` select the column: there is no text in it. -/
def isNumeric (l : List (Option Cell)) : Bool :=
  l.all fun
    | some (.text _) => false
    | _ => true

/-- 472-476: the first label that reads `units` in lower case. -/
def unitsKey (labels : List Str) : Option Nat := labels.findIdx? fun k => CommandLine.lower k == str "units"

/-- 496-502: the factor of a unit: one for missing and unknown units.  A number is not the name of a unit. -/
def unitFactor (table : Dict Str ℚ) : Option Cell → ℚ
  | some (.text u) => (table.get? u).getD 1
  | _ => 1

/-- A cell multiplied by a factor; text cannot be multiplied by a float. -/
def scaleCell (f : ℚ) : Option Cell → Except PyErr (Option Cell)
  | none => .ok none
  | some (.num q) => .ok (some (.num (q * f)))
  | some (.text _) => .error .typeError

/-- 504-511, orientation 1: the cells of the numeric columns are multiplied by the factors of their rows. -/
def scaleRows (fs : List ℚ) (c : Str × List (Option Cell)) : Except PyErr (Str × List (Option Cell)) :=
  if isNumeric c.2 then
    match mapE (fun x => scaleCell x.1 x.2) (fs.zip c.2) with
    | .error e => .error e
    | .ok l => .ok (c.1, l)
  else .ok c

/-- 512-518, orientation 0: `select_dtypes(...).index` is the index of the table (487-488), so that all columns are multiplied by
their factors. -/
def scaleCol (f : ℚ) (c : Str × List (Option Cell)) : Except PyErr (Str × List (Option Cell)) :=
  match mapE (scaleCell f) c.2 with
  | .error e => .error e
  | .ok l => .ok (c.1, l)

/-- 467-526: the units are taken out of the table, the columns are converted to numbers, and the numbers to base units.  The first
component of the result has the labels of the variables with their units. -/
def takeUnits (parse : Str → Option ℚ) (byRow : Bool) (factors : Option (Dict Str ℚ)) (t : Table) :
    Except PyErr (Option (List (Str × Option Cell)) × Table) :=
  if byRow then
    match unitsKey (t.cols.map Prod.fst) with
    | none => .ok (none, convertDtypes parse t)
    | some i =>
      let us := ((t.cols[i]?).map Prod.snd).getD []
      let d := convertDtypes parse { t with cols := t.cols.eraseIdx i }
      match factors with
      | none => .ok (some (t.index.zip us), d)
      | some table =>
        match mapE (scaleRows (us.map (unitFactor table))) d.cols with
        | .error e => .error e
        | .ok cols => .ok (some (t.index.zip us), { d with cols := cols })
  else
    match unitsKey t.index with
    | none => .ok (none, convertDtypes parse t)
    | some i =>
      let us := t.cols.map fun c => (c.1, (c.2[i]?).getD none)
      let d := convertDtypes parse ⟨t.index.eraseIdx i, t.cols.map fun c => (c.1, c.2.eraseIdx i)⟩
      match factors with
      | none => .ok (some us, d)
      | some table =>
        match mapE (fun x => scaleCol (unitFactor table x.1.2) x.2) (us.zip d.cols) with
        | .error e => .error e
        | .ok cols => .ok (some us, { d with cols := cols })

/-- What `load_data(return_units=True)` returns.  `index` is `none` for the rows `0, 1, ...`. -/
structure Loaded where
  index : Option (List Label)
  cols : List (Label × List (Option Cell))
  units : Option (List (Label × Cell))
  deriving DecidableEq

/-- The labels as levels: `convert_to_MultiIndex`. -/
def levels (labels : List Str) : Except PyErr (List Label) :=
  match Labels.toMulti (.simple labels) with
  | .error e => .error e
  | .ok idx => .ok (rowsOf idx)

/-- The cells in another order. -/
def reorder {α : Type} (order : List Nat) (l : List α) : List α := order.filterMap (l[·]?)

/-- `sort_index()`: the order of the rows. -/
def rowOrder (labels : List Label) : List Nat :=
  (pySort (fun a b => labelLe a.1 b.1) (labels.zip (List.range labels.length))).map Prod.snd

/-- 540-545: the units that are given, by label. -/
def unitsOut : Option (List (Str × Option Cell)) → Except PyErr (Option (List (Label × Cell)))
  | none => .ok none
  | some us =>
    match levels (us.map Prod.fst) with
    | .error e => .error e
    | .ok ls =>
      .ok (some (pySort (fun a b => labelLe a.1 b.1) ((ls.zip (us.map Prod.snd)).filterMap fun x => x.2.map fun u => (x.1, u))))

/-- 528-549: split and sort the labels. -/
def arrange (reindex : Bool) (x : Option (List (Str × Option Cell)) × Table) : Except PyErr Loaded :=
  match levels (x.2.cols.map Prod.fst) with
  | .error e => .error e
  | .ok ls =>
    let cols := pySort (fun a b => labelLe a.1 b.1) (ls.zip (x.2.cols.map Prod.snd))
    if reindex then
      match unitsOut x.1 with
      | .error e => .error e
      | .ok us => .ok ⟨none, cols, us⟩
    else
      match levels x.2.index with
      | .error e => .error e
      | .ok rows =>
        match unitsOut x.1 with
        | .error e => .error e
        | .ok us =>
          .ok ⟨some (reorder (rowOrder rows) rows), cols.map fun c => (c.1, reorder (rowOrder rows) c.2), us⟩

/-- What is passed as `data_source`. -/
inductive Source where
  | frame (t : Table)
  /-- a path: the suffix of the file name, and the contents if there is such a file -/
  | file (suffix : Str) (contents : Option TextTable)
  /-- an object that is neither a data frame nor a string -/
  | other

/-- 457-466 and `load_from_file` (552-614) -/
def readSource (parse : Str → Option ℚ) : Source → Except PyErr Table
  | .frame t => .ok (parseNa t)
  | .file _ none => .error .fileNotFoundError
  | .file suffix (some t) => if suffix = str ".csv" then .ok (readCsv parse t) else .error .valueError
  | .other => .error .typeError

/-- 400-549 `load_data`; `byRow` is orientation 1. -/
def loadData (parse : Str → Option ℚ) (byRow reindex : Bool) (factors : Option (Dict Str ℚ)) (s : Source) : Except PyErr Loaded :=
  match readSource parse s with
  | .error e => .error e
  | .ok t =>
    match takeUnits parse byRow factors t with
    | .error e => .error e
    | .ok x => arrange reindex x

end Verif.LoadTable
