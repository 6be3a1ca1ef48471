import Verif.Model.PyNum
import Verif.Model.Labels
import Verif.Model.FileIO

/-!
# JSON versions of the result files

pelicun/tools/DL_calculation.py `convert_df_to_dict` (180-253) and `_create_json_files_if_requested` (1013-1075), with the parts
of `pandas.read_csv` and of the selection of columns that they use.  The file is given by the texts in its cells.
-/

namespace Verif.ToolJson

open FileIO (uniqueVals)

/-- A table in a file: the labels of the rows, and each column with its label and the texts in its cells. -/
structure Csv where
  rows : List Str
  cols : List (Str × List Str)

/-- A value in a JSON file. -/
inductive Val where
  | num (x : PyFloat)
  | text (s : Str)
  deriving DecidableEq, Repr

/-- What a column becomes: a list of numbers, or a dictionary from the labels of the rows. -/
inductive Leaf where
  | values (l : List PyFloat)
  | rows (d : List (Str × Val))
  deriving DecidableEq, Repr

/-- The dictionary that is written. -/
inductive Out where
  | leaf (l : Leaf)
  | node (d : List (Str × Out))

/-- The texts that `pandas.read_csv` takes for missing values. -/
def missingTexts : List Str :=
  [str "", str "#N/A", str "#N/A N/A", str "#NA", str "-1.#IND", str "-1.#QNAN", str "-NaN", str "-nan", str "1.#IND", str "1.#QNAN",
   str "<NA>", str "N/A", str "NA", str "NULL", str "NaN", str "None", str "n/a", str "nan", str "null"]

/-- `pandas.read_csv`: a column has numbers if all cells that are not missing are numbers, otherwise texts.
Columns of truth values are not modelled. -/
def isNumeric (cells : List Str) : Bool := cells.all fun c => decide (c ∈ missingTexts) || (pyFloat? c).isSome

/-- A cell of the table that was read. -/
def cellVal (numeric : Bool) (c : Str) : Val :=
  if c ∈ missingTexts then .num .nan
  else if numeric then .num ((pyFloat? c).getD .nan)
  else .text c

/-- `astype(float)` of a cell. -/
def valFloat : Val → Except PyErr PyFloat
  | .num x => .ok x
  | .text s => match pyFloat? s with
    | some x => .ok x
    | none => .error .valueError

/-- `str.isnumeric` for ASCII characters. -/
def isNumericLabel (s : Str) : Bool := !s.isEmpty && s.all fun c => (digitVal? c).isSome

/-- 246-251: a column with the labels of the rows. -/
def leafOf (rows : List Str) (cells : List Val) : Except PyErr Leaf :=
  if rows.all isNumericLabel then
    match mapE valFloat cells with
    | .error e => .error e
    | .ok l => .ok (.values l)
  else .ok (.rows (rows.zip cells))

/-- `pandas.DataFrame.__getitem__`: if only one column is left and its next label is empty, the label is
dropped, and so on. -/
def dropEmpty : List Str → List Str
  | [] => []
  | l :: p => if l = [] then dropEmpty p else l :: p

/-- The columns below a label. -/
def below {α : Type} (label : Str) (cols : List (List Str × α)) : List (List Str × α) :=
  cols.filterMap fun c => match c.1 with
    | [] => none
    | l :: p => if l = label then some (p, c.2) else none

/-- 217-253 `convert_df_to_dict` with axis 1.  Columns are given by the labels of their levels, which are as many for
all columns; the number bounds the depth.  Columns with the same labels are not written (`tolist` does not exist
for a table, and `json.dump` does not write its rows); this is one error here. -/
def build {α : Type} (leaf : α → Except PyErr Leaf) : Nat → List (List Str × α) → Except PyErr (List (Str × Out))
  | 0, _ => .error .indexError
  | n + 1, cols =>
    mapE (fun label =>
      match below label cols with
      | [(p, a)] =>
        match dropEmpty p with
        | [] => match leaf a with
          | .error e => .error e
          | .ok l => .ok (label, .leaf l)
        | p' => match build leaf n [(p', a)] with
          | .error e => .error e
          | .ok d => .ok (label, .node d)
      | sub =>
        if sub.all fun c => c.1.isEmpty then .error .attributeError
        else match build leaf n sub with
          | .error e => .error e
          | .ok d => .ok (label, .node d))
      (uniqueVals [] (cols.filterMap fun c => c.1.head?))

/-- 1037-1045: the levels of the columns. -/
def levels (simple : Bool) (labels : List Str) : Except PyErr Labels.Index :=
  if simple then .ok (.simple labels) else Labels.toMulti (.simple labels)

/-- 1048-1052: the label of the row with the units. -/
def unitsKey (rows : List Str) : Option Str := rows.find? fun r => decide (r.map Char.toLower = str "units")

/-- `data.loc[key]` in one column. -/
def atRow (key : Str) (rows : List Str) (cells : List Val) : Val :=
  ((rows.zip cells).find? fun r => decide (r.1 = key)).elim (.num .nan) (·.2)

/-- `data.drop(key)` -/
def dropRow (key : Option Str) (rows : List Str) (cells : List Val) : List Val :=
  ((rows.zip cells).filter fun r => decide (some r.1 ≠ key)).map (·.2)

/-- 1034-1075 for one file.  The row of the units is assumed to be there only once. -/
def createJson (simple : Bool) (t : Csv) : Except PyErr (Dict Str Out) :=
  let cells := t.cols.map fun c => c.2.map (cellVal (isNumeric c.2))
  match levels simple (t.cols.map (·.1)) with
  | .error e => .error e
  | .ok idx =>
    let key := unitsKey t.rows
    let rows := t.rows.filter fun r => decide (some r ≠ key)
    let paths := FileIO.rowsOf idx
    let n := (paths.map List.length).foldr max 0
    match build (leafOf rows) n (paths.zip (cells.map (dropRow key t.rows))) with
    | .error e => .error e
    | .ok d =>
      match key with
      | none => .ok d
      | some k =>
        .ok (Dict.set d (str "Units") (.leaf (.rows ((FileIO.rowsOf (Labels.toSimple idx)).map (joinChar '-') |>.zip
          (cells.map (atRow k t.rows))))))

end Verif.ToolJson
