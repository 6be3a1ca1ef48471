import Verif.Model.FileIO

/-!
# Demand samples (`/repo/pelicun/model/demand_model.py` 135-322, 475-525, 1032-1127)

A sample is a list of columns labelled by type, location and direction together with the
series of user units (in the order of the series).  Log messages are not modelled.
-/

namespace Verif.DemandSample

open Verif.FileIO

/-- `self.sample` and `self.user_units`. -/
structure Sample where
  cols : List Column
  units : List (Label × Str)
  deriving DecidableEq

/-- A table with a row of units: label, unit (`none` if empty) and cells of each column. -/
abbrev RawTable := List (Label × Option Str × List (Option ℚ))

/-- demand_model.py 231-262 `parse_header`: drop the event id of four-level labels, remove
spaces; fewer than three levels raise `IndexError`. -/
def parseLabel : Label → Except PyErr Label
  | [_, t, l, d] => .ok ([t, l, d].map (List.filter (· ≠ ' ')))
  | t :: l :: d :: _ => .ok ([t, l, d].map (List.filter (· ≠ ' ')))
  | _ => .error .indexError

/-- The scaled and sorted data of `load_data` (file_io.py 464-530). -/
def loadedData (table : Dict Str ℚ) (t : RawTable) : List Column :=
  pySort (fun a b => labelLe a.1 b.1) (t.map fun c => (c.1, scaleCells (loadFactor table c.2.1) c.2.2))

/-- The units returned by `load_data`: those given, sorted by label (file_io.py 537-541). -/
def loadedUnits (t : RawTable) : List (Label × Str) :=
  pySort (fun a b => labelLe a.1 b.1) (t.filterMap fun c => c.2.1.map fun u => (c.1, u))

/-- `parse_header` for one entry. -/
def relabel {α : Type} (c : Label × α) : Except PyErr (Label × α) :=
  match parseLabel c.1 with
  | .ok lab => .ok (lab, c.2)
  | .error e => .error e

/-- Apply `parse_header` to the labels of a list. -/
def parseLabels {α : Type} (l : List (Label × α)) : Except PyErr (List (Label × α)) :=
  mapE relabel l

/-- Truth value of a cell: everything but zero, also NaN. -/
def truthy : Option ℚ → Bool
  | none => true
  | some q => q ≠ 0

def isError (c : Column) : Bool := c.1.head? = some (str "ERROR")

/-- Keep the items of a column at positions where the flag is not set. -/
def dropFlagged {α : Type} (flags : List Bool) (v : List α) : List α :=
  ((flags.zip v).filter fun e => !e.1).map Prod.snd

/-- demand_model.py 289-315: remove the realizations flagged in the `ERROR` column and the
column itself.  With several `ERROR` columns the two-dimensional mask is refused by pandas. -/
def removeErrors (data : List Column) : Except PyErr (List Column) :=
  match data.filter isError with
  | [] => .ok data
  | [e] => .ok ((data.filter fun c => !isError c).map fun c => (c.1, dropFlagged (e.2.map truthy) c.2))
  | _ => .error .valueError

/-- demand_model.py 184-322 `load_sample` for a table that has a row of units (without one the
assertion in line 278 fails). -/
def loadSample (table : Dict Str ℚ) (t : RawTable) : Except PyErr Sample :=
  match parseLabels (loadedData table t) with
  | .error e => .error e
  | .ok data =>
    match removeErrors data with
    | .error e => .error e
    | .ok data =>
      match parseLabels (loadedUnits t) with
      | .error e => .error e
      | .ok units => .ok ⟨data, units⟩

/-- demand_model.py 135-182 `save_sample(save_units=True)`: the sample in user units. -/
def saveSample (table : Dict Str ℚ) (s : Sample) : Except PyErr RawTable :=
  match scaleLoop table s.units (uniqueVals [] (s.units.map Prod.snd)) s.cols with
  | .error e => .error e
  | .ok data => .ok ((pySort (fun a b => labelLe a.1 b.1) data).map fun c =>
      (c.1, Dict.get? s.units c.1, c.2))

/-- The value of the new column: one number for all rows or one number per row. -/
inductive NewValue where
  | scalar (q : ℚ)
  | array (v : List ℚ)

/-- demand_model.py 519-522: an array must have the length of the sample. -/
def newCells (n : Nat) : NewValue → Except PyErr (List (Option ℚ))
  | .scalar q => .ok (List.replicate n (some q))
  | .array v => if v.length = n then .ok (v.map some) else .error .valueError

/-- Number of realizations. -/
def rowCount : List (Label × Option Str × List (Option ℚ)) → Nat
  | [] => 0
  | c :: _ => c.2.2.length

/-- `demand_sample[label, location, direction] = value` and the unit likewise: replace the column
or append it. -/
def setColumn (t : RawTable) (l : Label) (u : Str) (v : List (Option ℚ)) : RawTable :=
  Dict.set t l (some u, v)

/-- demand_model.py 475-525 `expand_sample`. -/
def expandSample (table : Dict Str ℚ) (s : Option Sample) (l : Label) (value : NewValue) (unit : Str) :
    Except PyErr Sample :=
  match s with
  | none => .error .valueError
  | some s =>
    match saveSample table s with
    | .error e => .error e
    | .ok t =>
      match newCells (rowCount t) value with
      | .error e => .error e
      | .ok v => loadSample table (setColumn t l unit v)

/-- demand_model.py 1082-1088: the configuration with labels as tuples. -/
def cloningTuples (cfg : Dict Str (List Str)) : Dict Label (List Label) :=
  cfg.map fun e => (splitChar '-' e.1, e.2.map (splitChar '-'))

/-- demand_model.py 1110-1120: positions and new labels. -/
def cloneColumns (cfg : Dict Label (List Label)) : Nat → List Label → List (Nat × Label)
  | _, [] => []
  | i, c :: cs =>
    (match cfg.get? c with
      | none => [(i, c)]
      | some ts => ts.map fun t => (i, t)) ++ cloneColumns cfg (i + 1) cs

/-- `.iloc[column_index]` with the new labels; a position out of range raises `IndexError`. -/
def ilocLabels {α : Type} (l : List (Label × α)) (ixs : List (Nat × Label)) :
    Except PyErr (List (Label × α)) :=
  mapE (fun e => match l[e.1]? with
    | some c => .ok (e.2, c.2)
    | none => .error .indexError) ixs

/-- demand_model.py 1032-1127 `clone_demands` (the warning about unknown source columns is not
modelled). -/
def cloneDemands (cfg : Dict Str (List Str)) (s : Sample) : Except PyErr Sample :=
  if ¬ (cfg.flatMap Prod.snd).Nodup then .error .valueError
  else
    let ixs := cloneColumns (cloningTuples cfg) 0 (s.cols.map Prod.fst)
    match ilocLabels s.cols ixs with
    | .error e => .error e
    | .ok cols =>
      match ilocLabels s.units ixs with
      | .error e => .error e
      | .ok units => .ok ⟨cols, units⟩

end Verif.DemandSample
