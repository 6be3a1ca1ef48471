import Verif.Model.LossParams

/-!
# Preparation of the loss calculation of an assessment

Models `pelicun/assessment.py`: the replacement consequences (`_loss__add_replacement_energy`,
`_carbon`, `_time`, `_cost`, 1663-1935), the automatic loss map (`_loss__map_auto`, 1982-2077) and the
part of `DLCalculationAssessment.calculate_loss` that puts the loss map together (1398-1420) and
chooses the components whose losses are combined (1436-1456).
-/

namespace Verif.AsmLoss

open DmgParams (Cell Row)
open LossParams (LossMap Key Source)

/-- A table of consequences. -/
abbrev Table := List (Key × Row)

/-- `adf.loc[key, column] = value` for a row that the table has. -/
def setCell (t : Table) (k : Key) (c : Str × Str) (v : Option Cell) : Table :=
  t.map fun r => if r.1 = k then (r.1, fun c' => if c' = c then v else r.2 c') else r

def cQuantityUnit : Str × Str := (str "Quantity", str "Unit")
def cDvUnit : Str × Str := (str "DV", str "Unit")
def cTheta0 : Str × Str := (str "DS1", str "Theta_0")
def cTheta1 : Str × Str := (str "DS1", str "Theta_1")
def cFamily : Str × Str := (str "DS1", str "Family")

/-- The replacement parameters of one decision variable in the configuration; `none` where nothing is
given (`get(parameters, ..)`). -/
structure Repl where
  unit : Option Str
  median : Option ℚ
  distribution : Option Str
  theta1 : Option ℚ

/-- 1352-1363: a table with four rows and no data. -/
def emptyTable : Table :=
  [((str "replacement", str "Cost"), fun _ => none),
   ((str "replacement", str "Time"), fun _ => none),
   ((str "replacement", str "Carbon"), fun _ => none),
   ((str "replacement", str "Energy"), fun _ => none)]

/-- The three cells that are always set: quantity unit, unit and median. -/
def setThree (t : Table) (k : Key) (unit : Option Cell) (m : Option Cell) : Table :=
  setCell (setCell (setCell t k cQuantityUnit (some (.text (str "1 EA")))) k cDvUnit unit) k cTheta0 m

/-- 1704-1716, 1764-1776, 1835-1847, 1905-1917: the values of the configuration. -/
def setGiven (t : Table) (k : Key) (r : Repl) (m : ℚ) : Table :=
  let t1 := setThree t k (r.unit.map .text) (some (.num m))
  match r.distribution with
  | none => t1
  | some d => setCell (setCell t1 k cFamily (some (.text d))) k cTheta1 (r.theta1.map .num)

/-- `_loss__add_replacement_energy` 1663-1720 and `_loss__add_replacement_carbon` 1723-1781: the table
of the caller after the call.  In the last branch (1718-1720, 1779-1781) the local name `adf` is bound
to a new table; the table of the caller stays as it is. -/
def addOptional (t : Table) (approach : Str) (dv unit : Str) (r : Repl) : Table :=
  match r.median with
  | some m => setGiven t (str "replacement", dv) r m
  | none =>
    if approach = str "FEMA P-58" then
      setThree t (str "replacement", dv) (some (.text unit)) (some (.num 0))
    else
      let _adf := t.filter fun row => row.1 ≠ (str "replacement", dv)
      t

/-- `_loss__add_replacement_cost` 1880-1935 -/
def addCost (t : Table) (approach : Str) (r : Repl) : Table :=
  let k : Key := (str "replacement", str "Cost")
  match r.median with
  | some m => setGiven t k r m
  | none =>
    if approach = str "FEMA P-58" then setThree t k (some (.text (str "USD_2011"))) (some (.num 0))
    else setThree t k (some (.text (str "loss_ratio"))) (some (.num 1))

/-- 1857-1859, 1866-1868: `conseq_df.loc[(id, 'Time'), ('DS5', 'Theta_0')]` and its assignment to a cell.  With
several rows of that name the value is a series, which cannot be assigned to a cell.  A table without that column is
not modelled. -/
def lookupDs5 (conseq : Table) (id : Str) : Except PyErr (Option Cell) :=
  match conseq.filter fun r => decide (r.1 = (id, str "Time")) with
  | [] => .error .keyError
  | [r] => .ok (r.2 (str "DS5", str "Theta_0"))
  | _ => .error .valueError

/-- `_loss__add_replacement_time` 1784-1877; the occupancy type is a text. -/
def addTime (t : Table) (approach : Str) (conseq : Table) (occ : Str) (r : Repl) : Except PyErr Table :=
  let k : Key := (str "replacement", str "Time")
  match r.median with
  | some m => .ok (setGiven t k r m)
  | none =>
    if approach = str "FEMA P-58" then .ok (setThree t k (some (.text (str "worker_day"))) (some (.num 0)))
    else if approach = str "Hazus Earthquake - Buildings" then
      match lookupDs5 conseq (str "STR." ++ occ) with
      | .error e => .error e
      | .ok v => .ok (setThree t k (some (.text (str "day"))) v)
    else if approach = str "Hazus Earthquake - Lifeline Facilities" then
      match lookupDs5 conseq (str "LF." ++ occ) with
      | .error e => .error e
      | .ok v => .ok (setThree t k (some (.text (str "day"))) v)
    else .ok (setThree t k (some (.text (str "loss_ratio"))) (some (.num 1)))

/-- The replacement parameters of all decision variables. -/
structure Config where
  approach : Str
  occupancy : Str
  cost : Repl
  time : Repl
  carbon : Repl
  energy : Repl

/-- 1350-1401: the table of replacement consequences. -/
def replacementTable (conseq : Table) (c : Config) : Except PyErr Table :=
  match addTime (addCost emptyTable c.approach c.cost) c.approach conseq c.occupancy c.time with
  | .error e => .error e
  | .ok t =>
    .ok (addOptional (addOptional t c.approach (str "Carbon") (str "kg") c.carbon) c.approach
      (str "Energy") (str "MJ") c.energy)

/-- 2036-2075, one component of the asset: the id of its consequence. -/
def autoTarget (approach : Str) (occ : Option Str) (c : Str) : Str :=
  if (str "Hazus Earthquake").isPrefixOf approach then
    match occ with
    | some o => (splitChar '.' c).headD [] ++ '.' :: o
    | none => (splitChar '.' c).headD []
  else c

/-- `_loss__map_auto` 1982-2077; `cmps` are the distinct components of the asset, `lossCmps` the ids
of the consequence database. -/
def autoMap (approach : Str) (occ : Option Str) (lossCmps : List Str) (cmps : List Str) : LossMap :=
  cmps.filterMap fun c =>
    if c = str "collapse" then none
    else if autoTarget approach occ c ∈ lossCmps then some (c, autoTarget approach occ c) else none

/-- `loss_map.loc[label, 'Repair'] = value`: all rows with the label are changed; a row is added if
there is none. -/
def setLabel (m : LossMap) (label value : Str) : LossMap :=
  if label ∈ m.map (·.1) then m.map fun r => if r.1 = label then (r.1, value) else r
  else m ++ [(label, value)]

/-- 1418-1421 -/
def withReplacement (m : LossMap) : LossMap :=
  if str "DMG-collapse" ∈ m.map (·.1) then m
  else setLabel (setLabel m (str "collapse") (str "replacement")) (str "irreparable") (str "replacement")

/-- 1403-1426: the loss map of the loss model. -/
def finalMap (m : LossMap) : Except PyErr LossMap := LossParams.addLossMap (some (withReplacement m)) none []

/-- 1452-1459: the pair of components whose losses are combined with the matrix for wind and flood. -/
def hurricanePair (m : LossMap) : Except PyErr (Str × Str) :=
  match withReplacement m with
  | a :: b :: _ => .ok (a.1, b.1)
  | _ => .error .indexError

end Verif.AsmLoss
