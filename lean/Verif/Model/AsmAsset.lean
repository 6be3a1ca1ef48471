import Verif.Model.Asset
import Verif.Model.FileIO

/-!
# Asset model of an assessment

pelicun/assessment.py `DLCalculationAssessment.calculate_asset` (778-917), up to loading the component model; the
component quantities are generated afterwards (912).  The cells of the component table are as `CmpRow` describes them;
that pandas turns a column of integers into one of floats when a row is appended is not modelled (`str` of the number
is read back to the same integer).  Reading the table from its file is not modelled.
-/

namespace Verif.AsmAsset

open Asset

/-- `cmp_marginals.loc[name, column] = value` for the columns `Units`, `Location`, `Direction`, `Theta_0`
(851-862, 873-876, 882-896), one row: the other cells keep their values. -/
def overwrite (loc dir : Str) (r : CmpRow) : CmpRow :=
  { r with unit := some (str "ea"), location := loc, direction := dir,
           params := { r.params with theta := .num 1 :: r.params.theta.tail } }

/-- The row that is appended if there is no row of that name: all other cells are missing. -/
def newRow (name loc dir : Str) : CmpRow :=
  ⟨name, loc, dir, none, some (str "ea"), ⟨.deterministic, false, [.num 1], none, none⟩⟩

/-- The four assignments to one row label: all rows with that label change, or a row is appended. -/
def setRow (name loc dir : Str) (rows : List CmpRow) : List CmpRow :=
  if rows.any (fun r => decide (r.cmp = name)) then
    rows.map fun r => if r.cmp = name then overwrite loc dir r else r
  else rows ++ [newRow name loc dir]

/-- `demand_sample[type].columns.unique(level=0)`, 853-855 and 884 -/
def locsOf (cols : List (Str × Str × Str)) (t : Str) : List Str :=
  FileIO.uniqueVals [] ((cols.filter fun c => decide (c.1 = t)).map fun c => c.2.1)

/-- `demand_sample[type].columns.unique(level=1)`, 858-860 and 887 -/
def dirsOf (cols : List (Str × Str × Str)) (t : Str) : List Str :=
  FileIO.uniqueVals [] ((cols.filter fun c => decide (c.1 = t)).map fun c => c.2.2)

/-- `type in dem_types` -/
def hasType (cols : List (Str × Str × Str)) (t : Str) : Bool := cols.any fun c => decide (c.1 = t)

/-- `collapse_fragility_demand_type.startswith('SA')`, 841 -/
def isSA : Str → Bool
  | 'S' :: 'A' :: _ => true
  | _ => false

/-- One row for every location and every direction of a demand type, 846-862 and 881-890 -/
def setEverywhere (cols : List (Str × Str × Str)) (name t : Str) (rows : List CmpRow) : List CmpRow :=
  setRow name (joinChar ',' (locsOf cols t)) (joinChar ',' (dirsOf cols t)) rows

/-- 839-870: nothing but a warning if the demand is not available. -/
def addCollapseDemand (cols : List (Str × Str × Str)) (coll : Option Str) (rows : List CmpRow) : List CmpRow :=
  match coll with
  | none => rows
  | some t =>
    if isSA t then rows
    else if hasType cols t then setEverywhere cols (str "excessive.coll.DEM") t rows
    else rows

/-- 879-903: nothing but a warning if there are no residual drifts. -/
def addIrreparable (cols : List (Str × Str × Str)) (irr : Bool) (rows : List CmpRow) : List CmpRow :=
  if irr then
    if hasType cols (str "RID") then
      setRow (str "irreparable") (str "0") (str "1") (setEverywhere cols (str "excessiveRID") (str "RID") rows)
    else rows
  else rows

/-- 836-903: the component table that is loaded. -/
def extendTable (cols : List (Str × Str × Str)) (coll : Option Str) (irr : Bool) (rows : List CmpRow) : List CmpRow :=
  addIrreparable cols irr (setRow (str "collapse") (str "0") (str "1") (addCollapseDemand cols coll rows))

/-- What an assessment has as component model afterwards. -/
inductive Outcome where
  | model (groups : List (((Str × Str × Str) × Str) × PG))
  | sampleFile
  | unchanged
  deriving DecidableEq

/-- 808-812: the number of stories; zero leaves it as it is. -/
def storiesOf (old : Option Int) (n : Int) : Option Int := if n ≠ 0 then some n else old

/-- 778-917 `calculate_asset`: `rows` is the table of the component assignment file if there is one, `sample` tells
whether there is a component sample file. -/
def calculateAsset (table : Dict Str ℚ) (old : Option Int) (n : Int) (cols : List (Str × Str × Str)) (coll : Option Str)
    (irr : Bool) (rows : Option (List CmpRow)) (sample : Bool) : Except PyErr Outcome :=
  match rows with
  | some rs =>
    if sample then .error .valueError
    else match loadCmpModel table (storiesOf old n) (extendTable cols coll irr rs) with
      | .error e => .error e
      | .ok g => .ok (.model g)
  | none => .ok (if sample then .sampleFile else .unchanged)

end Verif.AsmAsset
