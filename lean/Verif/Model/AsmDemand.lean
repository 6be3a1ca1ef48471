import Verif.Model.DemandSample
import Verif.Model.DemandReq
import Verif.Model.PyNum

/-!
# Demand input of an assessment

pelicun/assessment.py `DLCalculationAssessment.calculate_demand` (600-691, up to loading the sample) and
`_add_units` (1584-1660).  Log messages are not modelled.
-/

namespace Verif.AsmDemand

open FileIO

/-- The demand file: labels of the columns, their entries in the `Units` row (if there is one), and
their cells. -/
structure Raw where
  hasUnits : Bool
  cols : List (Label × Option Str × List (Option ℚ))
  deriving DecidableEq

/-- A collapse limit from the configuration: a text, a float or something else (for example an
integer). -/
inductive Limit where
  | text (s : Str)
  | float (x : PyFloat)
  | other
  deriving DecidableEq

/-- 645: `convert_to_MultiIndex` (base.py 798-867); a table that is split already is not changed. -/
def splitLabels (t : Raw) : Except PyErr Raw :=
  match Labels.toMulti (.simple (t.cols.map fun c => joinChar '-' c.1)) with
  | .error e => .error e
  | .ok idx => .ok ⟨t.hasUnits, (rowsOf idx).zip (t.cols.map (·.2))⟩

/-- The level of the demand type: the second of four levels, otherwise the first (660-675, 1613-1614). -/
def typeOf (l : Label) : Str := if l.length = 4 then l.getD 1 [] else l.getD 0 []

/-- 659 and 667: texts and floats are accepted, `float(limit)`. -/
def limitValue : Limit → Except PyErr PyFloat
  | .text s => match pyFloat? s with
    | none => .error .valueError
    | some x => .ok x
  | .float x => .ok x
  | .other => .error .assertionError

/-- `value > limit`; comparisons with NaN are false. -/
def exceeds (limit : PyFloat) : Option ℚ → Bool
  | none => false
  | some v => match limit with
    | .fin q => q < v
    | .inf negative => negative
    | .nan => false

/-- `.max(axis=1)` in realization `i`, skipping NaN. -/
def maxAt (cols : List (Label × Option Str × List (Option ℚ))) (i : Nat) : Option ℚ :=
  (cols.map fun c => c.2.2[i]?.join).foldr DemandReq.maxCell none

/-- Whether pandas accepts `idx[dem_type, :, :]`: at least three levels. -/
def sliceable (cols : List (Label × Option Str × List (Option ℚ))) : Bool := cols.all fun c => 3 ≤ c.1.length

/-- 656-675: the realizations flagged by one limit. -/
def limitFlags (cols : List (Label × Option Str × List (Option ℚ))) (n : Nat) (l : Str × Limit) : Except PyErr (List Bool) :=
  if l.2 = .other then .error .assertionError
  else if sliceable cols = false then .error .indexError
  else if (cols.filter fun c => typeOf c.1 = l.1) = [] then .error .keyError
  else match limitValue l.2 with
    | .error e => .error e
    | .ok x => .ok ((List.range n).map fun i => exceeds x (maxAt (cols.filter fun c => typeOf c.1 = l.1) i))

/-- `dem_to_drop += ...` -/
def orFlags (a b : List Bool) : List Bool := List.zipWith (· || ·) a b

/-- 643-690: remove the realizations that exceed a limit; nothing is done without limits. -/
def dropCollapses (limits : List (Str × Limit)) (t : Raw) : Except PyErr Raw :=
  if limits = [] then .ok t
  else match splitLabels t with
    | .error e => .error e
    | .ok t =>
      let n := DemandSample.rowCount t.cols
      match mapE (limitFlags t.cols n) limits with
      | .error e => .error e
      | .ok flags =>
        let drop := flags.foldl orFlags (List.replicate n false)
        .ok ⟨t.hasUnits, t.cols.map fun c => (c.1, c.2.1, DemandSample.dropFlagged drop c.2.2)⟩

/-- 1621-1624: the type without additional information, `d.split('_')[0]`. -/
def baseType (t : Str) : Str := (splitChar '_' t).headD []

def accTypes : List Str := [str "PFA", str "PGA", str "SA"]
def speedTypes : List Str := [str "PFV", str "PWS", str "PGV", str "SV"]
def dispTypes : List Str := [str "PFD", str "PIH", str "SD", str "PGD"]
def rotTypes : List Str := [str "PID", str "PRD", str "DWD", str "RDR", str "PMD", str "RID"]

/-- 1630-1657: four assignments to masked columns; the later one wins. -/
def unitOf (lengthUnit t : Str) : Option Str :=
  if baseType t ∈ rotTypes then some (str "unitless")
  else if baseType t ∈ dispTypes then some lengthUnit
  else if baseType t ∈ speedTypes then some (lengthUnit ++ str "ps")
  else if baseType t ∈ accTypes then some (lengthUnit ++ str "ps2")
  else none

/-- 1606-1607. -/
def fixInch (u : Str) : Str := if u = str "in" then str "inch" else u

/-- 1584-1660 `_add_units`. -/
def addUnits (lengthUnit : Str) (t : Raw) : Except PyErr Raw :=
  match splitLabels t with
  | .error e => .error e
  | .ok t =>
    .ok ⟨true, ((pySort (fun a b => labelLe a.1 b.1) t.cols).filter fun c => decide (typeOf c.1 ≠ [])).map fun c =>
      (c.1, unitOf (fixInch lengthUnit) (typeOf c.1), c.2.2)⟩

/-- 641-705: the table that is loaded as the demand sample. -/
def demandInput (limits : List (Str × Limit)) (lengthUnit : Option Str) (t : Raw) : Except PyErr Raw :=
  match dropCollapses limits t with
  | .error e => .error e
  | .ok t =>
    if t.hasUnits then .ok t
    else match lengthUnit with
      | none => .error .valueError
      | some u => addUnits u t

end Verif.AsmDemand
