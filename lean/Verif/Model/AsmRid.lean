import Verif.Model.DemandSample
import Verif.Model.DmgParams
import Verif.Model.PyNum

/-!
# Residual drifts and the constant demand of an assessment

pelicun/assessment.py `DLCalculationAssessment.calculate_demand` 721-776, after the demand sample was generated: residual
drifts are inferred and the constant demand is added.  The estimate itself is demand_model.py `estimate_RID` (module
DemandRid); here it is a parameter `est` with the yield drift, the label of the column and its values as arguments.  The
labels of a sample are distinct, so random deviations can be told apart by the label.
-/

namespace Verif.AsmRid

open DemandSample (RawTable Sample saveSample loadSample setColumn rowCount)
open DmgParams (Cell)
open FileIO (Label)

/-- `demand_sample['PID']` (738-740): location, direction and values of the peak drifts. -/
def pidColumns (t : RawTable) : List (Label × List (Option ℚ)) :=
  t.filterMap fun c => if c.1.head? = some (str "PID") then some (c.1.tail, c.2.2) else none

/-- `pid.loc[:, idx[:, direction]]` (743) -/
def inDirection (d : Str) (pid : List (Label × List (Option ℚ))) : List (Label × List (Option ℚ)) :=
  pid.filter fun c => decide (c.1.getLast? = some d)

/-- `float(delta_yield)` (747) -/
def yieldDrift : Cell → Except PyErr PyFloat
  | .num q => .ok (.fin q)
  | .text s => match pyFloat? s with
    | none => .error .valueError
    | some f => .ok f

/-- 742-750, one direction; a direction that no column has raises `KeyError`. -/
def ridOne (est : PyFloat → Label → List (Option ℚ) → List (Option ℚ)) (pid : List (Label × List (Option ℚ)))
    (e : Str × Cell) : Except PyErr RawTable :=
  if inDirection e.1 pid = [] then .error .keyError
  else match yieldDrift e.2 with
    | .error e => .error e
    | .ok y => .ok ((inDirection e.1 pid).map fun c => (str "RID" :: c.1, some (str "unitless"), est y c.1 c.2))

/-- 736-758: `pd.concat` of no tables raises `ValueError`. -/
def ridTable (est : PyFloat → Label → List (Option ℚ) → List (Option ℚ)) (cfg : Dict Str Cell) (t : RawTable) :
    Except PyErr RawTable :=
  if pidColumns t = [] then .error .keyError
  else match mapE (ridOne est (pidColumns t)) cfg with
    | .error e => .error e
    | .ok l => if l = [] then .error .valueError else .ok l.flatten

/-- 731-766: the table with residual drifts, and the configuration after the call, from which the method was removed
(734). -/
def inferRid (est : PyFloat → Label → List (Option ℚ) → List (Option ℚ)) (cfg : Dict Str Cell) (t : RawTable) :
    Except PyErr RawTable × Dict Str Cell :=
  if cfg = [] then (.ok t, cfg)
  else match cfg.get? (str "method") with
    | none => (.error .keyError, cfg)
    | some m =>
      if m = .text (str "FEMA P-58") then
        match ridTable est (cfg.erase (str "method")) t with
        | .error e => (.error e, cfg.erase (str "method"))
        | .ok r => (.ok (t ++ r), cfg.erase (str "method"))
      else (.error .valueError, cfg.erase (str "method"))

/-- 768-774 -/
def addOne (t : RawTable) : RawTable :=
  setColumn t [str "ONE", str "0", str "1"] (str "unitless") (List.replicate (rowCount t) (some 1))

/-- 721-776: the final demand sample, from the generated one, and the configuration after the call.  The labels are joined
and split again on the way (776), which is left out. -/
def finishDemand (table : Dict Str ℚ) (est : PyFloat → Label → List (Option ℚ) → List (Option ℚ)) (cfg : Dict Str Cell)
    (s : Sample) : Except PyErr Sample × Dict Str Cell :=
  match saveSample table s with
  | .error e => (.error e, cfg)
  | .ok t =>
    match inferRid est cfg t with
    | (.error e, cfg') => (.error e, cfg')
    | (.ok t', cfg') => (loadSample table (addOne t'), cfg')

end Verif.AsmRid
