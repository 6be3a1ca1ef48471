import Verif.Model.AsmRid

/-!
# Residual drifts added to a demand sample (pelicun/model/demand_model.py)

`DemandModel.estimate_RID_and_adjust_sample` 433-473.  The estimate of one column is a parameter, as in AsmRid; it is that of
DemandRid.
-/

namespace Verif.RidAdjust

open DemandSample (RawTable Sample saveSample loadSample)
open FileIO (Label)

/-- demand_model.py 382-431 `estimate_RID`: the method and the yield drift are checked; every column gets the label of its
peak drift with `RID` in front (412-417). -/
def estimateRid (est : ℚ → Label → List (Option ℚ) → List (Option ℚ)) (method : Str) (params : Dict Str ℚ)
    (pid : List (Label × List (Option ℚ))) : Except PyErr (List (Label × List (Option ℚ))) :=
  if method = str "FEMA P58" ∨ method = str "FEMA P-58" then
    match params.get? (str "yield_drift") with
    | none => .error .keyError
    | some y => .ok (pid.map fun c => (str "RID" :: c.1, est y c.1 c.2))
  else .error .valueError

/-- demand_model.py 433-473 `estimate_RID_and_adjust_sample`.  `demand_sample['PID']` raises `KeyError` if there is no such
column.  The residual drifts are appended with the unit `unitless` (467-472) to the sample in user units (462), and the table is
loaded again (473).  What pandas does if the sample already has residual drifts is not modelled. -/
def estimateAndAdjust (table : Dict Str ℚ) (est : ℚ → Label → List (Option ℚ) → List (Option ℚ)) (params : Dict Str ℚ)
    (method : Str) (s : Option Sample) : Except PyErr Sample :=
  match s with
  | none => .error .valueError
  | some s =>
    match saveSample table s with
    | .error e => .error e
    | .ok t =>
      if AsmRid.pidColumns t = [] then .error .keyError
      else
        match estimateRid est method params (AsmRid.pidColumns t) with
        | .error e => .error e
        | .ok rid => loadSample table (t ++ rid.map fun c => (c.1, some (str "unitless"), c.2))

end Verif.RidAdjust
