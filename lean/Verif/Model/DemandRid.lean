import Verif.Basic
import Mathlib.Analysis.SpecialFunctions.Log.Basic

/-!
# Residual drift inference (`/repo/pelicun/model/demand_model.py` 324-431)

Real numbers with the exact exponential and logarithm.  Missing values are `none`: every
comparison with NaN is false, so a missing drift stays missing.
-/

namespace Verif.DemandRid

open Classical in
/-- demand_model.py 393-402: the assignments to `rid[large]`, `rid[medium]`, `rid[small]` in this
order; a later assignment overwrites an earlier one. -/
noncomputable def ridMedian (y pid : ℝ) : ℝ :=
  let rid := pid
  let rid := if 4 * y ≤ pid then pid - 3 * y else rid
  let rid := if 4 * y > pid then 3 / 10 * (pid - y) else rid
  if y > pid then 0 else rid

open Classical in
/-- demand_model.py 404-407: nonzero (positive) values are multiplied by a lognormal disturbance;
`eps` is the draw of the random number generator. -/
noncomputable def disturb (eps rid : ℝ) : ℝ := if rid > 0 then Real.exp (Real.log rid + eps) else rid

/-- One realization, demand_model.py 390-425. -/
noncomputable def ridValue (y eps pid : ℝ) : ℝ := min pid (disturb eps (ridMedian y pid))

/-- demand_model.py 386-425: a table of peak drifts (columns labelled by location and direction,
`eps` is an arbitrary array of the same shape, indexed by column and row).  Columns keep their
order and get the prefix `RID`. -/
noncomputable def estimateRid (y : ℝ) (eps : Nat → Nat → ℝ)
    (pid : List (List Str × List (Option ℝ))) : List (List Str × List (Option ℝ)) :=
  pid.mapIdx fun j c =>
    (str "RID" :: c.1, c.2.mapIdx fun i v => v.map (ridValue y (eps j i)))

/-- demand_model.py 382-431: the method name is checked; `params['yield_drift']` raises
`KeyError` when missing. -/
noncomputable def estimateRID (method : Str) (params : Dict Str ℝ) (eps : Nat → Nat → ℝ)
    (pid : List (List Str × List (Option ℝ))) :
    Except PyErr (List (List Str × List (Option ℝ))) :=
  if method = str "FEMA P58" ∨ method = str "FEMA P-58" then
    match params.get? (str "yield_drift") with
    | some y => .ok (estimateRid y eps pid)
    | none => .error .keyError
  else .error .valueError

end Verif.DemandRid
