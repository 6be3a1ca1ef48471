import Verif.Model.DemandCalib
import Verif.Model.Fit

/-!
# Calibration of the demand model: parameters

pelicun/model/demand_model.py `DemandModel.calibrate_model` (527-820) from the distribution fit on: the call of
`uq.fit_distribution_to_sample` (756-776), the table of parameters (782-812) and the correlation matrix (820-823).

Samples are rational numbers; parameters are real numbers.  The labels of the demands are different.
-/

namespace Verif.DemandFit

open Verif.UQ (Ext)
open Verif.DemandCalib
open Verif.Fit (Fam Limits Solver fit)
open Verif.FileIO (Label)

noncomputable section

/-- The families that `fit_distribution_to_sample` knows (uq.py 811). -/
def famOf (s : Str) : Fam :=
  if s = str "normal" then .normal
  else if s = str "normal_std" then .normalStd
  else if s = str "normal_cov" then .normalCov
  else if s = str "lognormal" then .lognormal
  else .other

/-- A number of the settings as a limit. -/
def limitOf : PyFloat → Ext ℝ
  | .nan => .nan
  | .inf true => .negInf
  | .inf false => .posInf
  | .fin q => .fin (q : ℝ)

/-- A row of `marginal_params` (807-812). -/
structure Marginal where
  family : Str
  theta0 : Ext ℝ
  theta1 : Ext ℝ
  truncateLower : PyFloat
  truncateUpper : PyFloat

/-- The cell of a realization in a column; 0 in place of a missing value (refused before). -/
def cell (rows : List (List (Option ℚ))) (i j : ℕ) : ℝ := (((rows[j]?.getD [])[i]?.getD none).getD 0 : ℚ)

/-- 736-754: the settings of the demands that are not empirical. -/
def fitted (cal : List (Label × CalRow)) : List (Label × CalRow) := cal.filter fun r => r.2.family ≠ str "empirical"

/-- 762-776: the call of the fit.  Missing values give values that are not finite, which are refused. -/
def fitCall (cal : List (Label × CalRow)) (S : Solver (fitted cal).length) (data : FitData) :
    Except PyErr ((Fin (fitted cal).length → ℝ × Ext ℝ) × Matrix (Fin (fitted cal).length) (Fin (fitted cal).length) ℝ) :=
  if ∃ r ∈ data.rows, none ∈ r then .error .valueError
  else
    fit (n := data.rows.length) S (fun i => famOf ((fitted cal)[i]).2.family)
      (fun i => (limitOf ((fitted cal)[i]).2.truncateLower, limitOf ((fitted cal)[i]).2.truncateUpper))
      (fun i => (limitOf ((fitted cal)[i]).2.censorLower, limitOf ((fitted cal)[i]).2.censorUpper))
      data.censored false (fun i j => cell data.rows i j)

/-- 783: parameters are assigned to the demand with the same label; others have none. -/
def thetaOf (cal : List (Label × CalRow)) (θ : Fin (fitted cal).length → ℝ × Ext ℝ) (l : Label) : Ext ℝ × Ext ℝ :=
  if h : ((fitted cal).map Prod.fst).idxOf l < (fitted cal).length then (.fin (θ ⟨_, h⟩).1, (θ ⟨_, h⟩).2) else (.nan, .nan)

/-- 789-791 `np.nan_to_num`; `big` is the largest floating-point number. -/
def numOf (big : ℝ) : PyFloat → ℝ
  | .nan => 0
  | .inf true => -big
  | .inf false => big
  | .fin q => q

/-- 793-796 for one demand; squares do not overflow. -/
def addVariance (a : ℝ) : Ext ℝ → Ext ℝ
  | .nan => .nan
  | .negInf => .posInf
  | .posInf => .posInf
  | .fin s => .fin (Real.sqrt (s ^ 2 + a ^ 2))

/-- 785-796: nothing is added if no demand has an additional uncertainty. -/
def spreadOf (big : ℝ) (cal : List (Label × CalRow)) (a : PyFloat) (s : Ext ℝ) : Ext ℝ :=
  if cal.all (fun r => r.2.sigIncrease = .nan) then s else addVariance (numOf big a) s

/-- What the calibration saves. -/
structure Calibrated (d : ℕ) where
  marginals : List (Label × Marginal)
  labels : List Label
  correlation : Matrix (Fin d) (Fin d) ℝ
  empirical : List (List (Option ℚ))

/-- 689-823 -/
def calibrate (big : ℝ) (cal : List (Label × CalRow)) (S : Solver (fitted cal).length) (rows : List (List (Option ℚ))) :
    Except PyErr (Calibrated (fitted cal).length) :=
  match fitCall cal S (fitData (cal.map Prod.snd) rows) with
  | .error e => .error e
  | .ok (θ, ρ) => .ok {
      marginals := cal.map fun r => (r.1, {
        family := r.2.family
        theta0 := (thetaOf cal θ r.1).1
        theta1 := spreadOf big cal r.2.sigIncrease (thetaOf cal θ r.1).2
        truncateLower := r.2.truncateLower
        truncateUpper := r.2.truncateUpper })
      labels := (fitted cal).map Prod.fst
      correlation := ρ
      empirical := (fitData (cal.map Prod.snd) rows).empirical }

/-- uq.py 1691-1699, 2909-2912 with demand_model.py 961-1002: mean and standard deviation of the random variable that is made from parameters
of a normal family; others have none. -/
def normalVariable (family : Str) (θ0 θ1 : ℝ) : Except PyErr (Option (ℝ × ℝ)) :=
  if family = str "normal_std" then .ok (some (θ0, θ1))
  else if family = str "normal" ∨ family = str "normal_cov" then
    if |θ0| < 1 / 10 ^ 40 then .error .valueError else .ok (some (θ0, θ0 * θ1))
  else .ok none

end

end Verif.DemandFit
