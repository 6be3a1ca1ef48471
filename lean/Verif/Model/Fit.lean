import Mathlib.LinearAlgebra.Matrix.PosDef
import Verif.Lemmas.UQInstances

/-!
# Fitting distributions to a sample

pelicun/uq.py `_get_theta` (235-297), `_get_limit_probs` (300-339), `_get_std_samples` (342-412), `_get_std_corr_matrix`
(415-492), `_mvn_scale` (495-523), `_neg_log_likelihood` (526-693, for one variable without censored samples) and
`fit_distribution_to_sample` (696-992).

Numbers are real numbers, with the normal distribution of `UQInstances`.  There are `d` variables with `n` samples each, `n > 0`.
`minimize` is a parameter; so is the result of the joint fit of all variables, which is made if samples are censored or if it is
asked for (its objective, the density of a multivariate normal distribution, is not modelled).
-/

namespace Verif.Fit

open Verif.UQ (Ext gaussCdf gaussian)

open Classical

noncomputable section

/-- The families of distributions. -/
inductive Fam where
  | normal
  | normalStd
  | normalCov
  | lognormal
  | other
  deriving DecidableEq

/-- A lower and an upper limit; `nan` if there is none. -/
abbrev Limits := Ext ℝ × Ext ℝ

def noLimits : Limits := (.nan, .nan)

/-- `np.mean` -/
def mean {n : ℕ} (x : Fin n → ℝ) : ℝ := (∑ j, x j) / n

/-- `np.std` -/
def std {n : ℕ} (x : Fin n → ℝ) : ℝ := Real.sqrt ((∑ j, (x j - mean x) ^ 2) / n)

/-- 807-823: the initial values.  The standard deviation of one sample is zero; a zero is replaced.  `eps` is the smallest
positive floating-point number. -/
def moments {n : ℕ} (eps : ℝ) (x : Fin n → ℝ) : ℝ × ℝ := (mean x, if std x = 0 then 1 / 10 ^ 6 * |mean x| + eps else std x)

/-- 791-803: the samples of a lognormal variable are replaced by their logarithms. -/
def toLog {n : ℕ} (fam : Fam) (x : Fin n → ℝ) : Fin n → ℝ := if fam = .lognormal then fun j => Real.log (x j) else x

/-- `np.log` of a limit. -/
def logLimit : Ext ℝ → Ext ℝ
  | .nan => .nan
  | .negInf => .nan
  | .posInf => .posInf
  | .fin a => if 0 < a then .fin (Real.log a) else if a = 0 then .negInf else .nan

/-- 795-803: the limits of a lognormal variable. -/
def toLogLimits (fam : Fam) (l : Limits) : Limits := if fam = .lognormal then (logLimit l.1, logLimit l.2) else l

/-- 235-297 `_get_theta`, for one variable with a supported family. -/
def getTheta (fam : Fam) (p init : ℝ × ℝ) : ℝ × ℝ :=
  match fam with
  | .normal | .normalStd | .other => (init.1 + p.1, init.2 + p.2)
  | .lognormal => (init.1 + p.1, Real.exp (Real.log init.2 + p.2))
  | .normalCov => (init.1 + p.1 * Real.exp (Real.log init.2 + p.2), Real.exp (Real.log init.2 + p.2))

/-- 300-339 `_get_limit_probs`, for one limit; `dflt` is the probability without a limit.  (The second parameter is the standard
deviation for each family: line 327 compares with a name in other letters.) -/
def limitProb (dflt : ℝ) (θ : ℝ × ℝ) : Ext ℝ → ℝ
  | .nan => dflt
  | .negInf => 0
  | .posInf => 1
  | .fin a => gaussCdf ((a - θ.1) / θ.2)

/-- 381-391: a value is refused if it is beyond a limit. -/
def Within (l : Limits) (x : ℝ) : Prop :=
  (match l.1 with | .nan => True | .negInf => True | .posInf => False | .fin a => a ≤ x) ∧
  (match l.2 with | .nan => True | .posInf => True | .negInf => False | .fin b => x ≤ b)

/-- A value on a limit becomes infinite. -/
def Inside (l : Limits) (x : ℝ) : Prop := Within l x ∧ l.1 ≠ .fin x ∧ l.2 ≠ .fin x

/-- 393-406: a value in standard normal space, for a value inside of the limits.  Probabilities are not rounded to 0 or 1. -/
def stdValue (θ : ℝ × ℝ) (l : Limits) (x : ℝ) : ℝ :=
  gaussian.ppf ((gaussCdf ((x - θ.1) / θ.2) - limitProb 0 θ l.1) / (limitProb 1 θ l.2 - limitProb 0 θ l.1))

/-- `norm.pdf`, for a positive standard deviation. -/
def normPdf (μ σ x : ℝ) : ℝ := Real.exp (-((x - μ) / σ) ^ 2 / 2) / (σ * Real.sqrt (2 * Real.pi))

/-- 599-691 with 495-523: the objective for one variable without censoring, for a positive standard deviation. -/
def negLogLikelihood {n : ℕ} (eps : ℝ) (θ : ℝ × ℝ) (l : Limits) (x : Fin n → ℝ) : ℝ :=
  -(∑ j, Real.log (max (normPdf θ.1 θ.2 (x j) / (limitProb 1 θ l.2 - limitProb 0 θ l.1) *
    (normPdf 0 1 (stdValue θ l (x j)) / max (normPdf 0 1 (stdValue θ l (x j))) eps)) eps)) / n

/-- 838-843 and 893-894: the bound for both parameters of a variable is the entry of the list `10, 5, 10, 5, ...` with its number. -/
def bound (i : ℕ) : ℝ := if i % 2 = 0 then 10 else 5

/-- 526-693: the function that is minimized for a variable: a large number outside of the bounds, `nan` for a standard deviation
that is not positive. -/
def objective {n : ℕ} (eps : ℝ) (i : ℕ) (fam : Fam) (init : ℝ × ℝ) (l : Limits) (x : Fin n → ℝ) (p : ℝ × ℝ) : Option ℝ :=
  if -bound i < p.1 ∧ p.1 < bound i ∧ -bound i < p.2 ∧ p.2 < bound i then
    if 0 < (getTheta fam p init).2 then some (negLogLikelihood eps (getTheta fam p init) l x) else none
  else some (10 ^ 10)

/-- 868-885: the limits for the fit of a variable. -/
def mergeLimits (tr det : Limits) : Limits :=
  (if tr.1 = .nan ∧ det.1 ≠ .nan then det.1 else if det.1 ≠ .nan then Ext.min tr.1 det.1 else tr.1,
   if tr.2 = .nan ∧ det.2 ≠ .nan then det.2 else if det.2 ≠ .nan then Ext.max tr.2 det.2 else tr.2)

/-- 452-462: the correlations of values in standard normal space. -/
def corr {d n : ℕ} (z : Fin d → Fin n → ℝ) : Matrix (Fin d) (Fin d) ℝ :=
  fun i j => if i = j then 1 else (∑ k, z i k * z j k) / n

/-- 478-490: a matrix with unreasonable values is given up; values are scaled to be at most 1 in absolute value. -/
def clip {d : ℕ} (r : Fin d → Fin d → ℝ) : Option (Fin d → Fin d → ℝ) :=
  let hi := ⨆ p : Fin d × Fin d, r p.1 p.2
  let lo := ⨅ p : Fin d × Fin d, r p.1 p.2
  if hi > 1.01 ∨ lo < -1.01 then none
  else
    let r₁ : Fin d → Fin d → ℝ := if hi > 1 then fun i j => r i j / hi else r
    let lo₁ := ⨅ p : Fin d × Fin d, r₁ p.1 p.2
    some (if lo₁ < -1 then fun i j => r₁ i j / |lo₁| else r₁)

/-- 464-492: a matrix that is not positive definite is repaired, or given up.  `svd` is the singular value decomposition (without
its last matrix). -/
def repair {d : ℕ} (svd : Matrix (Fin d) (Fin d) ℝ → Option (Matrix (Fin d) (Fin d) ℝ × (Fin d → ℝ)))
    (ρ : Matrix (Fin d) (Fin d) ℝ) : Option (Matrix (Fin d) (Fin d) ℝ) :=
  if ρ.PosDef then some ρ
  else
    match svd ρ with
    | none => none
    | some (u, s) => clip fun i j => if i = j then 1 else (u * Matrix.diagonal s * u.transpose) i j

/-- 972-990: the parameters that are returned. -/
def outTheta (fam : Fam) (θ : ℝ × ℝ) : ℝ × Ext ℝ :=
  match fam with
  | .lognormal => (Real.exp θ.1, .fin θ.2)
  | .normal | .normalCov => (θ.1, if |θ.1| < 1 / 10 ^ 40 then .posInf else .fin (θ.2 / |θ.1|))
  | .normalStd | .other => (θ.1, .fin θ.2)

/-- The parts of the fit that are not modelled. -/
structure Solver (d : ℕ) where
  eps : ℝ
  minimize : (ℝ × ℝ → Option ℝ) → ℝ × ℝ
  joint : (Fin d → ℝ × ℝ) → Except PyErr (Fin d → ℝ × ℝ)
  svd : Matrix (Fin d) (Fin d) ℝ → Option (Matrix (Fin d) (Fin d) ℝ × (Fin d → ℝ))

/-- 896-930: the fit of one variable, in the space of the normal distribution. -/
def marginal {d n : ℕ} (S : Solver d) (i : Fin d) (fam : Fam) (tr det : Limits) (x : Fin n → ℝ) : ℝ × ℝ :=
  getTheta fam (S.minimize (objective S.eps i fam (moments S.eps x) (mergeLimits tr det) x)) (moments S.eps x)

/-- 846-957: the parameters in the space of the normal distribution. -/
def solve {d n : ℕ} (S : Solver d) (fam : Fin d → Fam) (tr det : Fin d → Limits) (count : ℕ) (multi : Bool) (x : Fin d → Fin n → ℝ) :
    Except PyErr (Fin d → ℝ × ℝ) :=
  if n < 3 ∨ ((∀ i, tr i = noLimits) ∧ ∀ i, det i = noLimits) then .ok fun i => moments S.eps (x i)
  else if ∃ i j, ¬ Within (mergeLimits (tr i) (det i)) (x i j) then .error .valueError
  else if multi = true ∨ 0 < count then
    match S.joint fun i => marginal S i (fam i) (tr i) (det i) (x i) with
    | .error e => .error e
    | .ok p => .ok fun i => getTheta (fam i) (p i) (marginal S i (fam i) (tr i) (det i) (x i))
  else .ok fun i => marginal S i (fam i) (tr i) (det i) (x i)

/-- 959-992: correlations and parameters.  Values that are not finite are refused. -/
def finish {d n : ℕ} (S : Solver d) (fam : Fin d → Fam) (tr : Fin d → Limits) (x : Fin d → Fin n → ℝ) (θ : Fin d → ℝ × ℝ) :
    Except PyErr ((Fin d → ℝ × Ext ℝ) × Matrix (Fin d) (Fin d) ℝ) :=
  if ∃ i j, ¬ Inside (tr i) (x i j) ∨ (θ i).2 ≤ 0 then .error .valueError
  else .ok (fun i => outTheta (fam i) (θ i), (repair S.svd (corr fun i j => stdValue (θ i) (tr i) (x i j))).getD 1)

/-- 696-992 `fit_distribution_to_sample`.  A family that is not supported, and a lognormal variable with a sample that is not
positive, give values that are not finite, which are refused in `_get_theta` or at the end. -/
def fit {d n : ℕ} (S : Solver d) (fam : Fin d → Fam) (tr det : Fin d → Limits) (count : ℕ) (multi : Bool) (x : Fin d → Fin n → ℝ) :
    Except PyErr ((Fin d → ℝ × Ext ℝ) × Matrix (Fin d) (Fin d) ℝ) :=
  if ∃ i, fam i = .other ∨ (fam i = .lognormal ∧ ∃ j, x i j ≤ 0) then .error .valueError
  else
    match solve S fam (fun i => toLogLimits (fam i) (tr i)) (fun i => toLogLimits (fam i) (det i)) count multi (fun i => toLog (fam i) (x i)) with
    | .error e => .error e
    | .ok θ => finish S fam (fun i => toLogLimits (fam i) (tr i)) (fun i => toLog (fam i) (x i)) θ

/-- 777, 791-795: the array of samples of the caller after the fit; `np.atleast_2d` makes no copy of an array. -/
def samplesAfter {d n : ℕ} (fam : Fin d → Fam) (x : Fin d → Fin n → ℝ) : Fin d → Fin n → ℝ := fun i => toLog (fam i) (x i)

end

end Verif.Fit
