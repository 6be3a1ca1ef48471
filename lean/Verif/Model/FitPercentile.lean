import Verif.Lemmas.UQInstances

/-!
# Fitting distributions to percentiles

pelicun/uq.py `_OLS_percentiles` (995-1049) and `fit_distribution_to_percentiles` (1052-1114).

Numbers are real numbers, with the normal distribution of `UQInstances`; `none` is a value that is not finite.  Percentiles are between 0 and 1.
`minimize` is a parameter.
-/

namespace Verif.FitPercentile

open Verif.UQ (gaussian)

open Classical

noncomputable section

/-- The families of distributions; others are refused (1045-1047). -/
inductive Fam where
  | normal
  | lognormal
  | other
  deriving DecidableEq

/-- The value of a distribution at a percentile. -/
def quantile (fam : Fam) (θ : ℝ × ℝ) (p : ℝ) : ℝ :=
  match fam with
  | .normal => θ.1 + θ.2 * gaussian.ppf p
  | .lognormal => Real.exp (Real.log θ.1 + θ.2 * gaussian.ppf p)
  | .other => 0

/-- 995-1049 `_OLS_percentiles`, for a known family. -/
def squaredError {n : ℕ} (fam : Fam) (v p : Fin n → ℝ) (θ : ℝ × ℝ) : ℝ :=
  if (fam = .lognormal ∧ θ.1 ≤ 0) ∨ θ.2 ≤ 0 then 10 ^ 10 else ∑ j, (quantile fam θ (p j) - v j) ^ 2

/-- `np.argmin`, the first position of a smallest value. -/
def IsArgmin {n : ℕ} (f : Fin n → ℝ) (i : Fin n) : Prop := (∀ j, f i ≤ f j) ∧ ∀ j, j < i → f i < f j

/-- The distance of two values, for a lognormal distribution that of their logarithms; not finite if their quotient is not positive. -/
def distance (fam : Fam) (a b : ℝ) : Option ℝ :=
  match fam with
  | .normal => some |a - b|
  | .lognormal => if 0 < a / b then some |Real.log (a / b)| else none
  | .other => none

/-- 1083-1101: the initial values, from the positions of the percentile next to 1/2 and of the largest one.  A division by zero gives an infinite
value or `nan`. -/
def inits {n : ℕ} (fam : Fam) (v p : Fin n → ℝ) (med ext : Fin n) : Option (ℝ × ℝ) :=
  match distance fam (v ext) (v med) with
  | none => none
  | some a => if gaussian.ppf (p ext) = 0 then none else some (v med, a / |gaussian.ppf (p ext)|)

/-- The result of a minimization: the best point and the value there.  From a start that is not finite it is not a number. -/
def run (minimize : (ℝ × ℝ → ℝ) → ℝ × ℝ → ℝ × ℝ) (f : ℝ × ℝ → ℝ) : Option (ℝ × ℝ) → Option ((ℝ × ℝ) × ℝ)
  | none => none
  | some x => some (minimize f x, f (minimize f x))

/-- 1112: the position of the best result; `np.argmin` prefers `nan`. -/
def best : List (Fam × Option ((ℝ × ℝ) × ℝ)) → Option (Fam × Option ((ℝ × ℝ) × ℝ))
  | [] => none
  | r :: rest =>
    match best rest with
    | none => some r
    | some b =>
      match r.2, b.2 with
      | none, _ => some r
      | some _, none => some b
      | some x, some y => if x.2 ≤ y.2 then some r else some b

/-- 1052-1114 `fit_distribution_to_percentiles`; `med` and `ext` are `np.argmin(np.abs(percentiles - 0.5))` and `np.argmax(percentiles - 0.5)`.  A list without
families is refused. -/
def fit {n : ℕ} (minimize : (ℝ × ℝ → ℝ) → ℝ × ℝ → ℝ × ℝ) (v p : Fin n → ℝ) (fams : List Fam) (med ext : Fin n) : Except PyErr (Fam × Option (ℝ × ℝ)) :=
  if Fam.other ∈ fams then .error .valueError
  else
    match best (fams.map fun fam => (fam, run minimize (squaredError fam v p) (inits fam v p med ext))) with
    | none => .error .valueError
    | some b => .ok (b.1, b.2.map Prod.fst)

end

end Verif.FitPercentile
