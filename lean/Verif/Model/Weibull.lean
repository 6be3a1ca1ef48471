import Verif.Model.UQDist
import Mathlib.Analysis.SpecialFunctions.Pow.Real

/-!
# Weibull variables (pelicun/uq.py)

Models `WeibullRandomVariable.cdf` (uq.py 1960-2004) next to `inverse_transform`, which is in `Model/UQDist.lean`, and the functions of
`scipy.stats.weibull_min` on the real numbers.
-/

namespace Verif.Weibull

open UQ

section
variable {F : Type} [Field F] [LinearOrder F]

/-- uq.py 1981-1983: the lower limit in `cdf`; a negative one is kept. -/
def cdfLower : Option F → F
  | none => 0
  | some a => a

/-- uq.py 1990: `np.minimum(np.maximum(values, a), b)`; without an upper limit `b` is infinite. -/
def cap (a : F) (b : Option F) (x : F) : F :=
  match b with
  | none => max x a
  | some b => min (max x a) b

/-- uq.py 1960-2004 `WeibullRandomVariable.cdf`, for one finite value. -/
def weibullCdf (W : PosDist F) (eps : F) (a b : Option F) (x : F) : Except PyErr F :=
  if truncated a b then
    let pa := W.cdf (cdfLower a)
    let pb := weibullPb W b
    if pb - pa < eps then .error .valueError
    else .ok ((W.cdf (cap (cdfLower a) b x) - pa) / (pb - pa))
  else .ok (W.cdf (max x 0))

end

/-- `weibull_min.cdf(x, kappa, scale=lam)` -/
noncomputable def realCdf (lam kappa x : ℝ) : ℝ := if x ≤ 0 then 0 else 1 - Real.exp (-(x / lam) ^ kappa)

/-- `weibull_min.ppf(p, kappa, scale=lam)` for `0 ≤ p < 1` -/
noncomputable def realPpf (lam kappa p : ℝ) : ℝ := lam * (-Real.log (1 - p)) ^ (1 / kappa)

end Verif.Weibull
