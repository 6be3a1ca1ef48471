import Mathlib.Algebra.Order.Floor.Ring
import Mathlib.Data.Rat.Floor
import Verif.Model.Interp

/-!
# Distributions (`/repo/pelicun/uq.py`)

Arithmetic is exact in an ordered field `F` in place of IEEE doubles.  `Ext` adds the
values `±inf` and `nan` where the modelled expressions can produce them.  The standard
normal distribution function, its inverse, `exp` and `log` are parameters with the
hypotheses listed in `StdDist` and `ExpLog`.
-/

namespace Verif.UQ

/-- A floating point number: finite, infinite or not a number. -/
inductive Ext (F : Type) where
  | negInf
  | fin (x : F)
  | posInf
  | nan
  deriving DecidableEq, Repr

/-- `norm.cdf` and `norm.ppf` with `loc=0, scale=1`: what the model assumes of them. -/
structure StdDist (F : Type) [Field F] [LinearOrder F] where
  cdf : F → F
  ppf : F → F
  cdf_strictMono : ∀ {x y : F}, x < y → cdf x < cdf y
  cdf_pos : ∀ x, 0 < cdf x
  cdf_lt_one : ∀ x, cdf x < 1
  cdf_ppf : ∀ {p : F}, 0 < p → p < 1 → cdf (ppf p) = p

/-- `np.exp` and `np.log` (`log` is used on positive numbers only). -/
structure ExpLog (F : Type) [Field F] [LinearOrder F] where
  exp : F → F
  log : F → F
  exp_pos : ∀ x, 0 < exp x
  exp_strictMono : ∀ {x y : F}, x < y → exp x < exp y
  exp_log : ∀ {x : F}, 0 < x → exp (log x) = x

/-- The exponential turns sums into products.  (Stated apart from `ExpLog`, which is then also met
by rational functions that can be computed with; only theorems about products need it.) -/
def ExpLog.Additive {F : Type} [Field F] [LinearOrder F] (E : ExpLog F) : Prop :=
  ∀ x y, E.exp (x + y) = E.exp x * E.exp y

/-- `weibull_min.cdf(·, kappa, scale=lambda_)` and `weibull_min.ppf` for one choice of
positive parameters: what the model assumes of them. -/
structure PosDist (F : Type) [Field F] [LinearOrder F] where
  cdf : F → F
  ppf : F → F
  cdf_nonpos : ∀ {x : F}, x ≤ 0 → cdf x = 0
  cdf_strictMono : ∀ {x y : F}, 0 ≤ x → x < y → cdf x < cdf y
  cdf_lt_one : ∀ x, cdf x < 1
  ppf_nonneg : ∀ {p : F}, 0 ≤ p → p < 1 → 0 ≤ ppf p
  cdf_ppf : ∀ {p : F}, 0 ≤ p → p < 1 → cdf (ppf p) = p

section
variable {F : Type} [Field F] [LinearOrder F]

namespace Ext

/-- `x - y` for IEEE numbers. -/
def sub : Ext F → Ext F → Ext F
  | .nan, _ => .nan
  | _, .nan => .nan
  | .fin x, .fin y => .fin (x - y)
  | .fin _, .posInf => .negInf
  | .fin _, .negInf => .posInf
  | .posInf, .posInf => .nan
  | .posInf, _ => .posInf
  | .negInf, .negInf => .nan
  | .negInf, _ => .negInf

/-- `x / s` for an IEEE number `x` and a finite `s` (zero is `+0.0`). -/
def divF : Ext F → F → Ext F
  | .nan, _ => .nan
  | .fin x, s =>
    if s = 0 then (if x < 0 then .negInf else if 0 < x then .posInf else .nan) else .fin (x / s)
  | .posInf, s => if s < 0 then .negInf else .posInf
  | .negInf, s => if s < 0 then .posInf else .negInf

/-- `x + y` with a finite first operand. -/
def addF (x : F) : Ext F → Ext F
  | .nan => .nan
  | .fin y => .fin (x + y)
  | .posInf => .posInf
  | .negInf => .negInf

/-- `np.log`. -/
def log (E : ExpLog F) : Ext F → Ext F
  | .nan => .nan
  | .negInf => .nan
  | .posInf => .posInf
  | .fin x => if 0 < x then .fin (E.log x) else if x = 0 then .negInf else .nan

/-- `np.exp`. -/
def exp (E : ExpLog F) : Ext F → Ext F
  | .nan => .nan
  | .negInf => .fin 0
  | .posInf => .posInf
  | .fin x => .fin (E.exp x)

/-- `np.maximum(x, y)`. -/
def max : Ext F → Ext F → Ext F
  | .nan, _ => .nan
  | _, .nan => .nan
  | .negInf, y => y
  | x, .negInf => x
  | .posInf, _ => .posInf
  | _, .posInf => .posInf
  | .fin x, .fin y => .fin (if x ≤ y then y else x)

/-- `np.minimum(x, y)`. -/
def min : Ext F → Ext F → Ext F
  | .nan, _ => .nan
  | _, .nan => .nan
  | .posInf, y => y
  | x, .posInf => x
  | .negInf, _ => .negInf
  | _, .negInf => .negInf
  | .fin x, .fin y => .fin (if x ≤ y then x else y)

end Ext

/-- `norm.cdf(z)`: a probability, or `nan` (`none`). -/
def stdCdf (D : StdDist F) : Ext F → Option F
  | .nan => none
  | .negInf => some 0
  | .posInf => some 1
  | .fin z => some (D.cdf z)

/-- scipy's `norm.cdf(x, loc, scale)`: `nan` unless `scale > 0`. -/
def normCdf (D : StdDist F) (x loc : Ext F) (scale : F) : Option F :=
  if 0 < scale then stdCdf D ((x.sub loc).divF scale) else none

/-- scipy's `norm.ppf(q, loc, scale)`: `nan` unless `scale > 0` and `0 ≤ q ≤ 1`; the end
points give `∓inf * scale + loc`. -/
def normPpf (D : StdDist F) (q : Option F) (loc : Ext F) (scale : F) : Ext F :=
  match q, loc with
  | none, _ => .nan
  | _, .nan => .nan
  | some q, .fin m =>
    if 0 < scale then
      if q < 0 then .nan
      else if q = 0 then .negInf
      else if q < 1 then .fin (m + scale * D.ppf q)
      else if q = 1 then .posInf
      else .nan
    else .nan
  | some q, .negInf =>
    if 0 < scale then
      if q < 0 then .nan else if q < 1 then .negInf else .nan
    else .nan
  | some q, .posInf =>
    if 0 < scale then
      if q ≤ 0 then .nan else if q ≤ 1 then .posInf else .nan
    else .nan

/-- `x - y` with `nan` as `none`. -/
def osub : Option F → Option F → Option F
  | some x, some y => some (x - y)
  | _, _ => none

/-- uq.py 1420-1449 `_ensure_positive_probability_difference`; `eps` is
`FIRST_POSITIVE_NUMBER` (line 60).  A comparison with `nan` is false. -/
def ensurePositive (eps : F) (pb pa : Option F) : Except PyErr Unit :=
  match osub pb pa with
  | some d => if d < eps then .error .valueError else .ok ()
  | none => .ok ()

/-- `values * (p_b - p_a) + p_a` (uq.py 1630, 1813). -/
def rescale (u : F) (pa pb : Option F) : Option F :=
  match pa, pb with
  | some a, some b => some (u * (b - a) + a)
  | _, _ => none

/-- `(p_vals - p_a) / (p_b - p_a)` (uq.py 1589, 1767), only reached with
`p_b - p_a ≥ eps`. -/
def unscale (p pa pb : Option F) : Option F :=
  match p, pa, pb with
  | some p, some a, some b => some ((p - a) / (b - a))
  | _, _, _ => none

/-- `np.any(~np.isnan(self.truncation_limits))` (uq.py 1572, 1620). -/
def truncated (a b : Option F) : Bool := a.isSome || b.isSome

/-- `np.nan_to_num(a, nan=-np.inf)` (uq.py 1576, 1624). -/
def lowerInf : Option F → Ext F
  | none => .negInf
  | some a => .fin a

/-- `np.nan_to_num(b, nan=np.inf)` (uq.py 1577, 1625). -/
def upperInf : Option F → Ext F
  | none => .posInf
  | some b => .fin b

/-- uq.py 1596-1635 `NormalRandomVariable.inverse_transform`, for one realization. -/
def normalInverse (D : StdDist F) (eps mu sig : F) (a b : Option F) (u : F) :
    Except PyErr (Ext F) :=
  if truncated a b then
    let pa := stdCdf D (((lowerInf a).sub (.fin mu)).divF sig)
    let pb := stdCdf D (((upperInf b).sub (.fin mu)).divF sig)
    match ensurePositive eps pb pa with
    | .error e => .error e
    | .ok _ => .ok (normPpf D (rescale u pa pb) (.fin mu) sig)
  else .ok (normPpf D (some u) (.fin mu) sig)

/-- uq.py 1552-1594 `NormalRandomVariable.cdf`, for one value. -/
def normalCdf (D : StdDist F) (eps mu sig : F) (a b : Option F) (x : Ext F) :
    Except PyErr (Option F) :=
  if truncated a b then
    let pa := stdCdf D (((lowerInf a).sub (.fin mu)).divF sig)
    let pb := stdCdf D (((upperInf b).sub (.fin mu)).divF sig)
    match ensurePositive eps pb pa with
    | .error e => .error e
    | .ok _ =>
      .ok (unscale (normCdf D ((x.max (lowerInf a)).min (upperInf b)) (.fin mu) sig) pa pb)
  else .ok (normCdf D x (.fin mu) sig)

/-- uq.py 1674-1700 `Normal_COV.__init__`: the standard deviation, or the rejection of a
zero mean. -/
def covStd (mean cov : F) : Except PyErr F :=
  if |mean| < 1 / 10 ^ 40 then .error .valueError else .ok (mean * cov)

/-- Lower limit of a lognormal variable in `inverse_transform` (uq.py 1802-1804). -/
def lowerPos (eps : F) : Option F → F
  | none => eps
  | some a => if a ≤ 0 then eps else a

/-- Lower limit of a lognormal variable in `cdf` (uq.py 1752). -/
def lowerPosCdf (eps : F) : Option F → F
  | none => eps
  | some a => a

/-- uq.py 1776-1819 `LogNormalRandomVariable.inverse_transform`, for one realization. -/
def lognormalInverse (D : StdDist F) (E : ExpLog F) (eps theta beta : F) (a b : Option F)
    (u : F) : Except PyErr (Ext F) :=
  let lt := (Ext.fin theta).log E
  if truncated a b then
    let pa := stdCdf D ((((Ext.fin (lowerPos eps a)).log E).sub lt).divF beta)
    let pb := stdCdf D ((((upperInf b).log E).sub lt).divF beta)
    match ensurePositive eps pb pa with
    | .error e => .error e
    | .ok _ => .ok ((normPpf D (rescale u pa pb) lt beta).exp E)
  else .ok ((normPpf D (some u) lt beta).exp E)

/-- uq.py 1728-1774 `LogNormalRandomVariable.cdf`, for one value. -/
def lognormalCdf (D : StdDist F) (E : ExpLog F) (eps theta beta : F) (a b : Option F)
    (x : Ext F) : Except PyErr (Option F) :=
  let lt := (Ext.fin theta).log E
  if truncated a b then
    let pa := stdCdf D ((((Ext.fin (lowerPosCdf eps a)).log E).sub lt).divF beta)
    let pb := stdCdf D ((((upperInf b).log E).sub lt).divF beta)
    match ensurePositive eps pb pa with
    | .error e => .error e
    | .ok _ =>
      .ok (unscale (normCdf D (((x.max (.fin (lowerPosCdf eps a))).min (upperInf b)).log E) lt beta)
        pa pb)
  else .ok (normCdf D ((x.max (.fin eps)).log E) lt beta)

/-- The interval used by a uniform variable (uq.py 1877-1885, 1908-1915): `theta`, or the
truncation limits if at least one of them is given. -/
def uniformBounds (t0 t1 a b : Option F) : Ext F × Ext F :=
  if truncated a b then
    ((match a with | some x => .fin x | none => .nan), (match b with | some x => .fin x | none => .nan))
  else (lowerInf t0, upperInf t1)

/-- uq.py 1889-1917 `UniformRandomVariable.inverse_transform`:
`uniform.ppf(values, loc=a, scale=b - a)`, for one realization. -/
def uniformInverse (t0 t1 a b : Option F) (u : F) : Ext F :=
  match uniformBounds t0 t1 a b with
  | (.fin x, .fin y) => if x < y ∧ 0 ≤ u ∧ u ≤ 1 then .fin (x + u * (y - x)) else .nan
  | (.fin _, .posInf) => if 0 < u ∧ u ≤ 1 then .posInf else .nan
  | _ => .nan

/-- uq.py 1862-1887 `UniformRandomVariable.cdf`: `uniform.cdf(values, loc=a, scale=b - a)`
for one finite value. -/
def uniformCdf (t0 t1 a b : Option F) (v : F) : Option F :=
  match uniformBounds t0 t1 a b with
  | (.fin x, .fin y) =>
    if x < y then
      if v ≤ x then some 0 else if y ≤ v then some 1 else some ((v - x) / (y - x))
    else none
  | (.fin _, .posInf) => some 0
  | _ => none

/-- Lower limit of a Weibull variable (uq.py 2030-2033). -/
def weibullLower : Option F → F
  | none => 0
  | some a => if 0 ≤ a then a else 0

/-- Probability of the upper limit of a Weibull variable (uq.py 2035-2038). -/
def weibullPb (W : PosDist F) : Option F → F
  | none => 1
  | some b => W.cdf b

/-- `weibull_min.ppf(q, kappa, scale=lambda_)`. -/
def weibullPpf (W : PosDist F) (q : F) : Ext F :=
  if q < 0 then .nan else if q < 1 then .fin (W.ppf q) else if q = 1 then .posInf else .nan

/-- uq.py 2007-2048 `WeibullRandomVariable.inverse_transform`, for one realization. -/
def weibullInverse (W : PosDist F) (eps : F) (a b : Option F) (u : F) : Except PyErr (Ext F) :=
  if truncated a b then
    let pa := W.cdf (weibullLower a)
    let pb := weibullPb W b
    if pb - pa < eps then .error .valueError
    else .ok (weibullPpf W (u * (pb - pa) + pa))
  else .ok (weibullPpf W u)

/-- All neighbouring differences of `l` exceed `1e-8`: `np.array_equal(np.sort(l), l)` and
not `np.any(np.isclose(np.diff(l), 0.0))` (uq.py 2100-2126). -/
def strictAsc : List F → Bool
  | x :: y :: l => decide (x ≤ y) && !decide (|y - x| ≤ 1 / 10 ^ 8) && strictAsc (y :: l)
  | _ => true

/-- uq.py 2063-2136: `MultilinearCDFRandomVariable.__init__`.  Points are `(x, y)` rows of
`theta`; no rows at all raise `IndexError` at `theta[0, 1]`. -/
def multilinearInit (pts : List (F × F)) (a b : Option F) : Except PyErr (List (F × F)) :=
  if truncated a b then .error .notImplementedError
  else match pts.head?, pts.getLast? with
    | some p1, some pn =>
      if p1.2 ≠ 0 then .error .valueError
      else if pn.2 ≠ 1 then .error .valueError
      else if !strictAsc (pts.map Prod.fst) then .error .valueError
      else if !strictAsc (pts.map Prod.snd) then .error .valueError
      else .ok pts
    | _, _ => .error .indexError

/-- uq.py 2138-2157 `MultilinearCDFRandomVariable.cdf`: outside the points the added
`±inf` abscissae give 0 and 1. -/
def multilinearCdf (pts : List (F × F)) (x : F) : F :=
  match pts.head?, pts.getLast? with
  | some p1, some pn => if x < p1.1 then 0 else if pn.1 < x then 1 else interp pts x
  | _, _ => 0

/-- uq.py 2159-2187 `MultilinearCDFRandomVariable.inverse_transform`. -/
def multilinearInverse (pts : List (F × F)) (u : F) : F := interp (pts.map Prod.swap) u

/-- uq.py 2408-2447: `MultinomialRandomVariable.__init__` accepts `theta` (`sum ≤ 1`). -/
def multinomialInit (theta : List F) (a b : Option F) : Except PyErr (List F) :=
  if truncated a b then .error .notImplementedError
  else if 1 < theta.sum then .error .valueError
  else .ok theta

/-- `np.cumsum(l)` starting from `acc`. -/
def cumsum (acc : F) : List F → List F
  | [] => []
  | x :: l => (acc + x) :: cumsum (acc + x) l

/-- The loop `for i, p_i in enumerate(p_cum): values[values < p_i] = 10 + i`
(uq.py 2471-2472), from index `i`. -/
def multinomialLoop (i : Nat) : List F → List F → List F
  | [], values => values
  | p :: ps, values =>
    multinomialLoop (i + 1) ps (values.map fun v => if v < p then 10 + (i : F) else v)

/-- uq.py 2449-2476 `MultinomialRandomVariable.inverse_transform`: the returned array and
the argument array after the in-place updates. -/
def multinomialInverse (theta values : List F) : List F × List F :=
  let pcum := (cumsum 0 theta).dropLast
  let v1 := multinomialLoop 0 pcum values
  let v2 := v1.map fun v => if v ≤ 1 then 10 + (pcum.length : F) else v
  (v2.map (· - 10), v2)

end

section
variable {F : Type} [Field F] [LinearOrder F] [FloorRing F]

/-- `x.astype(int)`: rounds towards zero. -/
def pyTrunc (x : F) : Int := if 0 ≤ x then ⌊x⌋ else ⌈x⌉

/-- `arr[i]` with Python's negative indices. -/
def pyIndex {α : Type} (l : List α) (i : Int) : Except PyErr α :=
  if 0 ≤ i then
    match l[i.toNat]? with
    | some x => .ok x
    | none => .error .indexError
  else if -(l.length : Int) ≤ i then
    match l[(i + l.length).toNat]? with
    | some x => .ok x
    | none => .error .indexError
  else .error .indexError

/-- uq.py 2221-2245 `EmpiricalRandomVariable.inverse_transform`. -/
def empiricalInverse {α : Type} (theta : List α) (values : List F) : Except PyErr (List α) :=
  mapE (fun v => pyIndex theta (pyTrunc (v * (theta.length : F)))) values

end

/-- uq.py 2300-2325 `CoupledEmpiricalRandomVariable.inverse_transform`:
`np.tile(theta, int(size / n) + 1)[:size]`. -/
def coupledInverse {α : Type} (theta : List α) (size : Nat) : Except PyErr (List α) :=
  if theta.length = 0 then .error .zeroDivisionError
  else .ok ((List.replicate (size / theta.length + 1) theta).flatten.take size)

/-- uq.py 2385-2400 `DeterministicRandomVariable.inverse_transform`. -/
def deterministicInverse {α : Type} (theta : List α) (size : Nat) : Except PyErr (List α) :=
  match theta with
  | [] => .error .indexError
  | x :: _ => .ok (List.replicate size x)

/-- The families named in uq.py 63-142 and 2881-2931; `undefined` is a NaN family,
`other` any further name. -/
inductive Family where
  | normal
  | normalStd
  | normalCov
  | lognormal
  | uniform
  | deterministic
  | multilinearCDF
  | undefined
  | other
  deriving DecidableEq, Repr

section
variable {F : Type} [Field F] [LinearOrder F]

/-- One entry of `theta`: NaN, a number, or the ordinates of a multilinear function
(as stored by `_convert_marginal_params`, pelicun_model.py 175-189). -/
inductive Entry (F : Type) where
  | nan
  | num (x : F)
  | vec (l : List F)
  deriving DecidableEq, Repr

/-- `entry * scale_factor`. -/
def Entry.scale (f : F) : Entry F → Entry F
  | .nan => .nan
  | .num x => .num (x * f)
  | .vec l => .vec (l.map (· * f))

/-- `truncation_limits *= scale_factor` for one limit (uq.py 110-112). -/
def scaleLimit (f : F) (a : Option F) : Option F := a.map (· * f)

/-- Which of the first two parameters are scaled, kept or left `nan` (uq.py 118-140). -/
inductive Mode where
  | scaleBoth
  | scaleKeep
  | scaleOnly

/-- The branch taken by `scale_distribution` (uq.py 114-140). -/
def scaleMode : Family → Except PyErr Mode
  | .normalStd => .ok .scaleBoth
  | .normal => .ok .scaleKeep
  | .normalCov => .ok .scaleKeep
  | .lognormal => .ok .scaleKeep
  | .uniform => .ok .scaleBoth
  | .deterministic => .ok .scaleOnly
  | .multilinearCDF => .ok .scaleOnly
  | .undefined => .ok .scaleOnly
  | .other => .error .valueError

/-- uq.py 114-140: `theta_new`, starting from all `nan`.  `IndexError` when an entry that
is read does not exist. -/
def scaleTheta (f : F) (m : Mode) (theta : List (Entry F)) : Except PyErr (List (Entry F)) :=
  match m, theta with
  | .scaleBoth, t0 :: t1 :: r => .ok (t0.scale f :: t1.scale f :: r.map fun _ => .nan)
  | .scaleKeep, t0 :: t1 :: r => .ok (t0.scale f :: t1 :: r.map fun _ => .nan)
  | .scaleOnly, t0 :: r => .ok (t0.scale f :: r.map fun _ => .nan)
  | _, _ => .error .indexError

/-- uq.py 63-142 `scale_distribution`. -/
def scaleDistribution (f : F) (fam : Family) (theta : List (Entry F))
    (lim : Option (Option F × Option F)) :
    Except PyErr (List (Entry F) × Option (Option F × Option F)) :=
  match scaleMode fam with
  | .error e => .error e
  | .ok m =>
    match scaleTheta f m theta with
    | .error e => .error e
    | .ok t => .ok (t, lim.map fun p => (scaleLimit f p.1, scaleLimit f p.2))

/-- A `Normal_COV` variable: construction (uq.py 1674-1700) and inverse transform. -/
def covInverse (D : StdDist F) (eps m c : F) (a b : Option F) (u : F) : Except PyErr (Ext F) :=
  match covStd m c with
  | .error e => .error e
  | .ok s => normalInverse D eps m s a b u

/-- A deterministic variable: truncation is refused (uq.py 2371-2381), every realization is
`theta[0]`. -/
def detInverse (x : F) (a b : Option F) : Except PyErr (Ext F) :=
  if truncated a b then .error .notImplementedError else .ok (.fin x)

/-- `rv_class_map(family)(theta=theta, truncation_limits=lim).inverse_transform([u])[0]`
(uq.py 2881-2931) for the families with two numeric parameters and the deterministic one.
Families outside that group, or parameters that are not numbers, are not covered
(`none`). -/
def quantile (D : StdDist F) (E : ExpLog F) (eps : F) (fam : Family) (theta : List (Entry F))
    (a b : Option F) (u : F) : Option (Except PyErr (Ext F)) :=
  match fam, theta with
  | .normalStd, .num m :: .num s :: _ => some (normalInverse D eps m s a b u)
  | .normal, .num m :: .num c :: _ =>
    some (covInverse D eps m c a b u)
  | .normalCov, .num m :: .num c :: _ =>
    some (covInverse D eps m c a b u)
  | .lognormal, .num m :: .num s :: _ => some (lognormalInverse D E eps m s a b u)
  | .uniform, .num x :: .num y :: _ => some (.ok (uniformInverse (some x) (some y) a b u))
  | .deterministic, .num x :: _ =>
    some (detInverse x a b)
  | .undefined, .num x :: _ =>
    some (detInverse x a b)
  | _, _ => none

end
end Verif.UQ
