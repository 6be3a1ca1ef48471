import Verif.Model.UQDist

/-!
# Random variables with parameters for each realization

Models `RandomVariable._prepare_theta_and_truncation_limit_arrays` (`/repo/pelicun/uq.py` 1343-1420) with
`constant_parameters` (1326-1341), the methods `cdf` and `inverse_transform` of normal and lognormal variables for whole
arrays (1552-1634, 1728-1818; `Model/UQDist` has the formulas for one realization), the constructors of `Normal_STD`
(1646-1660) and `Normal_COV` (1672-1700) and the samples of deterministic variables (2387-2400), and the parameters of
capacities with one operation for each realization (`/repo/pelicun/model/damage_model.py` 1492-1499).

Exact arithmetic.  Arrays of more than two dimensions are refused by the constructor (1296-1316) and left out.
-/

namespace Verif.UQRows

open Verif.UQ

variable {F : Type} [Field F] [LinearOrder F]

/-- An array with one dimension and `c` entries, or with two dimensions and `c` columns.  Entries of a row at `c` and above
do not matter. -/
inductive Arr (α : Type) where
  | vec (c : Nat) (r : Nat → α)
  | rows (c : Nat) (l : List (Nat → α))

/-- The number of columns of `np.atleast_2d(x)` -/
def Arr.cols {α : Type} : Arr α → Nat
  | .vec c _ => c
  | .rows c _ => c

/-- The rows of `np.atleast_2d(x)` -/
def Arr.rows2 {α : Type} : Arr α → List (Nat → α)
  | .vec _ r => [r]
  | .rows _ l => l

/-- 1326-1341 `constant_parameters` -/
def Arr.constant {α : Type} : Arr α → Bool
  | .vec _ _ => true
  | .rows _ _ => false

/-- `np.any(~np.isnan(self.truncation_limits))` -/
def Arr.anyLimit (lim : Arr (Option F)) : Bool := lim.rows2.any fun r => (List.range lim.cols).any fun j => (r j).isSome

/-- 1343-1420 `_prepare_theta_and_truncation_limit_arrays` for `n` values: the rows of both arrays -/
def prepare (theta : Arr F) (lim : Arr (Option F)) (n : Nat) : Except PyErr (List (Nat → F) × List (Nat → Option F)) :=
  if theta.constant = false ∧ n ≠ theta.rows2.length then .error .valueError
  else if lim.rows2.length = theta.rows2.length ∧ lim.cols = theta.cols then .ok (theta.rows2, lim.rows2)
  else if lim.cols ≠ theta.cols then .error .valueError
  else .ok (theta.rows2, (List.replicate theta.rows2.length lim.rows2).flatten)

/-- `x, y = array.T`: `ValueError` unless there are two columns -/
def two {α : Type} (cols : Nat) (l : List (Nat → α)) : Except PyErr (List (α × α)) :=
  if cols = 2 then .ok (l.map fun r => (r 0, r 1)) else .error .valueError

/-- Two arrays with one dimension in an operation of numpy: an array with one entry is repeated -/
def broadcast {α β : Type} (l : List α) (m : List β) : Except PyErr (List (α × β)) :=
  if l.length = m.length then .ok (l.zip m)
  else match l, m with
    | [x], m => .ok (m.map fun y => (x, y))
    | l, [y] => .ok (l.map fun x => (x, y))
    | _, _ => .error .valueError

/-- The common part of the methods `cdf` and `inverse_transform` of normal and lognormal variables (1567-1602, 1615-1634,
1743-1771, 1794-1818).  `tooSmall`: the check of the probability between the limits; `cut`: the result for one realization
in the branch with limits; `plain`: in the branch without. -/
def applyRows {β : Type} (tooSmall : Option F × Option F → F × F → Bool) (cut : Option F × Option F → F × F → F → β) (plain : F × F → F → β)
    (theta : Arr F) (lim : Arr (Option F)) (values : List F) : Except PyErr (List β) := do
  let tl ← prepare theta lim values.length
  let t ← two theta.cols tl.1
  if lim.anyLimit then
    let l ← two lim.cols tl.2
    let lt ← broadcast l t
    if lt.any fun x => tooSmall x.1 x.2 then .error .valueError
    else (fun v => v.map fun x => cut x.2.1 x.2.2 x.1) <$> broadcast values lt
  else (fun v => v.map fun x => plain x.2 x.1) <$> broadcast values t

/-- `np.any((p_b - p_a) < FIRST_POSITIVE_NUMBER)` for one row -/
def smallMass (eps : F) (pa pb : Option F) : Bool :=
  match ensurePositive eps pb pa with
  | .error _ => true
  | .ok _ => false

/-- 1581-1585: the probabilities of the limits of a normal variable -/
def normalProbs (D : StdDist F) (l : Option F × Option F) (p : F × F) : Option F × Option F :=
  (stdCdf D (((lowerInf l.1).sub (.fin p.1)).divF p.2), stdCdf D (((upperInf l.2).sub (.fin p.1)).divF p.2))

/-- 1598-1634 `NormalRandomVariable.inverse_transform` -/
def normalInverseRows (D : StdDist F) (eps : F) : Arr F → Arr (Option F) → List F → Except PyErr (List (Ext F)) :=
  applyRows (fun l p => smallMass eps (normalProbs D l p).1 (normalProbs D l p).2)
    (fun l p u => normPpf D (rescale u (normalProbs D l p).1 (normalProbs D l p).2) (.fin p.1) p.2)
    (fun p u => normPpf D (some u) (.fin p.1) p.2)

/-- 1552-1596 `NormalRandomVariable.cdf` -/
def normalCdfRows (D : StdDist F) (eps : F) : Arr F → Arr (Option F) → List F → Except PyErr (List (Option F)) :=
  applyRows (fun l p => smallMass eps (normalProbs D l p).1 (normalProbs D l p).2)
    (fun l p x => unscale (normCdf D (((Ext.fin x).max (lowerInf l.1)).min (upperInf l.2)) (.fin p.1) p.2)
      (normalProbs D l p).1 (normalProbs D l p).2)
    (fun p x => normCdf D (.fin x) (.fin p.1) p.2)

/-- 1801-1810: the probabilities of the limits of a lognormal variable -/
def lognormalProbs (D : StdDist F) (E : ExpLog F) (eps : F) (l : Option F × Option F) (p : F × F) : Option F × Option F :=
  (stdCdf D ((((Ext.fin (lowerPos eps l.1)).log E).sub ((Ext.fin p.1).log E)).divF p.2),
   stdCdf D ((((upperInf l.2).log E).sub ((Ext.fin p.1).log E)).divF p.2))

/-- 1775-1818 `LogNormalRandomVariable.inverse_transform` -/
def lognormalInverseRows (D : StdDist F) (E : ExpLog F) (eps : F) : Arr F → Arr (Option F) → List F → Except PyErr (List (Ext F)) :=
  applyRows (fun l p => smallMass eps (lognormalProbs D E eps l p).1 (lognormalProbs D E eps l p).2)
    (fun l p u => (normPpf D (rescale u (lognormalProbs D E eps l p).1 (lognormalProbs D E eps l p).2) ((Ext.fin p.1).log E) p.2).exp E)
    (fun p u => (normPpf D (some u) ((Ext.fin p.1).log E) p.2).exp E)

/-- 1749-1757: the probabilities of the limits in `cdf` -/
def lognormalProbsCdf (D : StdDist F) (E : ExpLog F) (eps : F) (l : Option F × Option F) (p : F × F) : Option F × Option F :=
  (stdCdf D ((((Ext.fin (lowerPosCdf eps l.1)).log E).sub ((Ext.fin p.1).log E)).divF p.2),
   stdCdf D ((((upperInf l.2).log E).sub ((Ext.fin p.1).log E)).divF p.2))

/-- 1728-1771 `LogNormalRandomVariable.cdf` -/
def lognormalCdfRows (D : StdDist F) (E : ExpLog F) (eps : F) : Arr F → Arr (Option F) → List F → Except PyErr (List (Option F)) :=
  applyRows (fun l p => smallMass eps (lognormalProbsCdf D E eps l p).1 (lognormalProbsCdf D E eps l p).2)
    (fun l p x => unscale (normCdf D ((((Ext.fin x).max (.fin (lowerPosCdf eps l.1))).min (upperInf l.2)).log E) ((Ext.fin p.1).log E) p.2)
      (lognormalProbsCdf D E eps l p).1 (lognormalProbsCdf D E eps l p).2)
    (fun p x => normCdf D (((Ext.fin x).max (.fin eps)).log E) ((Ext.fin p.1).log E) p.2)

/-- 1646-1660 `Normal_STD.__init__`: `mean, std = theta[:2]`, and these are the parameters -/
def normalStdTheta : Arr F → Except PyErr (Arr F)
  | .vec c r => if 2 ≤ c then .ok (.vec 2 r) else .error .valueError
  | .rows c (x :: y :: _) => .ok (.rows c [x, y])
  | .rows _ _ => .error .valueError

/-- 1672-1700 `Normal_COV.__init__`.  With two dimensions `mean` is a row, and the comparison in `if` raises `ValueError`
unless the row has one entry. -/
def normalCovTheta : Arr F → Except PyErr (Arr F)
  | .vec c r =>
    if 2 ≤ c then
      if |r 0| < 1 / 10 ^ 40 then .error .valueError else .ok (.vec 2 fun j => if j = 0 then r 0 else r 0 * r 1)
    else .error .valueError
  | .rows c (x :: y :: _) =>
    if c = 1 then
      if |x 0| < 1 / 10 ^ 40 then .error .valueError else .ok (.rows 1 [x, fun j => x j * y j])
    else .error .valueError
  | .rows _ _ => .error .valueError

/-- 1848-1860, 1950-1962: uniform and Weibull variables refuse parameters with two dimensions. -/
def constantOnly (theta : Arr F) : Except PyErr (Arr F) := if theta.constant then .ok theta else .error .valueError

/-- 2387-2400 `DeterministicRandomVariable.inverse_transform`: `np.full(sample_size, self.theta[0])`.  With two dimensions
`theta[0]` is a row. -/
def deterministicRows (theta : Arr F) (n : Nat) : Except PyErr (List F) :=
  match theta with
  | .vec 0 _ => .error .indexError
  | .vec _ r => .ok (List.replicate n (r 0))
  | .rows _ [] => .error .indexError
  | .rows c (r :: _) =>
    if c = 1 then .ok (List.replicate n (r 0)) else if c = n then .ok ((List.range c).map r) else .error .valueError

/-- `damage_model.py` 1492-1499: the parameters `theta` (`c` numbers) of a capacity with the values `medians` of the
operations -/
def capacityTheta (c : Nat) (theta : Nat → F) (medians : List F) : Arr F :=
  match medians with
  | [m] => .vec c fun j => if j = 0 then m else theta j
  | ms => .rows c (ms.map fun m j => if j = 0 then m else theta j)

end Verif.UQRows
