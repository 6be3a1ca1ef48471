import Verif.Model.UQDist

/-!
# The probability of a box

Models `mvn_orthotope_density` (`/repo/pelicun/uq.py` 145-232) and `RandomVariableSet.orthotope_density` (2621-2711)
with `RandomVariableSet.Rho` (2567-2580).

Exact arithmetic in an ordered field.  `mvndst` of scipy and the square root are parameters.  The error estimate that
`mvndst` returns is left out, and so is the change of the arrays of the caller in which `nan` is replaced (206-210).
-/

namespace Verif.Orthotope

open Verif.UQ

variable {F P : Type} [Field F] [LinearOrder F]

/-- `mvndst(lower, upper, infin, correl)` of scipy: the probability. -/
abbrev Mvndst (F P : Type) := List (Ext F) → List (Ext F) → List Int → List F → P

/-- 206-210: missing limits are infinite -/
def orNegInf : Ext F → Ext F
  | .nan => .negInf
  | x => x

/-- 206-210 -/
def orPosInf : Ext F → Ext F
  | .nan => .posInf
  | x => x

/-- `(limit - mu) / sig` with the arrays of numpy: an array with one entry is repeated.  Arrays of other sizes raise
`ValueError` here, or at `np.putmask` (222) if there is one variable only. -/
def broadcast (k : Nat) (l : List (Ext F)) : Except PyErr (List (Ext F)) :=
  if l.length = k then .ok l
  else match l with
    | [x] => .ok (List.replicate k x)
    | _ => .error .valueError

/-- 216-224: the flags for infinite limits -/
def flag (lo up : Ext F) : Int :=
  if lo = .negInf ∧ up = .posInf then -1 else if up = .posInf then 1 else if lo = .negInf then 0 else 2

/-- `corr[np.tril_indices(ndim, -1)]`, 227 -/
def tril (k : Nat) (corr : Nat → Nat → F) : List F :=
  if k = 1 then [0] else (List.range k).flatMap fun a => (List.range a).map fun b => corr a b

/-- `(x - mu) / sig` -/
def standardize (mu sig : F) (x : Ext F) : Ext F := (x.sub (.fin mu)).divF sig

/-- 145-232 `mvn_orthotope_density`, for `k` variables -/
def mvnDensity (mvndst : Mvndst F P) (sqrt : F → F) (k : Nat) (mu : Nat → F) (cov : Nat → Nat → F) (lower upper : List (Ext F)) :
    Except PyErr P := do
  let sig := fun a => sqrt (cov a a)
  let corr := fun a b => cov a b / (sig a * sig b)
  let lo ← broadcast k (lower.map orNegInf)
  let up ← broadcast k (upper.map orPosInf)
  let lo := lo.zipIdx.map fun x => standardize (mu x.2) (sig x.2) x.1
  let up := up.zipIdx.map fun x => standardize (mu x.2) (sig x.2) x.1
  return mvndst lo up (lo.zipWith flag up) (tril k corr)

/-- A variable of the set: `var.cdf`, for one value -/
abbrev Cdf (F : Type) := F → Except PyErr (Option F)

/-- The limits in each dimension (`none`: `nan`).  A number is a vector of length 1.  An array with one row for each
variable and one column, and one with several columns, of which only matters whether there is a limit in it. -/
inductive Bounds (F : Type) where
  | vec (l : List (Option F))
  | col (l : List (Option F))
  | wide (given : Bool)

/-- `np.any(~np.isnan(limits))` -/
def Bounds.any : Bounds F → Bool
  | .vec l => l.any Option.isSome
  | .col l => l.any Option.isSome
  | .wide g => g

/-- 2687-2695, for one variable: the limit is `limits[var_i]`, `ValueError` if this is an array with several entries -/
def stdLimit (D : StdDist F) (b : Bounds F) (i : Nat) (cdf : Cdf F) : Except PyErr (Ext F) :=
  if b.any then
    match b with
    | .wide _ => .error .valueError
    | .vec l | .col l =>
      match l[i]? with
      | none => .error .indexError
      | some none => .ok .nan
      | some (some x) => (fun p => normPpf D p (.fin 0) 1) <$> cdf x
  else .ok .nan

/-- 2677-2695: the limits of all variables; `none` if the variable is not in the set -/
def stdLimits (D : StdDist F) (b : Bounds F) : Nat → List (Option (Cdf F)) → Except PyErr (List (Ext F))
  | _, [] => .ok []
  | _, none :: _ => .error .keyError
  | i, some c :: cs => do
    let x ← stdLimit D b i c
    (x :: ·) <$> stdLimits D b (i + 1) cs

/-- `list(self._variables.keys()).index(var_i)` -/
def position {α : Type} (vars : List (Str × α)) (name : Str) : Nat := vars.findIdx fun x => decide (x.1 = name)

/-- `limits_std`: an array of length `n` with the limits of the variables in front.  There are as many entries in the
array as variables, or more. -/
def fill (n : Nat) (l : List (Ext F)) : Except PyErr (List (Ext F)) :=
  if l.length ≤ n then .ok (l ++ List.replicate (n - l.length) .nan) else .error .indexError

/-- 2621-2711 `orthotope_density` of a set with the variables `vars` (by name) and the correlation matrix `rho`.
The errors of the two arrays of limits are not in the order of the code (the error of the first variable comes first). -/
def orthotope (mvndst : Mvndst F P) (one : P) (sqrt : F → F) (D : StdDist F) (vars : List (Str × Cdf F)) (rho : Nat → Nat → F)
    (lower upper : Bounds F) (subset : Option (List Str)) : Except PyErr (List P) :=
  match (if lower.any then some lower else if upper.any then some upper else none) with
  | none => .ok [one]
  | some target => do
    let names := subset.getD (vars.map Prod.fst)
    let cs := names.map fun n => (vars.find? fun x => decide (x.1 = n)).map Prod.snd
    let lo ← stdLimits D lower 0 cs
    let up ← stdLimits D upper 0 cs
    let ids := names.map (position vars)
    let k := names.length
    let r := match subset with
      | none => rho
      | some _ => fun a b => rho (ids.getD b 0) (ids.getD a 0)
    match target with
    | .wide _ => .error .valueError
    | .vec l => do
      let lo ← fill l.length lo
      let up ← fill l.length up
      mapE (fun x => mvnDensity mvndst sqrt k (fun _ => 0) r [x.1] [x.2]) (lo.zip up)
    | .col l => do
      let lo ← fill l.length lo
      let up ← fill l.length up
      (fun p => [p]) <$> mvnDensity mvndst sqrt k (fun _ => 0) r lo up

end Verif.Orthotope
