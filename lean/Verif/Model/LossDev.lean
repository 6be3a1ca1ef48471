import Verif.Model.AsmProcess
import Verif.Model.DemandGen
import Verif.Model.LossDs

/-!
# Random deviations of repair consequences

pelicun/model/loss_model.py: `RepairModel_DS._create_DV_RVs` (2185-2328) and the sampling and use of
the random variables in `RepairModel_DS.calculate` (1902-2135).  The medians and the combination of
medians, quantities and deviations are in `Model/LossDs`, the registry in `Model/UQRegistry`.

Medians and quantities are rational numbers, deviations are numbers of an ordered field `F`.
-/

namespace Verif.LossDev

open Verif.UQ Verif.FileIO Verif.LossDs
open Verif.DemandGen (rvSample)

section
variable {F : Type} [Field F] [LinearOrder F]

/-- A random variable to be created: the parts of its name, the family and the parameters. -/
structure DvVar (F : Type) where
  label : Label
  family : Str
  theta : List F

/-- 2289-2298: `rv_class_map(family)(name, theta, truncation_limits=[0.0, nan])`, for the families that
pass the check in `_calc_median_consequence` (2407-2416).  `Normal_COV` takes the mean and the
coefficient of variation (uq.py 1665-1700).  A lognormal variable with another number of parameters
fails later, when it is sampled (uq.py 1414-1416, 1796); a deterministic variable does not accept
truncation limits (uq.py 2377-2379). -/
def kindOf (family : Str) (theta : List F) : Except PyErr (RVKind F) :=
  if family = str "normal" then
    match theta with
    | m :: c :: _ => (covStd m c).map fun s => .normal (.const m s) (some 0) none
    | _ => .error .valueError
  else if family = str "lognormal" then
    match theta with
    | [m, b] => .ok (.lognormal (.const m b) (some 0) none)
    | _ => .error .valueError
  else if family = str "deterministic" then .error .notImplementedError
  else .error .valueError

/-- 2291-2294: the name of a variable. -/
def name (l : Label) : Str := joinChar '-' l

/-- 2287-2299: the variables are added one after the other. -/
def addVars : List (DvVar F) → Registry F → Except PyErr (Registry F)
  | [], r => .ok r
  | v :: vs, r =>
    match kindOf v.family v.theta with
    | .error e => .error e
    | .ok k =>
      match r.addRV (.mk (name v.label) k none) with
      | .error e => .error e
      | .ok r' => addVars vs r'

/-- 2312: the name of the variable for time that belongs to one for cost. -/
def timeName (s : Str) : Str := AsmProcess.replaceAll (str "Cost") (str "Time") s

/-- 2307-2316: the name of the set; `levels` is the number of parts of the names without the decision
variable. -/
def setName (levels : Nat) (s : Str) : Str :=
  str "DV-" ++ joinChar '-' (((splitChar '-' s).drop 1).take levels) ++ str "_set"

/-- 2301-2320: for each variable for cost, the set with the one for time, if there is one.  The members
of a set are kept in the order of their names (uq.py 2503-2525). -/
def addPairs (levels : Nat) (copula : List (List F) → List (List F)) : List Str → Registry F → Registry F
  | [], r => r
  | s :: l, r =>
    if (str "Cost").isPrefixOf s then
      match r.vars.get? s, r.vars.get? (timeName s) with
      | some c, some t =>
        addPairs levels copula l (r.addRVSet ⟨setName levels s, pySort (fun a b => strLe a.name b.name) [c, t], copula⟩)
      | _, _ => addPairs levels copula l r
    else addPairs levels copula l r

/-- 2185-2328 `_create_DV_RVs`; `corr` is the Gaussian copula for the correlation of cost and time,
`none` if that is zero. -/
def createRVs (levels : Nat) (vars : List (DvVar F)) (corr : Option (List (List F) → List (List F))) :
    Except PyErr (Registry F) :=
  match addVars vars {} with
  | .error e => .error e
  | .ok r =>
    match corr with
    | none => .ok r
    | some copula => .ok (addPairs levels copula (r.vars.map Prod.fst) r)

/-- uq.py 2582-2619 for two variables with `rho = [[1, r], [r, 1]]`, `|r| < 1`: the Cholesky factor is
`[[1, 0], [r, s]]` with `s = sqrt(1 - r * r)`. -/
def gauss2 (D : StdDist F) (r s : F) : List (List F) → List (List F)
  | [a, b] => [a.map fun x => D.cdf (1 * D.ppf x), List.zipWith (fun x y => D.cdf (r * D.ppf x + s * D.ppf y)) a b]
  | rows => rows

/-- 1989-1993: the names are split at the dashes; another number of parts than `levels + 1` cannot be
given its names (`ValueError`).  The order of the columns is left out. -/
def stdSample (levels : Nat) (s : List (Str × List (Ext F))) : Except PyErr (List (Label × List (Ext F))) :=
  match Labels.toMulti (.simple (s.map Prod.fst)) with
  | .error e => .error e
  | .ok (.simple _) => .error .valueError
  | .ok (.multi m ls) =>
    if m = levels + 1 then .ok (ls.zip (s.map Prod.snd)) else .error .valueError

variable [FloorRing F]

/-- 1983-1996: the sample of the deviations.  Without variables there is none. -/
def devSample (N : Num F) (levels : Nat) (vars : List (DvVar F)) (corr : Option (List (List F) → List (List F)))
    (n : Nat) (m : Method) (perm : Nat → List Nat) (jitter : Nat → List F) :
    Except PyErr (List (Label × List (Ext F))) :=
  match createRVs levels vars corr with
  | .error e => .error e
  | .ok r =>
    if vars = [] then .ok []
    else
      match generateSample N r n m perm jitter with
      | .error e => .error e
      | .ok r' => stdSample levels (rvSample r')

omit [FloorRing F] in
/-- 2257-2283: the parameters; a median that is a function is replaced by 1. -/
def thetaOf (p : DsParam) (spread : List F) : List F :=
  (match p.theta with
    | .const x => (x : F)
    | .curve _ => 1) :: spread

omit [FloorRing F] in
/-- The label of the variable of a column: `{decision_variable}-{component}-{ds}-{loc}-{direction}-{uid}`. -/
def devLabel (dv : Str) (k : DKey) : Label := [dv, k.cmp, k.ds, k.loc, k.dir, k.uid]

omit [FloorRing F] in
/-- 2253-2299, for a component, its consequence, a decision variable and a damage state.  `spread` are
`Theta_1` and `Theta_2`, as far as they are defined. -/
def stateVars (spread : Str × Str → Str → List F) (cols : List DKey) (row : Str → Option DsParam)
    (cmp loss dv ds : Str) : List (DvVar F) :=
  match row ds with
  | none => []
  | some p =>
    match p.family with
    | none => []
    | some f => (cols.filter fun k => decide (k.cmp = cmp ∧ k.ds = ds)).map fun k =>
        ⟨devLabel dv k, f, thetaOf p (spread (loss, dv) ds)⟩

omit [FloorRing F] in
/-- 2235-2299: the variables, by component, decision variable, damage state and column. -/
def dsVars (params : Params) (spread : Str × Str → Str → List F) (missing : List (Str × Str)) (cols : List DKey)
    (lossMap : List (Str × Str)) (dvs : List Str) : List (DvVar F) :=
  (lossMap.filter fun c => cols.any fun k => decide (k.cmp = c.1)).flatMap fun c =>
    (dvs.filter fun dv => decide ((c.2, dv) ∉ missing)).flatMap fun dv =>
      match params.rows.get? (c.2, dv) with
      | none => []
      | some row =>
        ((uniqueVals [] ((cols.filter fun k => decide (k.cmp = c.1)).map (·.ds))).filter fun ds => decide (ds ≠ str "0")).flatMap
          fun ds => stateVars spread cols row c.1 c.2 dv ds

omit [FloorRing F] in
/-- The deviation of a column in realization `i`.  A product with NaN is NaN and becomes zero (2132),
as with the zero here; infinite deviations are not modelled. -/
def devAt (std : List (Label × List (Ext F))) (i : Nat) (dv : Str) (k : DKey) : F :=
  match Dict.get? std (devLabel dv k) with
  | none => 0
  | some v =>
    match v[i]? with
    | some (.fin x) => x
    | _ => 0

/-- 1902-2135 `RepairModel_DS.calculate`; `rows` are the realizations of the damaged quantities. -/
def calculate (N : Num F) (eco : Eco) (params : Params) (spread : Str × Str → Str → List F) (missing : List (Str × Str))
    (cols : List DKey) (lossMap : List (Str × Str)) (dvs : List Str) (corr : Option (List (List F) → List (List F)))
    (m : Method) (perm : Nat → List Nat) (jitter : Nat → List F) (rows : List (DKey → Option ℚ)) :
    Except PyErr (Option (List (OutKey × List F))) :=
  if cols ≠ [] ∧ ∀ k ∈ cols, k.ds = str "0" then .ok none
  else
    match allMedians eco params missing cols lossMap dvs with
    | .error e => .error e
    | .ok meds =>
      match devSample N 5 (dsVars params spread missing cols lossMap dvs) corr rows.length m perm jitter with
      | .error e => .error e
      | .ok std =>
        match allLosses eco params missing cols meds with
        | .error e => .error e
        | .ok [] => .error .valueError
        | .ok rs => .ok (some (rs.flatten.map fun e => (e.1, rows.mapIdx fun i row => e.2 ⟨row, devAt std i⟩)))

end

end Verif.LossDev
