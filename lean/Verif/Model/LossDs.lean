import Verif.Model.FileIO
import Verif.Model.Interp
import Verif.Model.DmgQty

/-!
# Losses from damage states

pelicun/model/loss_model.py `RepairModel_DS.calculate` (1902-2135), `_create_DV_RVs` (2185-2328),
`_calc_median_consequence` (2330-2497), `_prep_constant_median_DV` (2902-2922) and
`_prep_bounded_multilinear_median_DV` (2925-2967).

The computation is done for one realization at a time: `row` has the damaged quantities (NaN is `none`)
and `dev` the sampled deviations.  Which columns there are, and the errors, do not depend on the
realization.  The consequence parameters are given in parsed form; a family without `Theta_0` is not
modelled.
-/

namespace Verif.LossDs

/-- A column of the damaged quantities. -/
structure DKey where
  cmp : Str
  loc : Str
  dir : Str
  uid : Str
  ds : Str
  deriving DecidableEq

/-- `Theta_0` of a damage state: a number, or medians over quantities (`'m1,m2|q1,q2'`), as points
`(q, m)`. -/
inductive Theta where
  | const (x : ℚ)
  | curve (pts : List (ℚ × ℚ))
  deriving DecidableEq

/-- The parameters of a damage state with a defined `Theta_0`. -/
structure DsParam where
  theta : Theta
  family : Option Str
  deriving DecidableEq

/-- The loss parameters: the damage states that have columns (`DSx` without `DS`), and the rows by
consequence and decision variable. -/
structure Params where
  states : List Str
  rows : Dict (Str × Str) (Str → Option DsParam)

/-- `options.eco_scale` -/
structure Eco where
  acrossFloors : Bool
  acrossStates : Bool

/-- 2925-2967: `np.interp`; NaN stays NaN. -/
def multilinear (pts : List (ℚ × ℚ)) : Option ℚ → Option ℚ
  | none => none
  | some q => some (interp pts q)

/-- 2418-2440: the function for the median consequence.  With a family the constant is in the random
variable. -/
def medianFun (p : DsParam) (q : Option ℚ) : Option ℚ :=
  match p.theta with
  | .const x => if p.family = none then some x else some 1
  | .curve pts => multilinear pts q

/-- 1948-1949: `eco_group.sum().mask(eco_group.count() == 0, np.nan)` for the columns with the given
property. -/
def ecoQnt (cols : List DKey) (p : DKey → Bool) (row : DKey → Option ℚ) : Option ℚ :=
  DmgQty.sumMin1 ((cols.filter p).map row)

/-- 1931-1946: which columns are summed up for the economies of scale, when they are across floors. -/
def sameGroup (eco : Eco) (cmp ds : Str) (k : DKey) : Bool :=
  decide (k.cmp = cmp) && (eco.acrossStates || decide (k.ds = ds))

/-- 2407-2416 -/
def familyOk (f : Option Str) : Bool :=
  match f with
  | none => true
  | some f => decide (f ∈ [str "normal", str "lognormal", str "deterministic"])

/-- 2444-2462: is the state skipped?  The level after the component is `ds` when the groups are across
floors, but it is `loc` when they are not. -/
def stateAvailable (eco : Eco) (cols : List DKey) (cmp ds : Str) : Bool :=
  if eco.acrossFloors then eco.acrossStates || cols.any fun k => decide (k.cmp = cmp ∧ k.ds = ds)
  else eco.acrossStates || cols.any fun k => decide (k.cmp = cmp ∧ k.loc = ds)

/-- 2384-2473: the damage states of a component that get a median. -/
def medianStates (eco : Eco) (cols : List DKey) (row : Str → Option DsParam) (cmp : Str) : List Str → Except PyErr (List (Str × DsParam))
  | [] => .ok []
  | ds :: l =>
    if ds = str "0" then medianStates eco cols row cmp l
    else
      match row ds with
      | none => medianStates eco cols row cmp l
      | some p =>
        if familyOk p.family = false then .error .valueError
        else if stateAvailable eco cols cmp ds = false then medianStates eco cols row cmp l
        else
          match medianStates eco cols row cmp l with
          | .error e => .error e
          | .ok r => .ok ((ds, p) :: r)

/-- The row of a consequence; looking it up fails if it is not there and there is a state to look for. -/
def paramRow (params : Params) (k : Str × Str) : Except PyErr (Str → Option DsParam) :=
  match params.rows.get? k with
  | some row => .ok row
  | none => if ∃ ds ∈ params.states, ds ≠ str "0" then .error .keyError else .ok fun _ => none

/-- 2373-2478: the components that get a median for a decision variable. -/
def medianCmps (eco : Eco) (params : Params) (missing : List (Str × Str)) (cols : List DKey) (dv : Str) :
    List (Str × Str) → Except PyErr (List (Str × Str × List (Str × DsParam)))
  | [] => .ok []
  | (cmp, loss) :: m =>
    if (loss, dv) ∈ missing then medianCmps eco params missing cols dv m
    else if (cols.any fun k => decide (k.cmp = cmp)) = false then medianCmps eco params missing cols dv m
    else
      match paramRow params (loss, dv) with
      | .error e => .error e
      | .ok row =>
        match medianStates eco cols row cmp params.states with
        | .error e => .error e
        | .ok sts =>
          match medianCmps eco params missing cols dv m with
          | .error e => .error e
          | .ok r => .ok (if sts = [] then r else (cmp, loss, sts) :: r)

/-- 2480-2497: with groups that are not across floors the result has three column levels, but two
names are assigned. -/
def medians (eco : Eco) (params : Params) (missing : List (Str × Str)) (cols : List DKey) (lossMap : List (Str × Str)) (dv : Str) :
    Except PyErr (List (Str × Str × List (Str × DsParam))) :=
  match medianCmps eco params missing cols dv lossMap with
  | .error e => .error e
  | .ok [] => .ok []
  | .ok (c :: r) => if eco.acrossFloors then .ok (c :: r) else .error .valueError

/-- `medians` for all decision variables. -/
def allMedians (eco : Eco) (params : Params) (missing : List (Str × Str)) (cols : List DKey) (lossMap : List (Str × Str)) (dvs : List Str) :
    Except PyErr (List (Str × List (Str × Str × List (Str × DsParam)))) :=
  mapE (fun dv => match medians eco params missing cols lossMap dv with
    | .error e => .error e
    | .ok r => .ok (dv, r)) dvs

/-- 2235-2299: does a random variable exist for this decision variable, component and state?  (Then it
exists for each column of the component and state.) -/
def hasRV (params : Params) (missing : List (Str × Str)) (cols : List DKey) (dv cmp loss ds : Str) : Bool :=
  decide ((loss, dv) ∉ missing) && decide (ds ≠ str "0") &&
    (cols.any fun k => decide (k.cmp = cmp ∧ k.ds = ds)) &&
    match params.rows.get? (loss, dv) with
    | none => false
    | some row => match row ds with
      | none => false
      | some p => p.family.isSome

/-- Labels of the result. -/
structure OutKey where
  dv : Str
  loss : Str
  dmg : Str
  ds : Str
  loc : Str
  dir : Str
  uid : Str
  deriving DecidableEq

/-- A realization: damaged quantities, and the deviation by decision variable and column (numbers of
an ordered field, such as the reals). -/
structure Real (F : Type) where
  row : DKey → Option ℚ
  dev : Str → DKey → F

/-- `x.mul(y)` -/
def mulO {F : Type} [Mul F] (a b : Option F) : Option F :=
  match a, b with
  | some a, some b => some (a * b)
  | _, _ => none

section
variable {F : Type} [Field F]

/-- 2097-2100 and 2132: the value of a cell. -/
def lossCell (eco : Eco) (cols : List DKey) (random : Bool) (dv : Str) (p : DsParam) (k : DKey) (r : Real F) : F :=
  let x := (mulO (r.row k) (medianFun p (ecoQnt cols (sameGroup eco k.cmp k.ds) r.row))).map fun q => (q : F)
  (if random then mulO x (some (r.dev dv k)) else x).getD 0

/-- The result: labels, each with the value in a realization. -/
abbrev Result (F : Type) := List (OutKey × (Real F → F))

/-- 2037-2109 for one component and state, across floors. -/
def stateLosses (eco : Eco) (params : Params) (missing : List (Str × Str)) (cols : List DKey) (dv cmp loss : Str) (st : Str × DsParam) :
    Except PyErr (Result F) :=
  let ks := cols.filter fun k => decide (k.cmp = cmp ∧ k.ds = st.1)
  if ks = [] then .error .keyError
  else
    let anyRV := (cols.any fun k => decide (k.cmp = cmp) && hasRV params missing cols dv cmp loss k.ds)
    if anyRV then
      if hasRV params missing cols dv cmp loss st.1 then
        .ok (ks.map fun k => (⟨dv, loss, cmp, st.1, k.loc, k.dir, k.uid⟩, lossCell eco cols true dv st.2 k))
      else .error .keyError
    else .ok (ks.map fun k => (⟨dv, loss, cmp, st.1, k.loc, k.dir, k.uid⟩, lossCell eco cols false dv st.2 k))

/-- 2017-2127: all decision variables, components and states. -/
def allLosses (eco : Eco) (params : Params) (missing : List (Str × Str)) (cols : List DKey)
    (meds : List (Str × List (Str × Str × List (Str × DsParam)))) : Except PyErr (List (Result F)) :=
  mapE (fun x => stateLosses eco params missing cols x.1 x.2.1 x.2.2.1 x.2.2.2)
    (meds.flatMap fun d => d.2.flatMap fun c => c.2.2.map fun st => (d.1, c.1, c.2.1, st))

/-- 1902-2135 `calculate`; `none` if there is no damage at all. -/
def calculate (eco : Eco) (params : Params) (missing : List (Str × Str)) (cols : List DKey) (lossMap : List (Str × Str)) (dvs : List Str) :
    Except PyErr (Option (Result F)) :=
  if cols ≠ [] ∧ ∀ k ∈ cols, k.ds = str "0" then .ok none
  else
    match allMedians eco params missing cols lossMap dvs with
    | .error e => .error e
    | .ok meds =>
      match allLosses eco params missing cols meds with
      | .error e => .error e
      | .ok [] => .error .valueError -- `pd.concat` of nothing
      | .ok rs => .ok (some rs.flatten)

end

end Verif.LossDs
