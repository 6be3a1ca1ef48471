import Verif.Model.LocDir
import Verif.Model.Labels
import Verif.Model.UQDist

/-!
# Component models (`/repo/pelicun/model/asset_model.py`) and unit strings
(`/repo/pelicun/assessment.py` 264-307)
-/

namespace Verif.Asset

open Verif.UQ (Entry Family scaleDistribution)

/-- Multiplication of a literal with a finite number. -/
def mulQ : PyFloat → ℚ → PyFloat
  | .fin q, f => .fin (q * f)
  | .nan, _ => .nan
  | .inf neg, f => if f = 0 then .nan else if f < 0 then .inf (!neg) else .inf neg

/-- `self.unit_conversion_factors[unit_name]` with the `KeyError` of assessment.py 303-305. -/
def unitFactor (table : Dict Str ℚ) (name : Str) : Except PyErr ℚ :=
  match table.get? name with
  | some f => .ok f
  | none => .error .keyError

/-- assessment.py 291-293: `unit_count, unit_name = unit_lst; float(unit_count)`. -/
def scaledUnit (table : Dict Str ℚ) (count name : Str) : Except PyErr PyFloat :=
  match pyFloat? count with
  | none => .error .valueError
  | some q =>
    match unitFactor table name with
    | .ok f => .ok (mulQ q f)
    | .error e => .error e

/-- assessment.py 264-307 `calc_unit_scale_factor`.  More than two tokens cannot be unpacked
(`ValueError`). -/
def calcUnitScaleFactor (table : Dict Str ℚ) (unit : Str) : Except PyErr PyFloat :=
  match splitChar ' ' (strip isSpace unit) with
  | [name] =>
    match unitFactor table name with
    | .ok f => .ok (.fin f)
    | .error e => .error e
  | [count, name] => scaledUnit table count name
  | _ => .error .valueError

/-- Distribution parameters of a component quantity. -/
structure Params where
  family : Family
  empirical : Bool := false
  theta : List (Entry ℚ)
  lower : Option ℚ
  upper : Option ℚ
  deriving DecidableEq

/-- A row of the component table as returned by `load_data`.  `location` and `direction`
are already passed through `str()`. -/
structure CmpRow where
  cmp : Str
  location : Str
  direction : Str
  blocks : Option ℚ
  unit : Option Str
  params : Params

/-- A performance group of the component model. -/
structure PG where
  blocks : Int
  unit : Option Str
  params : Params
  deriving DecidableEq

/-- asset_model.py 334: `units.groupby(level=0).first()`: the first unit that is given for the
component. -/
def cmpUnit (rows : List CmpRow) (c : Str) : Option Str :=
  (rows.filter (fun r => r.cmp = c)).findSome? (·.unit)

/-- asset_model.py 356-362: `int(row.Blocks)`, one block if missing. -/
def blocksOf : Option ℚ → Int
  | some b => truncQ b
  | none => 1

/-- asset_model.py 349-375: one performance group for each location and direction. -/
def expandRow (stories : Option Int) (rows : List CmpRow) (row : CmpRow) :
    Except PyErr (List ((Str × Str × Str) × PG)) :=
  match LocDir.getLocations stories row.location with
  | .error e => .error e
  | .ok locs =>
    match LocDir.getDirections (some row.direction) with
    | .error e => .error e
    | .ok dirs =>
      .ok (locs.flatMap fun l => dirs.map fun d =>
        ((row.cmp, l, d), ⟨blocksOf row.blocks, cmpUnit rows row.cmp, row.params⟩))

/-- `cmp_marginal_params['Theta_0'].isna()` (asset_model.py 396-398). -/
def missingTheta0 (p : Params) : Bool :=
  match p.theta with
  | .nan :: _ => true
  | [] => true
  | _ => false

/-- pelicun_model.py 81-260 `_convert_marginal_params` for one row with the default arguments.
A non-finite conversion factor is not modelled (reported as `ValueError`); the loop over the
distinct units is merged with the loop over the rows, so that of several errors another one
may be reported. -/
def convertParams (table : Dict Str ℚ) (unit : Option Str) (p : Params) : Except PyErr Params :=
  match unit with
  | none => .ok p
  | some u =>
    match calcUnitScaleFactor table u with
    | .error e => .error e
    | .ok (.fin f) =>
      if p.empirical then .ok p
      else match scaleDistribution f p.family p.theta (some (p.lower, p.upper)) with
        | .error e => .error e
        | .ok (t, some (a, b)) => .ok { p with theta := t, lower := a, upper := b }
        | .ok (t, none) => .ok { p with theta := t, lower := none, upper := none }
    | .ok _ => .error .valueError

def convertPG (table : Dict Str ℚ) (e : ((Str × Str × Str) × Str) × PG) :
    Except PyErr (((Str × Str × Str) × Str) × PG) :=
  match convertParams table e.2.unit e.2.params with
  | .ok p => .ok (e.1, { e.2 with params := p })
  | .error err => .error err

/-- Order of `sort_index` on the labels: level by level, as strings. -/
def labelLe : (Str × Str × Str) × Str → (Str × Str × Str) × Str → Bool
  | ((a, b, c), d), ((a', b', c'), d') =>
    if a ≠ a' then strLe a a' else if b ≠ b' then strLe b b'
    else if c ≠ c' then strLe c c' else strLe d d'

/-- asset_model.py 261-429 `load_cmp_model`, from the loaded table on. -/
def loadCmpModel (table : Dict Str ℚ) (stories : Option Int) (rows : List CmpRow) :
    Except PyErr (List (((Str × Str × Str) × Str) × PG)) :=
  match mapE (expandRow stories rows) rows with
  | .error e => .error e
  | .ok groups =>
    if groups.flatten.any (fun e => missingTheta0 e.2.params) then .error .assertionError
    else mapE (convertPG table) (Labels.dedupeIndex labelLe groups.flatten)

end Verif.Asset
