import Verif.Model.FmtG
import Verif.Model.Asset
import Verif.Model.LossParams

/-!
# Units of damage and consequence parameters

pelicun/model/pelicun_model.py `_convert_marginal_params` (81-260), with argument units and curves,
pelicun/model/loss_model.py `LossModel.load_model_parameters` (310-419) called any number of times,
`RepairModel_DS.convert_loss_parameter_units` (2137-2150), `drop_unused_damage_states` (2152-2183),
`RepairModel_LF.convert_loss_parameter_units` (2670-2685), and pelicun/model/damage_model.py
`DamageModel.load_model_parameters` (138-239) with `convert_damage_parameter_units` (527-540).
-/

namespace Verif.ParamUnits

open DmgParams (Cell Row)
open Verif.UQ (Entry Family scaleDistribution)
open LossParams (Key LossMap Source hasTop)

/-- A factor that is not finite (`'nan SF'`) is not modelled (`notImplementedError`). -/
def finite : Except PyErr PyFloat → Except PyErr ℚ
  | .ok (.fin q) => .ok q
  | .ok _ => .error .notImplementedError
  | .error e => .error e

/-- `self._asmnt.calc_unit_scale_factor(unit)`; a number has no `strip`. -/
def factorOf (table : Dict Str ℚ) : Cell → Except PyErr ℚ
  | .text u => finite (Asset.calcUnitScaleFactor table u)
  | .num _ => .error .attributeError

/-- One entry of `np.array(values, dtype=float)`; values that are not finite are not modelled. -/
def arrayEntry (s : Str) : Except PyErr ℚ :=
  match pyFloat? s with
  | some (.fin q) => .ok q
  | some _ => .error .notImplementedError
  | none => .error .valueError

/-- pelicun_model.py 188-200: ordinates and abscissae of a multilinear function.  Without a `|` there is
no second entry. -/
def parseCurve (s : Str) : Except PyErr (List ℚ × List ℚ) :=
  match splitChar '|' s with
  | ys :: xs :: _ =>
    match mapE arrayEntry (splitChar ',' ys) with
    | .error e => .error e
    | .ok a =>
      match mapE arrayEntry (splitChar ',' xs) with
      | .error e => .error e
      | .ok b => .ok (a, b)
  | [ys] =>
    match mapE arrayEntry (splitChar ',' ys) with
    | .error e => .error e
    | .ok _ => .error .indexError
  | [] => .error .indexError

/-- pelicun_model.py 174-200: a parameter and, if it is a multilinear function, its abscissae. -/
def parseTheta : Option Cell → Except PyErr (Entry ℚ × Option (List ℚ))
  | none => .ok (.nan, none)
  | some (.num q) => .ok (.num q, none)
  | some (.text s) =>
    match pyFloat? s with
    | some (.fin q) => .ok (.num q, none)
    | some _ => .error .notImplementedError
    | none =>
      match parseCurve s with
      | .error e => .error e
      | .ok (ys, xs) => .ok (.vec ys, some xs)

/-- `'|'.join([','.join([f'{val:g}' for val in vals]) for vals in (ys, xs)])`, 241-247 -/
def curveText (ys xs : List ℚ) : Str := joinChar '|' [joinChar ',' (ys.map fmtG), joinChar ',' (xs.map fmtG)]

/-- 238-247: a parameter that is not a multilinear function stays a number; one that is but has been
replaced by NaN cannot be iterated. -/
def renderTheta : Entry ℚ → Option (List ℚ) → Except PyErr (Option Cell)
  | .nan, none => .ok none
  | .num q, none => .ok (some (.num q))
  | .vec _, none => .error .typeError
  | .vec ys, some xs => .ok (some (.text (curveText ys xs)))
  | .nan, some _ => .error .typeError
  | .num _, some _ => .error .typeError

/-- The families known to `scale_distribution` (uq.py 114-140).  A family that is not a string is not
one of them. -/
def familyOf : Option Cell → Family
  | none => .undefined
  | some (.text s) =>
    if s = str "normal_std" then .normalStd
    else if s = str "normal" then .normal
    else if s = str "normal_cov" then .normalCov
    else if s = str "lognormal" then .lognormal
    else if s = str "uniform" then .uniform
    else if s = str "deterministic" then .deterministic
    else if s = str "multilinear_CDF" then .multilinearCDF
    else .other
  | some (.num _) => .other

/-- A truncation limit; a string cannot be multiplied by a number. -/
def limitOf : Option Cell → Except PyErr (Option ℚ)
  | none => .ok none
  | some (.num q) => .ok (some q)
  | some (.text _) => .error .typeError

/-- The columns of a distribution. -/
structure Group where
  family : Option Cell
  t0 : Option Cell
  t1 : Option Cell
  t2 : Option Cell
  lower : Option Cell
  upper : Option Cell
  deriving DecidableEq

/-- How the numbers are to be converted: the factor of the unit, and the factor of the argument unit,
if there is one. -/
structure Factors where
  unit : ℚ
  arg : Option ℚ
  divide : Bool

/-- 225-231: the factor for the parameters. -/
def Factors.conversion (f : Factors) : Except PyErr ℚ :=
  if f.divide then
    match f.arg with
    | none => .ok f.unit
    | some a => if a = 0 then .error .zeroDivisionError else .ok (f.unit / a)
  else .ok f.unit

/-- 219-223: the abscissae are scaled with the argument unit. -/
def Factors.scaleArgs (f : Factors) (xs : Option (List ℚ)) : Option (List ℚ) :=
  match f.arg with
  | none => xs
  | some a => xs.map fun l => l.map (· * a)

/-- 232-257: scaling and writing back. -/
def rescale (f : Factors) (g : Group) (p0 p1 p2 : Entry ℚ × Option (List ℚ)) (a b : Option ℚ) : Except PyErr Group :=
  match f.conversion with
  | .error e => .error e
  | .ok c =>
    match scaleDistribution c (familyOf g.family) [p0.1, p1.1, p2.1] (some (a, b)) with
    | .ok ([e0, e1, e2], some (a', b')) =>
      match renderTheta e0 (f.scaleArgs p0.2), renderTheta e1 (f.scaleArgs p1.2), renderTheta e2 (f.scaleArgs p2.2) with
      | .ok t0, .ok t1, .ok t2 =>
        .ok { g with t0 := t0, t1 := t1, t2 := t2, lower := a'.map .num, upper := b'.map .num }
      | .error e, _, _ => .error e
      | _, .error e, _ => .error e
      | _, _, .error e => .error e
    | .ok _ => .error .indexError
    | .error e => .error e

/-- 205-217: the argument unit of a row: `None` if there are no argument units at all; the unit `'1 EA'`
is not looked up. -/
def argFactor (table : Dict Str ℚ) : Option (Option Cell) → Except PyErr (Option ℚ)
  | none => .ok none
  | some (some (.text s)) =>
    if s = str "1 EA" then .ok none
    else match finite (Asset.calcUnitScaleFactor table s) with
      | .error e => .error e
      | .ok q => .ok (some q)
  | some _ => .error .assertionError

/-- 156-257 for one row with a unit: `empirical` distributions are skipped. -/
def convertGroup (table : Dict Str ℚ) (unit : Cell) (arg : Option (Option Cell)) (divide : Bool) (g : Group) :
    Except PyErr Group :=
  match factorOf table unit with
  | .error e => .error e
  | .ok u =>
    if g.family = some (.text (str "empirical")) then .ok g
    else
      match parseTheta g.t0, parseTheta g.t1, parseTheta g.t2 with
      | .error e, _, _ => .error e
      | _, .error e, _ => .error e
      | _, _, .error e => .error e
      | .ok p0, .ok p1, .ok p2 =>
        match argFactor table arg with
        | .error e => .error e
        | .ok a =>
          match limitOf g.lower, limitOf g.upper with
          | .error e, _ => .error e
          | _, .error e => .error e
          | .ok lo, .ok hi => rescale ⟨u, a, divide⟩ g p0 p1 p2 lo hi

/-- `marginal_params.loc[row_id, [...]]`; a column that the table does not have is missing
everywhere (140-148). -/
def groupOf (row : Row) (col : Str) : Group :=
  ⟨row (col, str "Family"), row (col, str "Theta_0"), row (col, str "Theta_1"), row (col, str "Theta_2"),
    row (col, str "TruncateLower"), row (col, str "TruncateUpper")⟩

/-- The assignment of the converted columns (248-260 and loss_model.py 2148). -/
def setGroup (row : Row) (col : Str) (g : Group) : Row := fun c =>
  if c = (col, str "Theta_0") then g.t0
  else if c = (col, str "Theta_1") then g.t1
  else if c = (col, str "Theta_2") then g.t2
  else if c = (col, str "TruncateLower") then g.lower
  else if c = (col, str "TruncateUpper") then g.upper
  else row c

/-- 150-160: rows without a unit are left as they are.  The loop over the distinct units is merged with
the loop over the rows, so that of several errors another one may be reported. -/
def convertAt (table : Dict Str ℚ) (unitCol : Str × Str) (argCol : Option (Str × Str)) (divide : Bool) (col : Str)
    (row : Row) : Except PyErr Row :=
  match row unitCol with
  | none => .ok row
  | some u =>
    match convertGroup table u (argCol.map row) divide (groupOf row col) with
    | .error e => .error e
    | .ok g => .ok (setGroup row col g)

/-- The loop over the columns for one row. -/
def convertCols (table : Dict Str ℚ) (unitCol : Str × Str) (argCol : Option (Str × Str)) (divide : Bool) :
    List Str → Row → Except PyErr Row
  | [], row => .ok row
  | c :: cs, row =>
    match convertAt table unitCol argCol divide c row with
    | .error e => .error e
    | .ok row' => convertCols table unitCol argCol divide cs row'

/-- The loop over the columns and the rows.  In the code the loop over the columns is outside; a row is
not affected by the others, so this only matters for which of several errors is reported. -/
def convertRows {K : Type} (table : Dict Str ℚ) (unitCol : Str × Str) (argCol : Option (Str × Str)) (divide : Bool)
    (cols : List Str) (rows : List (K × Row)) : Except PyErr (List (K × Row)) :=
  mapE (fun r => match convertCols table unitCol argCol divide cols r.2 with
    | .error e => .error e
    | .ok row => .ok (r.1, row)) rows

/-- The names in the first level of the columns that start with the given letters. -/
def tops (start : Str) (cols : List (Str × Str)) : List Str :=
  FileIO.uniqueVals [] ((cols.map (·.1)).filter fun c => start.isPrefixOf c)

def dvUnit : Str × Str := (str "DV", str "Unit")
def qntUnit : Str × Str := (str "Quantity", str "Unit")
def demUnit : Str × Str := (str "Demand", str "Unit")

/-- loss_model.py 2137-2150 -/
def convertDs (table : Dict Str ℚ) (cols : List (Str × Str)) (rows : List (Key × Row)) : Except PyErr (List (Key × Row)) :=
  if qntUnit ∉ cols then .error .keyError
  else convertRows table dvUnit (some qntUnit) true (tops (str "DS") cols) rows

/-- loss_model.py 2670-2685 -/
def convertLf (table : Dict Str ℚ) (cols : List (Str × Str)) (rows : List (Key × Row)) : Except PyErr (List (Key × Row)) :=
  if demUnit ∉ cols then .error .keyError
  else convertRows table dvUnit (some demUnit) false [str "LossFunction"] rows

/-- loss_model.py 2152-2183 `drop_unused_damage_states`: columns of damage states without any entry. -/
def dropStates (cols : List (Str × Str)) (rows : List (Key × Row)) : List (Str × Str) :=
  cols.filter fun c => !(str "DS").isPrefixOf c.1 ||
    cols.any fun c' => decide (c'.1 = c.1) && rows.any fun r => (r.2 c').isSome

/-- The parameters of a loss model and the columns of its tables. -/
structure LossState where
  params : LossParams.Params
  dsCols : List (Str × Str)
  lfCols : List (Str × Str)

def LossState.fresh : LossState := ⟨⟨none, none⟩, [], []⟩

/-- The columns after adding the sources for damage states. -/
def addDsCols (cols : List (Str × Str)) (sources : List Source) : List (Str × Str) :=
  cols ++ (sources.filter (hasTop (str "DS1"))).flatMap (·.cols)

def addLfCols (cols : List (Str × Str)) (sources : List Source) : List (Str × Str) :=
  cols ++ (sources.filter fun s => !hasTop (str "DS1") s && hasTop (str "LossFunction") s).flatMap (·.cols)

/-- 402-403 for the model of the damage states, which does nothing without parameters. -/
def convertDs? (table : Dict Str ℚ) (cols : List (Str × Str)) :
    Option (List (Key × Row)) → Except PyErr (Option (List (Key × Row)) × List (Str × Str))
  | none => .ok (none, cols)
  | some rows =>
    match convertDs table (dropStates cols rows) rows with
    | .error e => .error e
    | .ok rows' => .ok (some rows', dropStates cols rows)

/-- 402-403 for the model of the loss functions. -/
def convertLf? (table : Dict Str ℚ) (cols : List (Str × Str)) : Option (List (Key × Row)) → Except PyErr (Option (List (Key × Row)))
  | none => .ok none
  | some rows =>
    match convertLf table cols rows with
    | .error e => .error e
    | .ok rows' => .ok (some rows')

/-- loss_model.py 310-419 `load_model_parameters`: the sources are added to what the models have, and
everything is converted. -/
def loadLoss (table : Dict Str ℚ) (st : LossState) (sources : List Source) (m : LossMap) (dvs : List Str) :
    Except PyErr (LossState × List Key) :=
  match LossParams.loadSources st.params sources with
  | .error e => .error e
  | .ok p =>
    match convertDs? table (addDsCols st.dsCols sources) (LossParams.clean m p.ds) with
    | .error e => .error e
    | .ok (ds, dsCols) =>
      match convertLf? table (addLfCols st.lfCols sources) (LossParams.clean m p.lf) with
      | .error e => .error e
      | .ok lf =>
        .ok (⟨⟨ds, lf⟩, dsCols, addLfCols st.lfCols sources⟩, LossParams.missingOf dvs m ⟨ds, lf⟩)

/-- The parameters of a damage model and the columns of the table. -/
structure DmgState where
  params : Option (List (Str × Row))
  cols : List (Str × Str)

def DmgState.fresh : DmgState := ⟨none, []⟩

/-- damage_model.py 533: the column with the units is dropped. -/
def dropUnit (row : Row) : Row := fun c => if c = demUnit then none else row c

/-- damage_model.py 536-540: the units are those before dropping the column. -/
def convertLs (table : Dict Str ℚ) (cols : List Str) (row : Row) : Except PyErr Row :=
  match convertCols table demUnit none true cols row with
  | .error e => .error e
  | .ok row' => .ok (dropUnit row')

/-- damage_model.py 138-239 `load_model_parameters` -/
def loadDmg (table : Dict Str ℚ) (st : DmgState) (sources : List DmgParams.Source) (cmpSet : List Str) :
    Except PyErr (DmgState × List Str) :=
  match DmgParams.addSources st.params sources with
  | .error e => .error e
  | .ok none => .ok (⟨none, st.cols⟩, cmpSet)
  | .ok (some p) =>
    if demUnit ∉ st.cols ++ sources.flatMap (·.cols) then .error .keyError
    else
      match mapE (fun r => match convertLs table (tops (str "LS") (st.cols ++ sources.flatMap (·.cols))) r.2 with
          | .error e => .error e
          | .ok row => .ok (r.1, row)) (DmgParams.removeIncomplete (DmgParams.dropUnused cmpSet p)) with
      | .error e => .error e
      | .ok q =>
        .ok (⟨some q, (st.cols ++ sources.flatMap (·.cols)).filter fun c => decide (c ≠ demUnit)⟩,
          cmpSet.filter fun c => decide (c ∉ q.map (·.1)))

end Verif.ParamUnits
