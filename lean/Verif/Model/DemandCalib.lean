import Verif.Model.Asset
import Verif.Model.FileIO

/-!
# Calibration settings of the demand model

pelicun/model/demand_model.py `DemandModel.calibrate_model` (527-820) up to the distribution fit:
settings (549-613, 657-666), censoring and truncation (615-629, 689-729) and the separation of
empirical demands (731-754).  The maximum likelihood fit (`uq.fit_distribution_to_sample`) is not
modelled.
-/

namespace Verif.DemandCalib

open Verif.Asset (mulQ)
open Verif.FileIO (Label)

/-- A value in the settings dictionary (typically read from JSON). -/
inductive SetVal where
  | num (q : ℚ)
  | text (s : Str)
  | null
  deriving DecidableEq, Repr

/-- base.py 1225-1246: the strings that stand for a missing value. -/
def naVals : List Str :=
  [str "", str "N/A", str "-1.#QNAN", str "null", str "None", str "<NA>", str "nan", str "-NaN",
   str "1.#IND", str "NaN", str "#NA", str "1.#QNAN", str "NULL", str "-nan", str "#N/A",
   str "#N/A N/A", str "n/a", str "-1.#IND", str "NA"]

/-- demand_model.py 551-566 `parse_str_to_float`: text that is not a number gives NaN with a
warning, `None` is a `TypeError` (only `ValueError` is caught). -/
def parseVal : SetVal → Except PyErr PyFloat
  | .num q => .ok (.fin q)
  | .text s =>
    if s ∈ naVals then .ok .nan
    else match pyFloat? s with
      | some x => .ok x
      | none => .ok .nan
  | .null => .error .typeError

/-- The settings of one demand type: the keys `DistributionFamily`, the four limits, `Unit` and
`AddUncertainty`, each of which may be absent. -/
structure Settings where
  family : Option Str := none
  censorLower : Option SetVal := none
  censorUpper : Option SetVal := none
  truncateLower : Option SetVal := none
  truncateUpper : Option SetVal := none
  unit : Option Str := none
  addUncertainty : Option SetVal := none
  deriving DecidableEq, Repr

/-- One row of `cal_df` (640-653); NaN is a missing value. -/
structure CalRow where
  family : Str
  censorLower : PyFloat
  censorUpper : PyFloat
  truncateLower : PyFloat
  truncateUpper : PyFloat
  sigIncrease : PyFloat
  deriving DecidableEq, Repr

/-- 640-655: the initial row (`nan` converted to `str`). -/
def emptyRow : CalRow := ⟨str "nan", .nan, .nan, .nan, .nan, .nan⟩

/-- 585-594 for one limit: absent or NaN leaves the previous value (`none`). -/
def givenLimit : Option SetVal → Except PyErr (Option PyFloat)
  | none => .ok none
  | some v =>
    match parseVal v with
    | .error e => .error e
    | .ok .nan => .ok none
    | .ok x => .ok (some x)

/-- assessment.py 309-343 `scale_factor`. -/
def scaleFactor (table : Dict Str ℚ) : Option Str → Except PyErr ℚ
  | none => .ok 1
  | some u =>
    match table.get? u with
    | some f => .ok f
    | none => .error .valueError

/-- The settings after parsing, before they are written into the table. -/
structure Parsed where
  family : Str
  censorLower : Option PyFloat
  censorUpper : Option PyFloat
  truncateLower : Option PyFloat
  truncateUpper : Option PyFloat
  factor : ℚ
  sigIncrease : Option PyFloat
  deriving DecidableEq, Repr

/-- 605-613: the additional uncertainty, scaled if the family is normal. -/
def givenUncertainty (family : Str) (f : ℚ) : Option SetVal → Except PyErr (Option PyFloat)
  | none => .ok none
  | some v =>
    match parseVal v with
    | .error e => .error e
    | .ok x => .ok (some (if family = str "normal" then mulQ x f else x))

/-- 582-613 in order of evaluation. -/
def parse (table : Dict Str ℚ) (s : Settings) : Except PyErr Parsed :=
  match s.family with
  | none => .error .keyError
  | some fam =>
    match givenLimit s.censorLower with
    | .error e => .error e
    | .ok cl =>
    match givenLimit s.censorUpper with
    | .error e => .error e
    | .ok cu =>
    match givenLimit s.truncateLower with
    | .error e => .error e
    | .ok tl =>
    match givenLimit s.truncateUpper with
    | .error e => .error e
    | .ok tu =>
    match scaleFactor table s.unit with
    | .error e => .error e
    | .ok f =>
    match givenUncertainty fam f s.addUncertainty with
    | .error e => .error e
    | .ok sig => .ok ⟨fam, cl, cu, tl, tu, f, sig⟩

/-- 582-613 for one matching row: given values are written, then all four limits of the row, also
those that were there before, are multiplied with the factor (603). -/
def update (p : Parsed) (r : CalRow) : CalRow where
  family := p.family
  censorLower := mulQ (p.censorLower.getD r.censorLower) p.factor
  censorUpper := mulQ (p.censorUpper.getD r.censorUpper) p.factor
  truncateLower := mulQ (p.truncateLower.getD r.truncateLower) p.factor
  truncateUpper := mulQ (p.truncateUpper.getD r.truncateUpper) p.factor
  sigIncrease := p.sigIncrease.getD r.sigIncrease

/-- The demand type of a column and its part before the first `_` (577). -/
def typeOf (l : Label) : Str := l.headD []
def baseType (t : Str) : Str := (splitChar '_' t).headD []

/-- 569-580: `ALL` selects every demand, another name those whose type without subtype equals it. -/
def selects (demandType : Str) (l : Label) : Bool :=
  demandType = str "ALL" || baseType (typeOf l) = demandType

/-- 549-613 `parse_settings`.  Selecting no demand is not an error (pandas: assignment to an empty
selection). -/
def parseSettings (table : Dict Str ℚ) (cal : List (Label × CalRow)) (s : Settings) (demandType : Str) :
    Except PyErr (List (Label × CalRow)) :=
  match parse table s with
  | .error e => .error e
  | .ok p => .ok (cal.map fun r => if selects demandType r.1 then (r.1, update p r.2) else r)

/-- 661-663: the loop over the entries other than `ALL`. -/
def settingsLoop (table : Dict Str ℚ) (cal : List (Label × CalRow)) :
    List (Str × Settings) → Except PyErr (List (Label × CalRow))
  | [] => .ok cal
  | (t, s) :: rest =>
    if t = str "ALL" then settingsLoop table cal rest
    else match parseSettings table cal s t with
      | .error e => .error e
      | .ok cal' => settingsLoop table cal' rest

/-- 640-663: the calibration settings of the demands with labels `cols`. -/
def calibrationSettings (table : Dict Str ℚ) (config : Dict Str Settings) (cols : List Label) :
    Except PyErr (List (Label × CalRow)) :=
  match config.getE (str "ALL") with
  | .error e => .error e
  | .ok all =>
    match parseSettings table (cols.map fun l => (l, emptyRow)) all (str "ALL") with
    | .error e => .error e
    | .ok cal => settingsLoop table cal config

/-! ## Censoring and truncation -/

/-- `cell < limit`; comparisons with NaN are false. -/
def below : Option ℚ → PyFloat → Bool
  | some x, .fin u => x < u
  | some _, .inf neg => !neg
  | _, _ => false

/-- `cell > limit` -/
def above : Option ℚ → PyFloat → Bool
  | some x, .fin l => l < x
  | some _, .inf neg => neg
  | _, _ => false

/-- 615-629 `get_filter_mask` for one realization: cells paired with the limits of their
columns; NaN limits are skipped. -/
def inMask (row : List (Option ℚ)) (lower upper : List PyFloat) : Bool :=
  ((row.zip upper).filter (fun p => p.2 ≠ .nan)).all (fun p => below p.1 p.2) &&
  ((row.zip lower).filter (fun p => p.2 ≠ .nan)).all (fun p => above p.1 p.2)

/-- 689-709: rows that remain and the number of censored rows. -/
def censor (cal : List CalRow) (rows : List (List (Option ℚ))) : List (List (Option ℚ)) × Nat :=
  let upper := cal.map (·.censorUpper)
  let lower := cal.map (·.censorLower)
  if (upper ++ lower).all (· = .nan) then (rows, 0)
  else (rows.filter fun r => inMask r lower upper, (rows.filter fun r => !inMask r lower upper).length)

/-- 711-729: truncation. -/
def truncate (cal : List CalRow) (rows : List (List (Option ℚ))) : List (List (Option ℚ)) :=
  let upper := cal.map (·.truncateUpper)
  let lower := cal.map (·.truncateLower)
  if (upper ++ lower).all (· = .nan) then rows
  else if 0 < (rows.filter fun r => !inMask r lower upper).length then
    rows.filter fun r => inMask r lower upper
  else rows

/-- 731-754: the columns of the demands kept empirical, and of the others. -/
def pick (keep : List Bool) (row : List (Option ℚ)) : List (Option ℚ) :=
  ((row.zip keep).filter fun p => p.2).map Prod.fst

/-- What reaches the fit. -/
structure FitData where
  rows : List (List (Option ℚ))
  censored : Nat
  /-- `self.empirical_data` if there are empirical demands -/
  empirical : List (List (Option ℚ))
  deriving DecidableEq, Repr

/-- 689-754 -/
def fitData (cal : List CalRow) (rows : List (List (Option ℚ))) : FitData :=
  let (kept, count) := censor cal rows
  let kept := truncate cal kept
  let emp := cal.map fun r => decide (r.family = str "empirical")
  ⟨kept.map (pick (emp.map (!·))), count, kept.map (pick emp)⟩

end Verif.DemandCalib
