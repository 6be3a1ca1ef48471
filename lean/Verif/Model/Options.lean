import Verif.Model.Config
import Verif.Model.Units

/-!
# Options and units of a new assessment

pelicun/base.py `Options.__init__` (171-218) with `load_default_options` (569-584), pelicun/assessment.py `AssessmentBase.__init__` (103-132).
-/

namespace Verif.Options

open Verif.Config (Js Fields Leaf Atom mergeDefaultConfig)

def num (q : ℚ) : Js := .leaf (.atom (.num q))
def bool (b : Bool) : Js := .leaf (.atom (.bool b))
def text (s : String) : Js := .leaf (.atom (.str (str s)))
def null : Js := .leaf (.atom .null)

/-- A dictionary written as a list. -/
def dict : List (String × Js) → Fields
  | [] => .nil
  | (k, v) :: l => .cons (str k) v (dict l)

/-- settings/default_config.json 2-35, the entry `Options` (base.py 569-584). -/
def defaultOptions : Fields := dict [
  ("Verbose", bool false),
  ("Seed", null),
  ("LogShowMS", bool false),
  ("LogFile", null),
  ("UnitsFile", null),
  ("PrintLog", bool false),
  ("ShowWarnings", bool false),
  ("DemandOffset", .dict (dict [("PFA", num (-1)), ("PFV", num (-1))])),
  ("ListAllDamageStates", bool false),
  ("NonDirectionalMultipliers", .dict (dict [("ALL", num (6/5))])),
  ("EconomiesOfScale", .dict (dict [("AcrossFloors", bool true), ("AcrossDamageStates", bool false)])),
  ("Sampling", .dict (dict [("SamplingMethod", text "LHS"), ("SampleSize", num 1000), ("PreserveRawOrder", bool false)])),
  ("RepairCostAndTimeCorrelation", num 0),
  ("ErrorSetup", .dict (dict [("Loss", .dict (dict [("ReplacementThreshold", .dict (dict [("RaiseOnUnknownKeys", bool true)]))]))]))]

/-- The attributes of an options object, and the arguments of its logger. -/
structure Options where
  seed : Js
  samplingMethod : Js
  listAllDs : Js
  unitsFile : Js
  demandOffset : Js
  nondirMulti : Js
  rhoCostTime : Js
  ecoScale : Js
  errorSetup : Js
  logFile : Js
  verbose : Js
  logShowMs : Js
  printLog : Js
  deriving DecidableEq

/-- `d[k]` -/
def item (d : Js) (k : String) : Except PyErr Js :=
  match d with
  | .leaf _ => .error .typeError
  | .dict f =>
    match f.get? (str k) with
    | none => .error .keyError
    | some v => .ok v

/-- base.py 199-218: the attributes are read from the merged configuration. -/
def read (merged : Js) : Except PyErr Options := do
  let seed ← item merged "Seed"
  let sampling ← item merged "Sampling"
  let samplingMethod ← item sampling "SamplingMethod"
  let listAllDs ← item merged "ListAllDamageStates"
  let unitsFile ← item merged "UnitsFile"
  let demandOffset ← item merged "DemandOffset"
  let nondirMulti ← item merged "NonDirectionalMultipliers"
  let rhoCostTime ← item merged "RepairCostAndTimeCorrelation"
  let ecoScale ← item merged "EconomiesOfScale"
  let errorSetup ← item merged "ErrorSetup"
  let logFile ← item merged "LogFile"
  let verbose ← item merged "Verbose"
  let logShowMs ← item merged "LogShowMS"
  let printLog ← item merged "PrintLog"
  return ⟨seed, samplingMethod, listAllDs, unitsFile, demandOffset, nondirMulti, rhoCostTime, ecoScale, errorSetup, logFile, verbose, logShowMs, printLog⟩

/-- base.py 171-218: the options, and the dictionary of the user after the call, which is changed in place (687).  Simplifications: numpy accepts the
seed and the log file can be written; what is left in the dictionary when the merge fails is not modelled. -/
def makeOptions (user : Option Fields) : Except PyErr (Options × Fields) :=
  match mergeDefaultConfig user defaultOptions with
  | .error e => .error e
  | .ok merged =>
    match read (.dict merged) with
    | .error e => .error e
    | .ok o => .ok (o, merged)

/-- base.py 1528: is there a path to a unit file?  `none`: the value is false, otherwise the path, or the exception from `Path`. -/
def unitsPath : Js → Option (Except PyErr Str)
  | .leaf (.atom .null) => none
  | .leaf (.atom (.bool false)) => none
  | .leaf (.atom (.num q)) => if q = 0 then none else some (.error .typeError)
  | .leaf (.atom (.str s)) => if s = [] then none else some (.ok s)
  | .leaf (.list []) => none
  | .dict .nil => none
  | _ => some (.error .typeError)

/-- assessment.py 114-117: options and table of units of a new assessment.  `files` reads a unit file, `default` is settings/default_units.json. -/
def newAssessment (pyFloat : Str → Option ℚ) (default : Units.RawFile) (files : Str → Except PyErr Units.RawFile) (user : Option Fields) :
    Except PyErr (Options × Dict Str ℚ × Fields) :=
  match makeOptions user with
  | .error e => .error e
  | .ok (o, after) =>
    match unitsPath o.unitsFile with
    | none =>
      match Units.parseUnits pyFloat default none with
      | .error e => .error e
      | .ok t => .ok (o, t, after)
    | some (.error e) => .error e
    | some (.ok p) =>
      match files p with
      | .error e => .error e
      | .ok f =>
        match Units.parseUnits pyFloat default (some f) with
        | .error e => .error e
        | .ok t => .ok (o, t, after)

end Verif.Options
