import Verif.Model.Config

/-!
# The configuration of a calculation

Models `_parse_config_file` of `pelicun/tools/DL_calculation.py` (576-1010) with the schema in
`pelicun/settings/input_schema.json`, on the configuration trees of `Verif.Config`.

Simplifications: the configuration is an object.  The scripts that generate a configuration are parameters (what
`auto_populate` of pelicun/auto.py:56-133 returns for each of them), so is the text of values that are not texts.
The entry `Options` that is removed from the generated configuration (759), the file with the generated configuration
(817-821) and the file with the components (783) are not modelled.  The dictionaries with the default outputs are
parameters, they are shared by the runs of a session (see `Verif.ToolOut`).
-/

namespace Verif.ToolConfig

open Config

/-! ## The schema -/

/-- A JSON schema of the kind used by `input_schema.json`. -/
inductive Schema where
  | text
  | number
  | integer
  | boolean
  /-- `anyOf` -/
  | either (a b : Schema)
  /-- an object with its required entries and the schemas of its entries (there may be others) -/
  | object (required : List Str) (props : List (Str × Schema))
  /-- `patternProperties` with `.*`: the schema of all entries -/
  | mapOf (s : Schema)

/-- All values of an object. -/
def allValues (p : Js → Bool) : Fields → Bool
  | .nil => true
  | .cons _ v f => p v && allValues p f

mutual
/-- `jsonschema.validate` (draft 7) -/
def conforms : Schema → Js → Bool
  | .text, .leaf (.atom (.str _)) => true
  | .number, .leaf (.atom (.num _)) => true
  | .number, .leaf (.atom .nan) => true
  | .integer, .leaf (.atom (.num q)) => decide (q.den = 1)
  | .boolean, .leaf (.atom (.bool _)) => true
  | .either a b, v => conforms a v || conforms b v
  | .object req props, .dict f => req.all (fun k => (f.get? k).isSome) && conformsAll props f
  | .mapOf s, .dict f => allValues (fun v => conforms s v) f
  | _, _ => false
/-- the entries of an object that are there -/
def conformsAll : List (Str × Schema) → Fields → Bool
  | [], _ => true
  | (k, s) :: rest, f =>
    (match f.get? k with
      | none => true
      | some v => conforms s v) && conformsAll rest f
end

/-- pelicun/settings/input_schema.json -/
def inputSchema : Schema :=
  .object [str "GeneralInformation"] [
    (str "GeneralInformation", .object [str "units"] [
        (str "AssetName", .text),
        (str "AssetType", .text),
        (str "Location", .object [] [
            (str "Latitude", .either .number .text),
            (str "Longitude", .either .number .text)]),
        (str "units", .object [str "length"] [
            (str "length", .text)])]),
    (str "assetType", .text),
    (str "DL", .object [] [
        (str "Demands", .object [str "DemandFilePath"] [
            (str "DemandFilePath", .text),
            (str "SampleSize", .either .integer .text),
            (str "CoupledDemands", .boolean),
            (str "Calibration", .object [] []),
            (str "CollapseLimits", .mapOf (.either .number .text)),
            (str "InferResidualDrift", .object [str "method"] [
                (str "method", .text),
                (str "x-direction", .either .number .text),
                (str "y-direction", .either .number .text)])]),
        (str "Asset", .object [str "ComponentAssignmentFile"] [
            (str "ComponentAssignmentFile", .text),
            (str "NumberOfStories", .either .integer .text),
            (str "ComponentSampleFile", .text),
            (str "ComponentDatabase", .text),
            (str "ComponentDatabasePath", .text)]),
        (str "Damage", .object [str "DamageProcess"] [
            (str "CollapseFragility", .object [str "DemandType", str "CapacityMedian"] [
                (str "DemandType", .text),
                (str "CapacityDistribution", .text),
                (str "CapacityMedian", .either .number .text),
                (str "Theta_1", .either .number .text)]),
            (str "DamageProcess", .text),
            (str "IrreparableDamage", .object [str "DriftCapacityMedian", str "DriftCapacityLogStd"] [
                (str "DriftCapacityMedian", .either .number .text),
                (str "DriftCapacityLogStd", .either .number .text)])]),
        (str "Losses", .object [] [
            (str "Repair", .object [] [
                (str "ConsequenceDatabase", .text),
                (str "MapApproach", .text),
                (str "MapFilePath", .text),
                (str "DecisionVariables", .object [] [
                    (str "Cost", .boolean),
                    (str "Time", .boolean),
                    (str "Carbon", .boolean),
                    (str "Energy", .boolean)]),
                (str "ConsequenceDatabasePath", .text),
                (str "ReplacementEnergy", .object [str "Unit", str "Median"] [
                    (str "Unit", .text),
                    (str "Median", .either .number .text),
                    (str "Distribution", .text),
                    (str "Theta_1", .either .number .text)]),
                (str "ReplacementCarbon", .object [str "Unit", str "Median"] [
                    (str "Unit", .text),
                    (str "Median", .either .number .text),
                    (str "Distribution", .text),
                    (str "Theta_1", .either .number .text)]),
                (str "ReplacementTime", .object [str "Unit", str "Median"] [
                    (str "Unit", .text),
                    (str "Median", .either .number .text),
                    (str "Distribution", .text),
                    (str "Theta_1", .either .number .text)]),
                (str "ReplacementCost", .object [str "Unit", str "Median"] [
                    (str "Unit", .text),
                    (str "Median", .either .number .text),
                    (str "Distribution", .text),
                    (str "Theta_1", .either .number .text)])])]),
        (str "Outputs", .object [] [
            (str "Demand", .object [] [
                (str "Sample", .boolean),
                (str "Statistics", .boolean)]),
            (str "Asset", .object [] [
                (str "Sample", .boolean),
                (str "Statistics", .boolean)]),
            (str "Damage", .object [] [
                (str "Sample", .boolean),
                (str "Statistics", .boolean),
                (str "GroupedSample", .boolean),
                (str "GroupedStatistics", .boolean)]),
            (str "Loss", .object [] [
                (str "Repair", .object [] [
                    (str "Sample", .boolean),
                    (str "Statistics", .boolean),
                    (str "GroupedSample", .boolean),
                    (str "GroupedStatistics", .boolean),
                    (str "AggregateSample", .boolean),
                    (str "AggregateStatistics", .boolean)])]),
            (str "Format", .object [] [
                (str "CSV", .boolean),
                (str "JSON", .boolean)]),
            (str "Settings", .object [] [
                (str "CondenseDS", .boolean),
                (str "SimpleIndexInJSON", .boolean),
                (str "AggregateColocatedComponentResults", .boolean)])]),
        (str "Options", .object [] [
            (str "Options", .boolean),
            (str "Seed", .integer),
            (str "LogShowMS", .boolean),
            (str "LogFile", .text),
            (str "UnitsFile", .text),
            (str "PrintLog", .boolean),
            (str "ShowWarnings", .boolean),
            (str "DemandOffset", .object [] []),
            (str "ListAllDamageStates", .boolean),
            (str "NonDirectionalMultipliers", .object [] []),
            (str "EconomiesOfScale", .object [] [
                (str "AcrossFlorrs", .boolean),
                (str "AcrossDamageStates", .boolean)]),
            (str "Sampling", .object [] [
                (str "SamplingMethod", .text),
                (str "SampleSize", .integer),
                (str "PreserveRawOrder", .boolean)]),
            (str "RepairCostAndTimeCorrelation", .either .number .text)]),
        (str "DemandAssessment", .object [] [
            (str "Calibration", .object [] [
                (str "Marginals", .object [] [])])]),
        (str "ApplicationData", .object [] [
            (str "ground_failure", .boolean)])]),
    (str "Applications", .object [] []),
    (str "auto_script_path", .text)]

/-! ## Python -/

def null : Js := .leaf (.atom .null)
def text (s : Str) : Js := .leaf (.atom (.str s))
def bool (b : Bool) : Js := .leaf (.atom (.bool b))
def number (q : ℚ) : Js := .leaf (.atom (.num q))

/-- `bool(value)` -/
def truthy : Js → Bool
  | .leaf (.atom .null) => false
  | .leaf (.atom .nan) => true
  | .leaf (.atom (.bool b)) => b
  | .leaf (.atom (.num q)) => decide (q ≠ 0)
  | .leaf (.atom (.str s)) => decide (s ≠ [])
  | .leaf (.list l) => decide (l ≠ [])
  | .dict .nil => false
  | .dict (.cons _ _ _) => true

/-- `int(value)` -/
def toInt : Js → Except PyErr Int
  | .leaf (.atom (.num q)) => .ok (Int.sign q.num * (q.num.natAbs / q.den : Nat))
  | .leaf (.atom (.bool b)) => .ok (if b then 1 else 0)
  | .leaf (.atom (.str s)) =>
    match pyInt? s with
    | some n => .ok n
    | none => .error .valueError
  | .leaf (.atom .nan) => .error .valueError
  | _ => .error .typeError

/-- `d[k1][k2]...` -/
def index : Js → List Str → Except PyErr Js
  | v, [] => .ok v
  | .leaf _, _ :: _ => .error .typeError
  | .dict f, k :: ks =>
    match f.get? k with
    | none => .error .keyError
    | some v => index v ks

/-- `get(config, path)` -/
def val (c : Fields) (path : String) : Js := get (some (.dict c)) (str path) null

/-- `is_unspecified(config, path)` -/
def unspec (np22 : Bool) (c : Fields) (path : String) : Except PyErr Bool := isUnspecified np22 (.dict c) (str path)

/-- `update(config, path, value)` -/
def put (np22 : Bool) (path : String) (v : Js) (c : Fields) : Except PyErr Fields := update np22 c (str path) v false

/-- `update(config, path, value, only_if_empty_or_none=True)` -/
def putDefault (np22 : Bool) (path : String) (v : Js) (c : Fields) : Except PyErr Fields := update np22 c (str path) v true

/-- `if is_unspecified(config, path): update(config, target, value)` -/
def putIf (np22 : Bool) (path : String) (v : Js) (c : Fields) : Except PyErr Fields := do
  if ← unspec np22 c path then put np22 path v c else return c

/-! ## The configuration of the user -/

/-- The arguments of a call, apart from the paths of scripts. -/
structure Call where
  /-- `demand_file` -/
  demandFile : Option Str
  /-- `str(realizations)` -/
  realizations : Str
  /-- `output_format` -/
  format : Option (List Str)
  coupled : Bool
  detailed : Bool
  /-- `str(config_path.parent / 'response.csv')` -/
  responseFile : Str
  /-- `str(output_path / 'CMP_QNT.csv')` -/
  componentFile : Str

/-- The dictionaries with default outputs, 124-178. -/
structure Defaults where
  full : Fields
  regional : Fields
  pbe : Fields

/-- the argument `demand_file` as a value -/
def Call.demand (a : Call) : Js :=
  match a.demandFile with
  | none => null
  | some s => text s

/-- 635-638 -/
def fillDemand (np22 : Bool) (a : Call) (c : Fields) : Except PyErr Fields := do
  if ← unspec np22 c "DL" then return c
  else putIf np22 "DL/Demands/DemandFilePath" a.demand c

/-- 825-832 -/
def sampleSize (np22 : Bool) (c : Fields) : Except PyErr Fields := do
  let s := val c "DL/Options/Sampling/SampleSize"
  let t := if truthy s then s else val c "DL/Demands/SampleSize"
  if truthy t then
    let n ← toInt t
    put np22 "DL/Options/Sampling/SampleSize" (number n) c
  else throw .invalidConfigError

/-- the value of `DL/Outputs/Format`, 838-852 -/
def formatValue (csv json : Bool) : Js :=
  .dict (.cons (str "CSV") (bool csv) (.cons (str "JSON") (bool json) .nil))

/-- 842-852 -/
def overrideFormat (np22 : Bool) (a : Call) (c : Fields) : Except PyErr Fields :=
  match a.format with
  | none => .ok c
  | some l => put np22 "DL/Outputs/Format" (formatValue (decide (str "csv" ∈ l)) (decide (str "json" ∈ l))) c

/-- 834-856 -/
def outputDefaults (np22 : Bool) (ds : Defaults) (a : Call) (c : Fields) : Except PyErr Fields := do
  let c ← putIf np22 "DL/Outputs" (.dict ds.full) c
  let c ← putIf np22 "DL/Outputs/Format" (formatValue true false) c
  let c ← overrideFormat np22 a c
  putIf np22 "DL/Outputs/Settings" (.dict ds.pbe) c

/-- `if is_unspecified(config, path): raise` -/
def require (np22 : Bool) (path : String) (c : Fields) : Except PyErr Unit := do
  if ← unspec np22 c path then throw .invalidConfigError else return ()

/-- 866-896 -/
def optionDefaults (np22 : Bool) (a : Call) (c : Fields) : Except PyErr Fields := do
  let c ← putDefault np22 "DL/Options/LogFile" (text (str "pelicun_log.txt")) c
  let c ← putDefault np22 "DL/Options/Verbose" (bool true) c
  let c ← putDefault np22 "DL/Options/ListAllDamageStates" (bool true) c
  putDefault np22 "DL/Demands/DemandFilePath" (text a.responseFile) c

/-- 899-907 -/
def legacy (np22 : Bool) (c : Fields) : Except PyErr Fields := do
  let c ← (if truthy (val c "DL/Losses/BldgRepair") then put np22 "DL/Losses/Repair" (val c "DL/Losses/BldgRepair") c else .ok c)
  if truthy (val c "DL/Outputs/Loss/BldgRepair") then
    put np22 "DL/Outputs/Loss/Repair" (val c "DL/Outputs/Loss/BldgRepair") c
  else return c

/-- 910-916 -/
def stories (np22 : Bool) (c : Fields) : Except PyErr Fields := do
  if ← unspec np22 c "DL/Asset/NumberOfStories" then return c
  else
    let n ← toInt (val c "DL/Asset/NumberOfStories")
    put np22 "DL/Asset/NumberOfStories" (number n) c

/-- 918-923 -/
def checkDrift (np22 : Bool) (c : Fields) : Except PyErr Unit := do
  if ← unspec np22 c "DL/Demands/InferResidualDrift" then return ()
  else require np22 "DL/Demands/InferResidualDrift/method" c

/-- 927-933; an entry of something that is not a dictionary cannot be set -/
def collapseDefaults (np22 : Bool) (c : Fields) : Except PyErr Fields := do
  if ← unspec np22 c "DL/Damage/CollapseFragility/CapacityDistribution" then
    match val c "DL/Damage/CollapseFragility" with
    | .leaf _ => .error .typeError
    | .dict _ =>
      put np22 "DL/Damage/CollapseFragility/CapacityDistribution" (text (str "deterministic")) c >>=
        put np22 "DL/Damage/CollapseFragility/Theta_1" (text (str "N/A"))
  else return c

/-- 925-941 -/
def collapse (np22 : Bool) (c : Fields) : Except PyErr Fields := do
  if ← unspec np22 c "DL/Damage/CollapseFragility" then return c
  else
    let c ← collapseDefaults np22 c
    require np22 "DL/Damage/CollapseFragility/CapacityDistribution" c
    require np22 "DL/Damage/CollapseFragility/CapacityMedian" c
    require np22 "DL/Damage/CollapseFragility/Theta_1" c
    return c

/-- 943-951 -/
def checkIrreparable (np22 : Bool) (c : Fields) : Except PyErr Unit := do
  if ← unspec np22 c "DL/Damage/IrreparableDamage" then return ()
  else
    require np22 "DL/Damage/IrreparableDamage/DriftCapacityMedian" c
    require np22 "DL/Damage/IrreparableDamage/DriftCapacityLogStd" c

/-- 953-963 -/
def checkProcess (np22 : Bool) (c : Fields) : Except PyErr Unit := do
  if val c "DL/Damage/DamageProcess" = text (str "User Defined") then
    require np22 "DL/Damage/DamageProcessFilePath" c
  else return ()

/-- 965-991: `if is_specified(config, out) and is_unspecified(config, part): raise` -/
def checkOutput (np22 : Bool) (out part : String) (c : Fields) : Except PyErr Unit := do
  if ← unspec np22 c out then return () else require np22 part c

/-- 993-1008 -/
def checkFiles (np22 : Bool) (c : Fields) : Except PyErr Unit := do
  if ← unspec np22 c "DL/Asset" then return ()
  else
    let f := val c "DL/Asset/ComponentAssignmentFile"
    let s := val c "DL/Asset/ComponentSampleFile"
    if (f = null ∧ s = null) ∨ (f ≠ null ∧ s ≠ null) then throw .invalidConfigError else return ()

/-- 825-1010: what is done for all configurations -/
def finish (np22 : Bool) (ds : Defaults) (a : Call) (c : Fields) : Except PyErr Fields := do
  let c ← sampleSize np22 c
  let c ← outputDefaults np22 ds a c
  require np22 "DL/Demands" c
  require np22 "DL/Asset" c
  let c ← optionDefaults np22 a c
  let c ← legacy np22 c
  let c ← stories np22 c
  checkDrift np22 c
  let c ← collapse np22 c
  checkIrreparable np22 c
  checkProcess np22 c
  checkOutput np22 "DL/Outputs/Asset" "DL/Asset" c
  checkOutput np22 "DL/Outputs/Damage" "DL/Damage" c
  checkOutput np22 "DL/Outputs/Loss" "DL/Losses" c
  checkFiles np22 c
  return c

/-! ## Generated configurations -/

/-- The text of a value in an f-string; `fmt` for values that are neither texts nor `None`. -/
def inText (fmt : Js → Str) : Js → Str
  | .leaf (.atom (.str s)) => s
  | .leaf (.atom .null) => str "None"
  | v => fmt v

/-- 699-731: the results of further scripts -/
def addScript (np22 : Bool) (fmt : Js → Str) (ap api : Fields) : Except PyErr Fields := do
  let ap ← put np22 "DL/Asset/ComponentDatabase"
    (text (inText fmt (val ap "DL/Asset/ComponentDatabase") ++ ',' :: inText fmt (val api "DL/Asset/ComponentDatabase"))) ap
  let ap ← put np22 "DL/Losses/Repair/ConsequenceDatabase"
    (text (inText fmt (val ap "DL/Losses/Repair/ConsequenceDatabase") ++ ',' ::
      inText fmt (val api "DL/Losses/Repair/ConsequenceDatabase"))) ap
  put np22 "DL/Losses/Repair/CombinationMethod" (text (str "Hazus Hurricane")) ap

/-- 691-731: the scripts in order -/
def runScripts (np22 : Bool) (fmt : Js → Str) (c : Fields) : Fields → List (Fields → Except PyErr Fields) → Except PyErr Fields
  | ap, [] => .ok ap
  | ap, s :: rest => do
    let api ← s c
    let ap ← addScript np22 fmt ap api
    runScripts np22 fmt c ap rest

/-- 749-766: the options of the user -/
def userOptions (np22 : Bool) (c ap : Fields) : Except PyErr Fields :=
  match index (.dict c) [str "Applications", str "DL", str "ApplicationData", str "Options"] with
  | .error .keyError => .ok ap
  | .error e => .error e
  | .ok o =>
    if truthy o then
      match index (.dict ap) [str "DL", str "Options"], o with
      | .error e, _ => .error e
      | .ok (.dict u), .dict p => do
        let m ← updateVals u p
        put np22 "DL/Options" (.dict m) ap
      | .ok _, _ => .error .attributeError
    else .ok ap

/-- `d.update(e)` -/
def updateAll (d : Fields) : Fields → Fields
  | .nil => d
  | .cons k v e => updateAll (d.set k v) e

/-- 796-803: all outputs, with the settings for regional simulations -/
def fullOutputs (np22 : Bool) (ds : Defaults) (ap : Fields) : Except PyErr Fields := do
  let ap ← put np22 "DL/Outputs" (.dict ds.full) ap
  let ap ← putIf np22 "DL/Outputs/Settings" (.dict .nil) ap
  match index (.dict ap) [str "DL", str "Outputs", str "Settings"], index (.dict ds.regional) [str "Settings"] with
  | .ok (.dict s), .ok (.dict r) => put np22 "DL/Outputs/Settings" (.dict (updateAll s r)) ap
  | .error e, _ => .error e
  | _, .error e => .error e
  | _, _ => .error .attributeError

/-- 792-807 -/
def lossOutputs (np22 : Bool) (ds : Defaults) (a : Call) (ap : Fields) : Except PyErr Fields := do
  let ap ← (if a.detailed then fullOutputs np22 ds ap else put np22 "DL/Outputs" (.dict ds.regional) ap)
  if ← unspec np22 ap "DL/Losses" then put np22 "DL/Outputs/Loss" (.dict .nil) ap else return ap

/-- 810-811: `(not config['outputs']['IM']) and (not config['outputs']['EDP'])` -/
def noDemand (c : Fields) : Except PyErr Bool := do
  let im ← index (.dict c) [str "outputs", str "IM"]
  if truthy im then return false
  else (fun edp => !truthy edp) <$> index (.dict c) [str "outputs", str "EDP"]

/-- `if b: update(config_ap, path, {})` -/
def dropIf (np22 : Bool) (b : Bool) (path : String) (ap : Fields) : Except PyErr Fields :=
  if b then put np22 path (.dict .nil) ap else .ok ap

/-- 809-815 -/
def wantedOutputs (np22 : Bool) (c ap : Fields) : Except PyErr Fields := do
  if ← unspec np22 c "outputs" then return ap
  else
    let no ← noDemand c
    let ap ← dropIf np22 no "DL/Outputs/Demand" ap
    let dm ← index (.dict c) [str "outputs", str "DM"]
    let ap ← dropIf np22 (!truthy dm) "DL/Outputs/Damage" ap
    let dv ← index (.dict c) [str "outputs", str "DV"]
    dropIf np22 (!truthy dv) "DL/Outputs/Loss" ap

/-- `{'ALL': {'DistributionFamily': 'lognormal'}}` -/
def lognormalAll : Js :=
  .dict (.cons (str "ALL") (.dict (.cons (str "DistributionFamily") (text (str "lognormal")) .nil)) .nil)

/-- 768-780 -/
def addDemands (np22 : Bool) (a : Call) (ap : Fields) : Except PyErr Fields := do
  let ap ← put np22 "/DL/Demands/DemandFilePath" a.demand ap
  let ap ← put np22 "/DL/Demands/SampleSize" (text a.realizations) ap
  (if a.coupled then put np22 "DL/Demands/CoupledDemands" (bool true) ap else put np22 "DL/Demands/Calibration" lognormalAll ap)

/-- 647-823: the configuration with the generated entry `DL`; `none` if no simulation is needed (741-747).  The
scripts: an error if there is none for the method. -/
def generate (np22 : Bool) (ds : Defaults) (a : Call) (fmt : Js → Str)
    (scripts : Except PyErr ((Fields → Except PyErr Fields) × List (Fields → Except PyErr Fields))) (c : Fields) :
    Except PyErr (Option Fields) := do
  let (first, rest) ← scripts
  let c ← put np22 "/DL/Demands/DemandFilePath" a.demand c
  let c ← put np22 "/DL/Demands/SampleSize" (text a.realizations) c
  let ap ← first c
  let ap ← runScripts np22 fmt c ap rest
  require np22 "DL" ap
  if val ap "DL" = text (str "N/A") then return none
  else
    let ap ← userOptions np22 c ap
    let ap ← addDemands np22 a ap
    let ap ← put np22 "DL/Asset/ComponentAssignmentFile" (text a.componentFile) ap
    let ap ← lossOutputs np22 ds a ap
    let ap ← wantedOutputs np22 c ap
    let c ← put np22 "DL" (val ap "DL") c
    return some c

/-- 576-1010 `_parse_config_file` -/
def parseConfig (np22 : Bool) (ds : Defaults) (a : Call) (fmt : Js → Str)
    (scripts : Except PyErr ((Fields → Except PyErr Fields) × List (Fields → Except PyErr Fields))) (c : Fields) :
    Except PyErr (Option Fields) := do
  let c ← fillDemand np22 a c
  if conforms inputSchema (.dict c) then
    if ← unspec np22 c "DL" then
      match ← generate np22 ds a fmt scripts c with
      | none => return none
      | some c => some <$> finish np22 ds a c
    else some <$> finish np22 ds a c
  else throw .invalidConfigError

end Verif.ToolConfig
