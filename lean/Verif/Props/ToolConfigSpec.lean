import Verif.Model.ToolConfig

/-!
# Specification of C106: the configuration of a calculation

Specification: `Complete` lists what a configuration with an entry `DL` needs to be accepted, `Completed` what the
configuration contains that the calculation is done with.
-/

namespace Verif.ToolConfig

open Config

/-- `is_specified(config, path)` (see C05) -/
def Given (np22 : Bool) (c : Fields) (path : String) : Prop := isUnspecified np22 (.dict c) (str path) = .ok false

/-- `is_unspecified(config, path)` -/
def Missing (np22 : Bool) (c : Fields) (path : String) : Prop := isUnspecified np22 (.dict c) (str path) = .ok true

/-- The number of samples that a configuration asks for: that in the options, or else that in the demands. -/
def AsksForSize (c : Fields) (n : Int) : Prop :=
  let o := val c "DL/Options/Sampling/SampleSize"
  let d := val c "DL/Demands/SampleSize"
  (truthy o = true ∧ toInt o = .ok n) ∨ (truthy o = false ∧ truthy d = true ∧ toInt d = .ok n)

/-- The outputs that are asked for: those in the configuration, or else all outputs. -/
def Outputs (np22 : Bool) (ds : Defaults) (c : Fields) (o : Js) : Prop :=
  (Given np22 c "DL/Outputs" ∧ o = val c "DL/Outputs") ∨ (Missing np22 c "DL/Outputs" ∧ o = .dict ds.full)

/-- An entry of the outputs. -/
def entry (o : Js) (name : String) : Js := get (some o) (str name) null

/-- What a configuration needs: it conforms to the schema, it has a number of samples and an asset without a file of
component samples; numbers can be read; the parameters of the collapse fragility and of irreparable damage are there;
a damage process of the user has a file; the damage and the losses are there if they are asked for. -/
structure Complete (np22 : Bool) (ds : Defaults) (c : Fields) : Prop where
  schema : conforms inputSchema (.dict c) = true
  size : ∃ n, AsksForSize c n
  asset : Given np22 c "DL/Asset"
  noSampleFile : val c "DL/Asset/ComponentSampleFile" = null
  stories : Given np22 c "DL/Asset/NumberOfStories" → ∃ n, toInt (val c "DL/Asset/NumberOfStories") = .ok n
  collapse : Given np22 c "DL/Damage/CollapseFragility" → Given np22 c "DL/Damage/CollapseFragility/CapacityMedian" ∧
    (Given np22 c "DL/Damage/CollapseFragility/CapacityDistribution" → Given np22 c "DL/Damage/CollapseFragility/Theta_1")
  irreparable : Given np22 c "DL/Damage/IrreparableDamage" →
    Given np22 c "DL/Damage/IrreparableDamage/DriftCapacityMedian" ∧ Given np22 c "DL/Damage/IrreparableDamage/DriftCapacityLogStd"
  process : val c "DL/Damage/DamageProcess" = text (str "User Defined") → Given np22 c "DL/Damage/DamageProcessFilePath"
  damage : ∀ o, Outputs np22 ds c o → valueUnspecified np22 (entry o "Damage") = .ok false → Given np22 c "DL/Damage"
  losses : ∀ o, Outputs np22 ds c o → valueUnspecified np22 (entry o "Loss") = .ok false → Given np22 c "DL/Losses"
  verbose : ∃ b, isUnspecified np22 (.dict c) (str "DL/Options/Verbose") = .ok b

/-- The entries in which the configuration may be changed. -/
def changedEntries : List String :=
  ["DL/Demands/DemandFilePath", "DL/Options/Sampling/SampleSize", "DL/Options/LogFile", "DL/Options/Verbose",
   "DL/Options/ListAllDamageStates", "DL/Outputs", "DL/Losses/Repair", "DL/Asset/NumberOfStories",
   "DL/Damage/CollapseFragility/CapacityDistribution", "DL/Damage/CollapseFragility/Theta_1"]

/-- An entry is kept if it is given, and has the default value if it is not. -/
def KeptOr (np22 : Bool) (c c' : Fields) (path : String) (default : Js) : Prop :=
  (Given np22 c path → val c' path = val c path) ∧ (Missing np22 c path → val c' path = default)

/-- The configuration `c'` that is used if the user gives the configuration `c`. -/
structure Completed (np22 : Bool) (ds : Defaults) (a : Call) (c c' : Fields) : Prop where
  /-- other entries are as the user wrote them -/
  others : ∀ (path : Str) (default : Js),
    (∀ p ∈ changedEntries, ¬ pathKeys (str p) <+: pathKeys path ∧ ¬ pathKeys path <+: pathKeys (str p)) →
    get (some (.dict c')) path default = get (some (.dict c)) path default
  demand : (Given np22 c "DL/Demands/DemandFilePath" → val c' "DL/Demands/DemandFilePath" = val c "DL/Demands/DemandFilePath") ∧
    (Missing np22 c "DL/Demands/DemandFilePath" → ∃ s, a.demandFile = some s ∧ val c' "DL/Demands/DemandFilePath" = text s)
  size : ∃ n : Int, AsksForSize c n ∧ val c' "DL/Options/Sampling/SampleSize" = number n
  logFile : KeptOr np22 c c' "DL/Options/LogFile" (text (str "pelicun_log.txt"))
  verbose : KeptOr np22 c c' "DL/Options/Verbose" (bool true)
  listAll : KeptOr np22 c c' "DL/Options/ListAllDamageStates" (bool true)
  stories : (Missing np22 c "DL/Asset/NumberOfStories" → val c' "DL/Asset/NumberOfStories" = val c "DL/Asset/NumberOfStories") ∧
    (Given np22 c "DL/Asset/NumberOfStories" → ∃ n : Int, toInt (val c "DL/Asset/NumberOfStories") = .ok n ∧
      val c' "DL/Asset/NumberOfStories" = number n)
  /-- a collapse fragility without a distribution is deterministic, whatever its other parameter is -/
  collapse : (Given np22 c "DL/Damage/CollapseFragility" → Missing np22 c "DL/Damage/CollapseFragility/CapacityDistribution" →
      val c' "DL/Damage/CollapseFragility/CapacityDistribution" = text (str "deterministic") ∧
      val c' "DL/Damage/CollapseFragility/Theta_1" = text (str "N/A")) ∧
    (Missing np22 c "DL/Damage/CollapseFragility" ∨ Given np22 c "DL/Damage/CollapseFragility/CapacityDistribution" →
      val c' "DL/Damage/CollapseFragility/CapacityDistribution" = val c "DL/Damage/CollapseFragility/CapacityDistribution" ∧
      val c' "DL/Damage/CollapseFragility/Theta_1" = val c "DL/Damage/CollapseFragility/Theta_1")
  /-- the entry with the name of earlier versions is preferred -/
  repair : val c' "DL/Losses/Repair" =
    if truthy (val c "DL/Losses/BldgRepair") then val c "DL/Losses/BldgRepair" else val c "DL/Losses/Repair"
  outputs : ∀ o, Outputs np22 ds c o →
    val c' "DL/Outputs/Demand" = entry o "Demand" ∧ val c' "DL/Outputs/Asset" = entry o "Asset" ∧
    val c' "DL/Outputs/Damage" = entry o "Damage" ∧
    val c' "DL/Outputs/Loss/Repair" =
      (if truthy (entry o "Loss/BldgRepair") then entry o "Loss/BldgRepair" else entry o "Loss/Repair") ∧
    (match a.format with
      | some l => val c' "DL/Outputs/Format" = formatValue (decide (str "csv" ∈ l)) (decide (str "json" ∈ l))
      | none => (valueUnspecified np22 (entry o "Format") = .ok false → val c' "DL/Outputs/Format" = entry o "Format") ∧
        (valueUnspecified np22 (entry o "Format") = .ok true → val c' "DL/Outputs/Format" = formatValue true false)) ∧
    (valueUnspecified np22 (entry o "Settings") = .ok false → val c' "DL/Outputs/Settings" = entry o "Settings") ∧
    (valueUnspecified np22 (entry o "Settings") = .ok true → val c' "DL/Outputs/Settings" = .dict ds.pbe)

/-- The schema at a path. -/
def schemaAt : Schema → List Str → Option Schema
  | s, [] => some s
  | .object _ props, k :: ks =>
    match props.lookup k with
    | some s => schemaAt s ks
    | none => none
  | _, _ :: _ => none

/-- The default outputs conform to the schema of the outputs. -/
def GoodDefaults (ds : Defaults) : Prop :=
  ∃ s, schemaAt inputSchema [str "DL", str "Outputs"] = some s ∧ conforms s (.dict ds.full) = true

end Verif.ToolConfig
