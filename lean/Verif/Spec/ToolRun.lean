import Verif.Model.ToolRun
import Verif.Props.ToolConfigSpec

/-! # Words used in C120 -/

namespace Verif.ToolRun

open Config ToolConfig
open ToolOut (Files)

/-- The result tables with the entry of the configuration that asks for each. -/
def tables : List (String × Str) :=
  [("DL/Outputs/Demand/Sample", str "DEM_sample.zip"), ("DL/Outputs/Demand/Statistics", str "DEM_stats.csv"),
   ("DL/Outputs/Asset/Sample", str "CMP_sample.zip"), ("DL/Outputs/Asset/Statistics", str "CMP_stats.csv"),
   ("DL/Outputs/Damage/Sample", str "DMG_sample.zip"), ("DL/Outputs/Damage/Statistics", str "DMG_stats.csv"),
   ("DL/Outputs/Damage/GroupedSample", str "DMG_grp.zip"), ("DL/Outputs/Damage/GroupedStatistics", str "DMG_grp_stats.csv"),
   ("DL/Outputs/Loss/Repair/Sample", str "DV_repair_sample.zip"), ("DL/Outputs/Loss/Repair/Statistics", str "DV_repair_stats.csv"),
   ("DL/Outputs/Loss/Repair/GroupedSample", str "DV_repair_grp.zip"),
   ("DL/Outputs/Loss/Repair/GroupedStatistics", str "DV_repair_grp_stats.csv"),
   ("DL/Outputs/Loss/Repair/AggregateSample", str "DV_repair_agg.zip"),
   ("DL/Outputs/Loss/Repair/AggregateStatistics", str "DV_repair_agg_stats.csv")]

/-- The summary, which is always written. -/
def summaries : List Str := [str "DL_summary.csv", str "DL_summary_stats.csv"]

/-- The files with results. -/
def resultFiles : List Str := tables.map Prod.snd ++ summaries

/-- The configuration asks for a table. -/
def Wanted (c : Fields) (f : Str) : Prop := f ∈ summaries ∨ ∃ path, (path, f) ∈ tables ∧ val c path = bool true

/-- The JSON file of a table: the same name with the extension `json`. -/
def IsJson (f g : Str) : Prop := ∃ base ext, ext.length = 3 ∧ f = base ++ '.' :: ext ∧ g = base ++ str ".json"

/-- The calculations that a configuration asks for. -/
def Asked (np22 : Bool) (c : Fields) (s : Stage) : Prop :=
  match s with
  | .damage => Given np22 c "DL/Damage"
  | .loss => Given np22 c "DL/Losses/Repair"
  | _ => True

/-- The calculations in their order. -/
def order : List Stage := [.setup, .demand, .asset, .damage, .loss, .summary]

instance (np22 : Bool) (c : Fields) (s : Stage) : Decidable (Asked np22 c s) := by
  unfold Asked Given
  cases s <;> infer_instance

/-- The calculations that a configuration asks for, in their order. -/
def wantedStages (np22 : Bool) (c : Fields) : List Stage := order.filter fun s => decide (Asked np22 c s)

/-- The calculations that were begun, in order. -/
def Result.calculations (r : Result) : List Stage :=
  r.begun.filterMap fun e => match e with
    | .compute s => some s
    | _ => none

/-- The configuration asks for JSON files: the entry is there and not `false`. -/
def AsksJson (c : Fields) : Prop := get (some (.dict c)) (str "DL/Outputs/Format/JSON") (bool false) ≠ bool false

/-- The configuration asks for tables as CSV files. -/
def AsksCsv (c : Fields) : Prop := val c "DL/Outputs/Format/CSV" = bool true

/-- The tables of each calculation. -/
def tablesOf : Stage → List Str
  | .demand => [str "DEM_sample.zip", str "DEM_stats.csv"]
  | .asset => [str "CMP_sample.zip", str "CMP_stats.csv"]
  | .damage => [str "DMG_sample.zip", str "DMG_stats.csv", str "DMG_grp.zip", str "DMG_grp_stats.csv"]
  | .loss => [str "DV_repair_sample.zip", str "DV_repair_stats.csv", str "DV_repair_grp.zip", str "DV_repair_grp_stats.csv",
      str "DV_repair_agg.zip", str "DV_repair_agg_stats.csv"]
  | .summary => summaries
  | .setup => []

/-- The run `n` on a configuration that was accepted as `c'`, in a folder with the files `fs`. -/
structure Run (np22 : Bool) (world : List Event → Event → Outcome) (n : Nat) (fs : Files) (c' : Fields) (r : Result) : Prop where
  accepted : ∃ ds a fmt scripts c, parseConfig np22 ds a fmt scripts c = .ok (some c') ∧
    r = run np22 ds a fmt scripts c world n fs

end Verif.ToolRun
