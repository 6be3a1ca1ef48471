import Verif.Model.ToolConfig
import Verif.Model.ToolOut

/-!
# A run of the command line tool

Models `run_pelicun` of `pelicun/tools/DL_calculation.py` (256-490) with the functions that save, convert and remove
files (519-542, 545-573, 1014-1075, 1135-1571): what is done, in which order, and what is left in the output folder
if the run ends early, because a step raises an exception or the process is stopped.

The steps of a run are calculations, the collection of results, and operations on files.  None of them returns a value
that the later control flow depends on, and no exception is caught, so that the run is a list of steps, fixed by the
configuration and the files that are in the folder, possibly with an exception at its end; the world decides which step
fails, if any.  What is inside the calculations is the subject of the other modules.  The contents of a file are
represented by the number of the run that wrote it.
-/

namespace Verif.ToolRun

open Config ToolConfig
open ToolOut (Files knownFiles jsonName)

/-- The calculations of a run: 323 (the assessment with its options), 325-337, 340-355, 358-383, 393-425, 427. -/
inductive Stage where
  | setup
  | demand
  | asset
  | damage
  | loss
  | summary
  deriving DecidableEq

/-- The steps of a run. -/
inductive Event where
  | compute (s : Stage)
  /-- the results of a calculation are taken from the assessment to be saved -/
  | collect (s : Stage)
  /-- a table is written (and its name is appended to `out_files`) -/
  | write (f : Str)
  /-- a table is written as JSON -/
  | json (f : Str)
  | remove (f : Str)
  deriving DecidableEq

/-- Steps to be done, and the exception that is raised after them, if any. -/
structure Prog where
  events : List Event
  error : Option PyErr

namespace Prog

def done : Prog := ⟨[], none⟩

def step (e : Event) : Prog := ⟨[e], none⟩

def raise (e : PyErr) : Prog := ⟨[], some e⟩

/-- One part of a function after another. -/
def andThen (p q : Prog) : Prog :=
  match p.error with
  | some _ => p
  | none => ⟨p.events ++ q.events, q.error⟩

/-- `out_files`: the tables written so far -/
def outFiles (p : Prog) : List Str :=
  p.events.filterMap fun e => match e with
    | .write f => some f
    | _ => none

end Prog

open Prog

/-- `if is_specified(config, path): ...` -/
def whenGiven (np22 : Bool) (c : Fields) (path : String) (p : Prog) : Prog :=
  match unspec np22 c path with
  | .error e => raise e
  | .ok true => done
  | .ok false => p

/-- 1135-1154 `_parse_requested_output_file_names`: whether a name is in the result -/
def requested (f : Fields) (name : Str) : Bool := f.get? name == some (bool true)

/-- `if '<name>' in out_reqs: ...to_csv(output_path / file)` -/
def writeRequested (f : Fields) : List (Str × Str) → List Event
  | [] => []
  | (name, file) :: rest => if requested f name then .write file :: writeRequested f rest else writeRequested f rest

/-- 1157-1205 `_demand_save`; the requested names are read first -/
def demandSave (o : Js) : Prog :=
  match o with
  | .leaf _ => raise .attributeError
  | .dict f => ⟨.collect .demand :: writeRequested f [(str "Sample", str "DEM_sample.zip"), (str "Statistics", str "DEM_stats.csv")], none⟩

/-- 1208-1266, 1269-1407, 1410-1533: the sample is collected before the requested names are read -/
def collectAndSave (s : Stage) (o : Js) (table : List (Str × Str)) : Prog :=
  match o with
  | .leaf _ => ⟨[.collect s], some .attributeError⟩
  | .dict f => ⟨.collect s :: writeRequested f table, none⟩

/-- 1208-1266 `_asset_save` -/
def assetSave (o : Js) : Prog :=
  collectAndSave .asset o [(str "Sample", str "CMP_sample.zip"), (str "Statistics", str "CMP_stats.csv")]

/-- 1269-1407 `_damage_save` -/
def damageSave (o : Js) : Prog :=
  collectAndSave .damage o [(str "Sample", str "DMG_sample.zip"), (str "Statistics", str "DMG_stats.csv"),
    (str "GroupedSample", str "DMG_grp.zip"), (str "GroupedStatistics", str "DMG_grp_stats.csv")]

/-- 1410-1533 `_loss_save` -/
def lossSave (o : Js) : Prog :=
  collectAndSave .loss o [(str "Sample", str "DV_repair_sample.zip"), (str "Statistics", str "DV_repair_stats.csv"),
    (str "GroupedSample", str "DV_repair_grp.zip"), (str "GroupedStatistics", str "DV_repair_grp_stats.csv"),
    (str "AggregateSample", str "DV_repair_agg.zip"), (str "AggregateStatistics", str "DV_repair_agg_stats.csv")]

/-- 1536-1571 `_remove_existing_files` -/
def removeExisting (files : List Str) : Prog := ⟨(files.filter fun f => decide (f ∈ knownFiles)).map .remove, none⟩

/-- 322-427: the calculations -/
def calculations (np22 : Bool) (c : Fields) : Prog :=
  (step (.compute .setup)).andThen <| (step (.compute .demand)).andThen <|
  (whenGiven np22 c "DL/Asset" (step (.compute .asset))).andThen <|
  (whenGiven np22 c "DL/Damage" (step (.compute .damage))).andThen <|
  (whenGiven np22 c "DL/Losses/Repair" (step (.compute .loss))).andThen <|
  step (.compute .summary)

/-- 386-387, 472: `agg_repair` is `None` -/
def noRepair (np22 : Bool) (c : Fields) : Bool := decide (unspec np22 c "DL/Losses/Repair" = .ok true)

/-- 429-486: the tables -/
def saves (np22 : Bool) (c : Fields) : Prog :=
  (whenGiven np22 c "DL/Outputs/Demand" (demandSave (val c "DL/Outputs/Demand"))).andThen <|
  (whenGiven np22 c "DL/Outputs/Asset" (assetSave (val c "DL/Outputs/Asset"))).andThen <|
  (whenGiven np22 c "DL/Outputs/Damage" (damageSave (val c "DL/Outputs/Damage"))).andThen <|
  (whenGiven np22 c "DL/Outputs/Loss/Repair"
    (if noRepair np22 c then raise .assertionError else lossSave (val c "DL/Outputs/Loss/Repair"))).andThen <|
  ⟨[.write (str "DL_summary.csv"), .write (str "DL_summary_stats.csv")], none⟩

/-- 1014-1075 `_create_json_files_if_requested` -/
def createJson (c : Fields) (out : List Str) : Prog :=
  if get (some (.dict c)) (str "DL/Outputs/Format/JSON") (bool false) = bool false then done
  else ⟨out.map .json, none⟩

/-- 519-542 `_remove_csv_files_if_not_requested` -/
def removeCsv (c : Fields) (out : List Str) : Prog :=
  if get (some (.dict c)) (str "DL/Outputs/Format/CSV") (bool false) = bool true then done
  else ⟨(out.filter fun f => !ToolOut.isSummary f).map .remove, none⟩

/-- 318-490: what a run does with an accepted configuration; `files` are the names of the files in the folder -/
def program (np22 : Bool) (files : List Str) (c : Fields) : Prog :=
  (removeExisting files).andThen <| (calculations np22 c).andThen <| (saves np22 c).andThen <|
  (createJson c (saves np22 c).outFiles).andThen <| removeCsv c (saves np22 c).outFiles

/-! ## The world -/

/-- How a step ends: it succeeds, or it raises an exception or is stopped, with or without an effect on its file. -/
inductive Outcome where
  | ok
  | failed (e : PyErr) (effect : Bool)

/-- The effect of a step on the folder in run `n`. -/
def effect (n : Nat) : Event → Files → Files
  | .compute _, fs => fs
  | .collect _, fs => fs
  | .write f, fs => fs.set f n
  | .json f, fs => fs.set (jsonName f) n
  | .remove f, fs => fs.filter fun e => decide (e.1 ≠ f)

/-- What is left of a run: the steps that were begun, the folder, and the exception. -/
structure Result where
  begun : List Event
  files : Files
  error : Option PyErr

/-- The steps are done one after another until one fails; the outcome of a step may depend on the steps before. -/
def exec (world : List Event → Event → Outcome) (n : Nat) (final : Option PyErr) : List Event → List Event → Files → Result
  | begun, [], fs => ⟨begun, fs, final⟩
  | begun, e :: es, fs =>
    match world begun e with
    | .ok => exec world n final (begun ++ [e]) es (effect n e fs)
    | .failed x b => ⟨begun ++ [e], if b then effect n e fs else fs, some x⟩

/-- 256-490 `run_pelicun`, for a folder with the files `fs`.  The folder is not touched if the configuration is refused
or no simulation is needed (apart from the file with the components, see `Verif.ToolConfig`). -/
def run (np22 : Bool) (ds : Defaults) (a : Call) (fmt : Js → Str)
    (scripts : Except PyErr ((Fields → Except PyErr Fields) × List (Fields → Except PyErr Fields))) (c : Fields)
    (world : List Event → Event → Outcome) (n : Nat) (fs : Files) : Result :=
  match parseConfig np22 ds a fmt scripts c with
  | .error e => ⟨[], fs, some e⟩
  | .ok none => ⟨[], fs, none⟩
  | .ok (some c') =>
    let p := program np22 (fs.map Prod.fst) c'
    exec world n p.error [] p.events fs

end Verif.ToolRun
