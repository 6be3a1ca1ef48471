import Verif.Model.PyStr

/-!
# Output configuration and output files of the command line tool

Models `pelicun/tools/DL_calculation.py`: the lists and dictionaries at module level (105-178), the
part of `_parse_config_file` that decides on the outputs (791-856, 971-1001), the way in which
`run_pelicun` removes, writes, converts and removes files (318-320, 426-490; 518-542, 544-573,
1041-1075, 1157-1571).

The module-level dictionaries are shared by all runs of a session: `update(config, 'DL/Outputs',
full_out_config)` stores a reference.  Here the configuration of a run either has its own dictionary of
outputs or refers to one of the shared ones, and the settings in it are its own or the shared
`pbe_settings`.  A section of the output configuration is a dictionary of flags; the section `Loss` is
represented by the flags of its only entry `Repair`.  The contents of the files are represented by the
number of the run that wrote them.
-/

namespace Verif.ToolOut

/-- A dictionary of flags. -/
abbrev Section := Dict Str Bool

/-- The entry `Settings` of an output configuration. -/
inductive Settings where
  | missing
  | own (d : Section)
  | pbe
  deriving DecidableEq

/-- An output configuration. -/
structure Out where
  sections : Dict Str Section
  settings : Settings
  deriving DecidableEq

/-- The module-level dictionaries, 124-178. -/
structure Shared where
  full : Out
  regional : Out
  pbe : Section
  deriving DecidableEq

def allSix : Section :=
  [(str "Sample", true), (str "Statistics", true), (str "GroupedSample", true), (str "GroupedStatistics", true),
   (str "AggregateSample", true), (str "AggregateStatistics", true)]

/-- 124-144 `full_out_config` -/
def fullOut : Out :=
  ⟨[(str "Demand", [(str "Sample", true), (str "Statistics", true)]),
    (str "Asset", [(str "Sample", true), (str "Statistics", true)]),
    (str "Damage", [(str "Sample", true), (str "Statistics", true), (str "GroupedSample", true), (str "GroupedStatistics", true)]),
    (str "Loss", allSix),
    (str "Format", [(str "CSV", true), (str "JSON", true)])], .missing⟩

/-- 166-170 -/
def regionalSettings : Section :=
  [(str "CondenseDS", true), (str "SimpleIndexInJSON", true), (str "AggregateColocatedComponentResults", true)]

/-- 146-171 `regional_out_config` -/
def regionalOut : Out :=
  ⟨[(str "Demand", [(str "Sample", true), (str "Statistics", false)]),
    (str "Asset", [(str "Sample", true), (str "Statistics", false)]),
    (str "Damage", [(str "Sample", false), (str "Statistics", false), (str "GroupedSample", true), (str "GroupedStatistics", true)]),
    (str "Loss", allSix),
    (str "Format", [(str "CSV", false), (str "JSON", true)])], .own regionalSettings⟩

/-- 173-177 `pbe_settings` -/
def pbeSettings : Section :=
  [(str "CondenseDS", false), (str "SimpleIndexInJSON", false), (str "AggregateColocatedComponentResults", true)]

/-- The dictionaries when the module is loaded. -/
def fresh : Shared := ⟨fullOut, regionalOut, pbeSettings⟩

/-- The entry `outputs` of a workflow configuration. -/
structure Wanted where
  im : Bool
  edp : Bool
  dm : Bool
  dv : Bool

/-- The inputs of a run that matter for the outputs. -/
structure Run where
  /-- the configuration has no entry `DL`: it is generated by a script -/
  auto : Bool
  /-- the script asks for no simulation (`DL` is `N/A`) -/
  skip : Bool
  /-- the outputs in the configuration of the user -/
  outputs : Option Out
  detailed : Bool
  /-- `DL/Asset`, `DL/Damage` and `DL/Losses` are part of the configuration -/
  asset : Bool
  damage : Bool
  losses : Bool
  wanted : Option Wanted
  format : Option (List Str)

/-- Where the output configuration of the run lives. -/
inductive Loc where
  | own
  | full
  | regional
  deriving DecidableEq

/-- The state while the configuration is parsed. -/
structure St where
  shared : Shared
  own : Out
  loc : Loc

/-- The output configuration of the run. -/
def St.cur (st : St) : Out :=
  match st.loc with
  | .own => st.own
  | .full => st.shared.full
  | .regional => st.shared.regional

/-- A change of the output configuration of the run. -/
def St.modify (st : St) (f : Out → Out) : St :=
  match st.loc with
  | .own => { st with own := f st.own }
  | .full => { st with shared := { st.shared with full := f st.shared.full } }
  | .regional => { st with shared := { st.shared with regional := f st.shared.regional } }

/-- `update(config, 'DL/Outputs/<name>', section)` -/
def Out.setSection (o : Out) (name : Str) (s : Section) : Out := { o with sections := o.sections.set name s }

def Out.setSettings (o : Out) (s : Settings) : Out := { o with settings := s }

/-- The dictionary behind the entry `Settings`. -/
def resolveSettings (sh : Shared) : Settings → Section
  | .missing => []
  | .own d => d
  | .pbe => sh.pbe

/-- `is_specified(config, 'DL/Outputs/<name>')` -/
def Out.specified (o : Out) (name : Str) : Bool :=
  match o.sections.get? name with
  | none => false
  | some [] => false
  | some _ => true

/-- `d.update(e)` -/
def updateAll (d e : Section) : Section := e.foldl (fun d kv => d.set kv.1 kv.2) d

/-- 798-799 -/
def ensureSettings (st : St) : St :=
  if resolveSettings st.shared st.cur.settings = [] then st.modify (·.setSettings (.own [])) else st

/-- 801-803: the dictionary of the settings is changed in place. -/
def extendSettings (st : St) : St :=
  match st.cur.settings with
  | .missing => st
  | .own d => st.modify (·.setSettings (.own (updateAll d (resolveSettings st.shared st.shared.regional.settings))))
  | .pbe =>
    { st with shared := { st.shared with pbe := updateAll st.shared.pbe (resolveSettings st.shared st.shared.regional.settings) } }

/-- 805-807 -/
def dropLoss (r : Run) (st : St) : St :=
  if r.losses then st else st.modify (·.setSection (str "Loss") [])

/-- 809-815 -/
def dropUnwanted (r : Run) (st : St) : St :=
  match r.wanted with
  | none => st
  | some w =>
    let st1 := if !w.im && !w.edp then st.modify (·.setSection (str "Demand") []) else st
    let st2 := if !w.dm then st1.modify (·.setSection (str "Damage") []) else st1
    if !w.dv then st2.modify (·.setSection (str "Loss") []) else st2

/-- 791-815 (generated configuration) and 834-836: which dictionary the outputs are; empty
outputs of the user count as not given. -/
def place (sh : Shared) (r : Run) : St :=
  if r.auto then
    if r.detailed then dropUnwanted r (dropLoss r (extendSettings (ensureSettings ⟨sh, ⟨[], .missing⟩, .full⟩)))
    else dropUnwanted r (dropLoss r ⟨sh, ⟨[], .missing⟩, .regional⟩)
  else
    match r.outputs with
    | some o => if o = ⟨[], .missing⟩ then ⟨sh, ⟨[], .missing⟩, .full⟩ else ⟨sh, o, .own⟩
    | none => ⟨sh, ⟨[], .missing⟩, .full⟩

/-- 838-840 -/
def defaultFormat (st : St) : St :=
  if st.cur.specified (str "Format") then st
  else st.modify (·.setSection (str "Format") [(str "CSV", true), (str "JSON", false)])

/-- 842-852 -/
def overrideFormat (r : Run) (st : St) : St :=
  match r.format with
  | none => st
  | some l => st.modify (·.setSection (str "Format") [(str "CSV", decide (str "csv" ∈ l)), (str "JSON", decide (str "json" ∈ l))])

/-- 854-856 -/
def defaultSettings (st : St) : St :=
  if resolveSettings st.shared st.cur.settings = [] then st.modify (·.setSettings .pbe) else st

/-- What a run uses: the sections and the settings. -/
structure Effective where
  sections : Dict Str Section
  settings : Section
  deriving DecidableEq

/-- 791-864, 971-1001: the output configuration of a run and the shared dictionaries afterwards. -/
def parseOutputs (sh : Shared) (r : Run) : Except PyErr Effective × Shared :=
  let st := defaultSettings (overrideFormat r (defaultFormat (place sh r)))
  if !r.asset then (.error .invalidConfigError, st.shared)
  else if st.cur.specified (str "Damage") && !r.damage then (.error .invalidConfigError, st.shared)
  else if st.cur.specified (str "Loss") && !r.losses then (.error .invalidConfigError, st.shared)
  else (.ok ⟨st.cur.sections, resolveSettings st.shared st.cur.settings⟩, st.shared)

/-- A session of runs: what each of them uses. -/
def session : Shared → List Run → List (Except PyErr Effective)
  | _, [] => []
  | sh, r :: rs => (parseOutputs sh r).1 :: session (parseOutputs sh r).2 rs

/-! ## Files -/

/-- 105-122 `known_output_files` -/
def knownFiles : List Str :=
  [str "DEM_sample.zip", str "DEM_stats.csv", str "CMP_sample.zip", str "CMP_stats.csv", str "DMG_sample.zip",
   str "DMG_stats.csv", str "DMG_grp.zip", str "DMG_grp_stats.csv", str "DV_repair_sample.zip",
   str "DV_repair_stats.csv", str "DV_repair_grp.zip", str "DV_repair_grp_stats.csv", str "DV_repair_agg.zip",
   str "DV_repair_agg_stats.csv", str "DL_summary.csv", str "DL_summary_stats.csv"]

/-- A directory: the names of its files and the run that wrote each. -/
abbrev Files := Dict Str Nat

/-- `_parse_requested_output_file_names` 1135-1154 -/
def requested (e : Effective) (sec name : Str) : Bool :=
  match e.sections.get? sec with
  | none => false
  | some s => s.get? name == some true

/-- The files of each kind of output: 1182-1205, 1243-1266, 1311-1407, 1456-1533. -/
def outputTable : List (Str × Str × Str) :=
  [(str "Demand", str "Sample", str "DEM_sample.zip"), (str "Demand", str "Statistics", str "DEM_stats.csv"),
   (str "Asset", str "Sample", str "CMP_sample.zip"), (str "Asset", str "Statistics", str "CMP_stats.csv"),
   (str "Damage", str "Sample", str "DMG_sample.zip"), (str "Damage", str "Statistics", str "DMG_stats.csv"),
   (str "Damage", str "GroupedSample", str "DMG_grp.zip"), (str "Damage", str "GroupedStatistics", str "DMG_grp_stats.csv"),
   (str "Loss", str "Sample", str "DV_repair_sample.zip"), (str "Loss", str "Statistics", str "DV_repair_stats.csv"),
   (str "Loss", str "GroupedSample", str "DV_repair_grp.zip"), (str "Loss", str "GroupedStatistics", str "DV_repair_grp_stats.csv"),
   (str "Loss", str "AggregateSample", str "DV_repair_agg.zip"), (str "Loss", str "AggregateStatistics", str "DV_repair_agg_stats.csv")]

/-- 426-486: the list of written files. -/
def outFiles (e : Effective) : List Str :=
  ((outputTable.filter fun t => requested e t.1 t.2.1).map fun t => t.2.2) ++ [str "DL_summary.csv", str "DL_summary_stats.csv"]

/-- 1034: `filename[:-3] + 'json'` -/
def jsonName (f : Str) : Str := f.dropLast.dropLast.dropLast ++ str "json"

/-- `'DL_summary' in filename` (the names are those of the list above) -/
def isSummary (f : Str) : Bool := (str "DL_summary").isPrefixOf f

/-- A flag of the section `Format`. -/
def formatFlag (e : Effective) (name : Str) : Bool := requested e (str "Format") name

/-- 1536-1571 `_remove_existing_files` -/
def removeKnown (fs : Files) : Files := fs.filter fun f => f.1 ∉ knownFiles

/-- Files are written (or overwritten). -/
def writeAll (n : Nat) (names : List Str) (fs : Files) : Files := names.foldl (fun fs f => fs.set f n) fs

/-- 320, 426-490: the files after a run that is completed.  `n` is the number of the run. -/
def runFiles (n : Nat) (e : Effective) (fs : Files) : Files :=
  let fs1 := writeAll n (outFiles e) (removeKnown fs)
  let fs2 := if formatFlag e (str "JSON") then writeAll n ((outFiles e).map jsonName) fs1 else fs1
  if formatFlag e (str "CSV") then fs2 else fs2.filter fun f => !(decide (f.1 ∈ outFiles e) && !isSummary f.1)

/-- `run_pelicun`: a run that fails while parsing and one that needs no simulation leave the folder as
it is (apart from the component file `CMP_QNT.csv`, which is not a result). -/
def runPelicun (n : Nat) (r : Run) (sh : Shared) (fs : Files) : Shared × Files :=
  if r.auto && r.skip then (sh, fs)
  else
    match (parseOutputs sh r).1 with
    | .error _ => ((parseOutputs sh r).2, fs)
    | .ok e => ((parseOutputs sh r).2, runFiles n e fs)

end Verif.ToolOut
