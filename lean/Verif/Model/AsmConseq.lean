import Verif.Model.AsmLoss
import Verif.Model.AsmDamage

/-!
# Consequences of an assessment

pelicun/assessment.py `DLCalculationAssessment.load_consequence_info` (1469-1581), `get_default_data` (171-219),
`_loss__map_user` (1946-1979) and the part of `calculate_loss` (1341-1426) that gives the loss model its map and its
parameters.  What is in the files is given by parameters.  Log messages are not modelled.
-/

namespace Verif.AsmConseq

open DmgParams (Cell Row)
open LossParams (LossMap Key Source Params hasInfix)
open AsmLoss (Table Repl)
open AsmDamage (endsCsv customPath)

/-- The files: those of the library (`none` if there is no such file), tables of the user, and maps of the user. -/
structure Files where
  library : Str → Str → Option Source
  user : Str → Except PyErr Source
  maps : Str → Except PyErr LossMap

/-- `file_io.substitute_default_path([path])[0]` and `Path(..).is_file()`, 1508-1523, 1537-1542 -/
def libraryFile (files : Files) (path : Str) : Except PyErr (Option Source) :=
  match DefaultPath.substituteOne path with
  | .error e => .error e
  | .ok (.library folder file) => .ok (files.library folder file)
  | .ok (.asIs _) => .ok none

/-- `f'PelicunDefault/{method_name}/{model_type}.csv'` -/
def typePath (m type : Str) : Str := str "PelicunDefault/" ++ m ++ '/' :: type ++ str ".csv"

/-- 1508-1518: the path that stands for a method. -/
def methodPath (m : Str) : Str :=
  if endsCsv m then str "PelicunDefault/" ++ m else typePath m (str "consequence_repair")

/-- 171-219 `get_default_data`; a file that is not there cannot be read. -/
def defaultData (files : Files) (m type : Str) : Except PyErr Source :=
  match libraryFile files (typePath m type) with
  | .error e => .error e
  | .ok none => .error .fileNotFoundError
  | .ok (some s) => .ok s

/-- 1535-1551: the loss functions of a method. -/
def lossFunctions (files : Files) (m : Str) : Except PyErr (Option (Source × Source)) :=
  match libraryFile files (typePath m (str "loss_repair")) with
  | .error e => .error e
  | .ok none => .ok none
  | .ok (some s) =>
    match defaultData files m (str "loss_repair") with
    | .error e => .error e
    | .ok t => .ok (some (s, t))

/-- 1505-1551, one method: the file that is added to the list of databases, and the table that is added to the
consequences. -/
def methodSource (files : Files) (m : Str) : Except PyErr (Option (Source × Source)) :=
  match libraryFile files (methodPath m) with
  | .error e => .error e
  | .ok none => lossFunctions files m
  | .ok (some s) =>
    match defaultData files m (str "consequence_repair") with
    | .error e => .error e
    | .ok t => .ok (some (s, t))

/-- 1500-1551: the databases by name, in order. -/
def namedSources (files : Files) (db : Option Str) : Except PyErr (List (Source × Source)) :=
  match db with
  | none => .ok []
  | some s =>
    match mapE (methodSource files) (((splitChar ',' s).map (strip isSpace)).filter fun m => decide (m ≠ str "None")) with
    | .error e => .error e
    | .ok l => .ok (l.filterMap id)

/-- 1553-1577: the file of the user; the path is the same for the list of databases and for the consequences. -/
def customSource (files : Files) (path dir : Option Str) : Except PyErr (List (Source × Source)) :=
  match customPath path dir with
  | .error e => .error e
  | .ok none => .ok []
  | .ok (some p) =>
    match files.user p with
    | .error e => .error e
    | .ok s => .ok [(s, s)]

/-- 1469-1581 `load_consequence_info`: the consequences, one table after the other, and the databases, the last one
first. -/
def loadInfo (files : Files) (db path dir : Option Str) : Except PyErr (List Source × List Source) :=
  match namedSources files db with
  | .error e => .error e
  | .ok named =>
    match customSource files path dir with
    | .error e => .error e
    | .ok custom => .ok ((named ++ custom).map (·.2), ((named ++ custom).map (·.1)).reverse)

/-- 1348: `conseq_df.loc[conseq_df.index.unique(), :]`: every row whose name is one of the names, in the order of the
names. -/
def regroup (t : Table) : Table :=
  (FileIO.uniqueVals [] (t.map (·.1))).flatMap fun k => t.filter fun r => decide (r.1 = k)

/-- The arguments of `calculate_loss` used here.  `decision_variables` are those of the loss model when the parameters
are loaded. -/
structure Args where
  database : Option Str
  path : Option Str
  dir : Option Str
  approach : Str
  occupancy : Option Str
  cost : Repl
  time : Repl
  carbon : Repl
  energy : Repl
  mapApproach : Str
  mapPath : Option Str
  dvs : List Str

/-- The arguments of the functions that make the replacement consequences; `f'{None}'` is `None`. -/
def replConfig (a : Args) : AsmLoss.Config :=
  ⟨a.approach, a.occupancy.getD (str "None"), a.cost, a.time, a.carbon, a.energy⟩

/-- 1946-1979 `_loss__map_user` -/
def userMap (files : Files) (dir : Str) (path : Option Str) : Except PyErr LossMap :=
  match path with
  | none => .error .valueError
  | some p => files.maps (AsmProcess.replaceAll (str "CustomDLDataFolder") dir p)

/-- 1403-1416: the map by the chosen approach. -/
def chosenMap (files : Files) (a : Args) (conseq : Table) (cmps : List Str) : Except PyErr LossMap :=
  if a.mapApproach = str "Automatic" then
    .ok (AsmLoss.autoMap a.approach a.occupancy (conseq.map fun r => r.1.1) cmps)
  else if a.mapApproach = str "User Defined" then
    match a.dir with
    | none => .error .assertionError
    | some d => userMap files d a.mapPath
  else .error .valueError

/-- 1350-1401 as a table with columns: those of the consequences and those that are set. -/
def addedSource (tables : List Source) (t : Table) : Source :=
  ⟨tables.flatMap (·.cols) ++ [AsmLoss.cQuantityUnit, AsmLoss.cDvUnit, AsmLoss.cTheta0], t⟩

/-- 1341-1426: the loss map, the parameters of the loss model and the consequences that are missing.  An assessment
without any table of consequences is not modelled. -/
def lossParams (files : Files) (a : Args) (cmps : List Str) : Except PyErr (LossMap × Params × List Key) :=
  match loadInfo files a.database a.path a.dir with
  | .error e => .error e
  | .ok ([], _) => .error .notImplementedError
  | .ok (t :: ts, db) =>
    match AsmLoss.replacementTable (regroup ((t :: ts).flatMap (·.rows))) (replConfig a) with
    | .error e => .error e
    | .ok adf =>
      match chosenMap files a (regroup ((t :: ts).flatMap (·.rows))) cmps with
      | .error e => .error e
      | .ok m0 =>
        match AsmLoss.finalMap m0 with
        | .error e => .error e
        | .ok m =>
          match LossParams.loadParams (db ++ [addedSource (t :: ts) adf]) m a.dvs with
          | .error e => .error e
          | .ok (p, missing) => .ok (m, p, missing)

end Verif.AsmConseq
