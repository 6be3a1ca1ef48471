import Verif.Model.DefaultPath
import Verif.Model.DmgParams
import Verif.Model.AsmDemand
import Verif.Model.AsmProcess
import Verif.Model.DemandReq

/-!
# Damage parameters of an assessment

pelicun/assessment.py `DLCalculationAssessment.calculate_damage` (972-1165): the sources of the damage parameters and the
fragilities that are added for collapse, irreparable damage and water networks.  What is in the files is given by
parameters.
-/

namespace Verif.AsmDamage

open DmgParams (Cell Row Source loadParams)
open DefaultPath (Resolved)
open LossParams (hasInfix)

/-- The files: those of the library (`none` if there is no such file) and those of the user. -/
structure Files where
  library : Str → Str → Option Source
  user : Str → Except PyErr Source

/-- `method_name.endswith(('csv', 'CSV'))`, 983 -/
def endsCsv (s : Str) : Bool := (str "csv").isSuffixOf s || (str "CSV").isSuffixOf s

/-- 983-991: the path that stands for a method. -/
def methodPath (m : Str) : Str :=
  if endsCsv m then str "PelicunDefault/" ++ m else str "PelicunDefault/" ++ m ++ str "/fragility.csv"

/-- 983-994: the parameters of a method; nothing if the file does not exist. -/
def methodSource (files : Files) (m : Str) : Except PyErr (Option Source) :=
  match DefaultPath.substituteOne (methodPath m) with
  | .error e => .error e
  | .ok (.library folder file) => .ok (files.library folder file)
  | .ok (.asIs _) => .ok none

/-- 973-994: the databases by name, in order. -/
def namedSources (files : Files) (db : Option Str) : Except PyErr (List Source) :=
  match db with
  | none => .ok []
  | some s =>
    match mapE (methodSource files) (((splitChar ',' s).map (strip isSpace)).filter fun m => decide (m ≠ str "None")) with
    | .error e => .error e
    | .ok l => .ok (l.filterMap id)

/-- 996-1009: the path given by the user. -/
def customPath (path : Option Str) (dir : Option Str) : Except PyErr (Option Str) :=
  match path with
  | none => .ok none
  | some p =>
    if hasInfix (str "CustomDLDataFolder") p then
      match dir with
      | none => .error .valueError
      | some d => .ok (some (AsmProcess.replaceAll (str "CustomDLDataFolder") d p))
    else .ok (some p)

/-- A row with the given cells. -/
def rowOf (cells : Dict (Str × Str) Cell) : Row := fun c => cells.get? c

def cDir : Str × Str := (str "Demand", str "Directional")
def cOff : Str × Str := (str "Demand", str "Offset")
def cType : Str × Str := (str "Demand", str "Type")
def cUnit : Str × Str := (str "Demand", str "Unit")
def cFam (ls : Str) : Str × Str := (ls, str "Family")
def cT0 (ls : Str) : Str × Str := (ls, str "Theta_0")
def cT1 (ls : Str) : Str × Str := (ls, str "Theta_1")
def cInc : Str × Str := (str "Incomplete", [])

/-- 1097-1102, 1108-1113, 1137-1142: a fragility that does not depend on any demand. -/
def placeholder : Row :=
  rowOf [(cDir, .num 1), (cOff, .num 0), (cType, .text (str "One")), (cUnit, .text (str "unitless")),
    (cT0 (str "LS1"), .num (10 ^ 10)), (cInc, .num 0)]

/-- 1150-1156 -/
def aggregateRow : Row :=
  rowOf [(cDir, .num 1), (cOff, .num 0), (cType, .text (str "Peak Ground Velocity")), (cUnit, .text (str "mps")),
    (cT0 (str "LS1"), .num (10 ^ 10)), (cT0 (str "LS2"), .num (10 ^ 10)), (cInc, .num 0)]

/-- 1038-1041: acronym and further specification of the demand; more than one underscore cannot be unpacked. -/
def splitDemand (d : Str) : Except PyErr (Str × Option Str) :=
  if hasChar '_' d then
    match splitChar '_' d with
    | [a, b] => .ok (a, some b)
    | _ => .error .valueError
  else .ok (d, none)

/-- 1043-1047: the first demand with that acronym. -/
def demandName (acronym : Str) : Option Str :=
  (DemandReq.edpToDemandType.find? fun e => decide (e.2 = acronym)).map Prod.fst

/-- 1061-1067 -/
def typeCell (name : Str) : Option Str → Str
  | none => name
  | some spec => name ++ '|' :: spec

/-- `collapse_fragility['DemandType']` (1036); a number has no `in`. -/
def demandText (cfg : Dict Str Cell) : Except PyErr Str :=
  match cfg.getE (str "DemandType") with
  | .error e => .error e
  | .ok (.num _) => .error .typeError
  | .ok (.text s) => .ok s

/-- 1082-1090: the three capacity parameters. -/
def capacityCells (cfg : Dict Str Cell) : Except PyErr (Cell × Cell × Cell) :=
  match cfg.getE (str "CapacityDistribution") with
  | .error e => .error e
  | .ok fam =>
    match cfg.getE (str "CapacityMedian") with
    | .error e => .error e
    | .ok med =>
      match cfg.getE (str "Theta_1") with
      | .error e => .error e
      | .ok t1 => .ok (fam, med, t1)

/-- 1072-1081: the unit of the demand, missing for the demands without one. -/
def unitCell (lengthUnit acronym : Str) : Dict (Str × Str) Cell :=
  match AsmDemand.unitOf (AsmDemand.fixInch lengthUnit) acronym with
  | some u => [(cUnit, .text u)]
  | none => []

/-- 1033-1091: the collapse fragility of the configuration. -/
def collapseRow (lengthUnit : Option Str) (cfg : Dict Str Cell) : Except PyErr Row :=
  match demandText cfg with
  | .error e => .error e
  | .ok d =>
    match splitDemand d with
    | .error e => .error e
    | .ok (acronym, spec) =>
      match demandName acronym with
      | none => .error .valueError
      | some name =>
        match lengthUnit with
        | none => .error .valueError
        | some u =>
          match capacityCells cfg with
          | .error e => .error e
          | .ok (fam, med, t1) =>
            .ok (rowOf ([(cDir, .num 1), (cOff, .num 0), (cType, .text (typeCell name spec))] ++ unitCell u acronym ++
              [(cFam (str "LS1"), fam), (cT0 (str "LS1"), med), (cT1 (str "LS1"), t1), (cInc, .num 0)]))

/-- 1020-1113: the rows for collapse.  `story` tells whether the asset has the component that collects excessive demands
at the stories.  An empty configuration counts as none. -/
def collapseRows (lengthUnit : Option Str) (cfg : Dict Str Cell) (story water : Bool) : Except PyErr (List (Str × Row)) :=
  if cfg = [] then .ok (if water then [] else [(str "collapse", placeholder)])
  else match collapseRow lengthUnit cfg with
    | .error e => .error e
    | .ok row => .ok (if story then [(str "excessive.coll.DEM", row), (str "collapse", placeholder)] else [(str "collapse", row)])

/-- 1115-1142: the rows for irreparable damage. -/
def irreparableRows (cfg : Dict Str Cell) : Except PyErr (List (Str × Row)) :=
  if cfg = [] then .ok []
  else match cfg.getE (str "DriftCapacityMedian") with
    | .error e => .error e
    | .ok med =>
      match cfg.getE (str "DriftCapacityLogStd") with
      | .error e => .error e
      | .ok sd =>
        .ok [(str "excessiveRID", rowOf [(cDir, .num 1), (cOff, .num 0), (cType, .text (str "Residual Interstory Drift Ratio")),
            (cUnit, .text (str "unitless")), (cT0 (str "LS1"), med), (cFam (str "LS1"), .text (str "lognormal")),
            (cT1 (str "LS1"), sd), (cInc, .num 0)]),
          (str "irreparable", placeholder)]

/-- The arguments. -/
structure Args where
  lengthUnit : Option Str
  database : Option Str
  path : Option Str
  dir : Option Str
  collapse : Dict Str Cell
  irreparable : Dict Str Cell
  water : Bool

/-- 1016-1156: the added fragilities, a table with the columns of the FEMA P-58 database. -/
def addedSource (header : List (Str × Str)) (args : Args) (cmps : List Str) : Except PyErr Source :=
  match collapseRows args.lengthUnit args.collapse (decide (str "excessive.coll.DEM" ∈ cmps)) args.water with
  | .error e => .error e
  | .ok a =>
    match irreparableRows args.irreparable with
    | .error e => .error e
    | .ok b => .ok ⟨header, a ++ b ++ if args.water then [(str "aggregate", aggregateRow)] else []⟩

/-- 996-1009 and the file that is read later -/
def customSource (files : Files) (args : Args) : Except PyErr (List Source) :=
  match customPath args.path args.dir with
  | .error e => .error e
  | .ok none => .ok []
  | .ok (some p) =>
    match files.user p with
    | .error e => .error e
    | .ok s => .ok [s]

/-- 972-1161: the damage parameters of the components `cmps` of the asset, and those without parameters. -/
def damageParams (header : List (Str × Str)) (files : Files) (args : Args) (cmps : List Str) :
    Except PyErr (Option (List (Str × Row)) × List Str) :=
  match namedSources files args.database with
  | .error e => .error e
  | .ok named =>
    match customSource files args with
    | .error e => .error e
    | .ok custom =>
      match addedSource header args cmps with
      | .error e => .error e
      | .ok added => loadParams ((named ++ custom).reverse ++ [added]) cmps

end Verif.AsmDamage
