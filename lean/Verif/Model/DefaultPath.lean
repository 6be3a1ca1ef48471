import Verif.Model.PyStr
import Verif.Model.LossParams

/-!
# Paths to the built-in model library

pelicun/file_io.py `substitute_default_path` (265-398) and `legacy_names` (83-96); the methods known to the package are in
pelicun/resources/dlml_resource_paths.json.  The folder of the package itself is left out: a path into the library is the
folder of the method and the name of the file.  Entries that are tables are passed on (367, 396) and are not modelled.
Log messages are not modelled.
-/

namespace Verif.DefaultPath

open LossParams (hasInfix)

/-- pelicun/resources/dlml_resource_paths.json -/
def resourcePaths : Dict Str Str :=
  [(str "FEMA P-58", str "seismic/building/component/FEMA P-58 2nd Edition/"),
   (str "Hazus Earthquake - Buildings", str "seismic/building/portfolio/Hazus v6.1/"),
   (str "Hazus Earthquake - Stories", str "seismic/building/subassembly/Hazus v5.1/"),
   (str "Hazus Earthquake - Transportation", str "seismic/transportation_network/portfolio/Hazus v5.1/"),
   (str "Hazus Earthquake - Potable Water", str "seismic/water_network/portfolio/Hazus v6.1/"),
   (str "Hazus Earthquake - Electric Power", str "seismic/power_network/portfolio/Hazus v5.1/"),
   (str "Hazus Hurricane", str "hurricane/building/portfolio/Hazus v5.1 coupled/"),
   (str "Hazus Hurricane Wind", str "hurricane/building/portfolio/Hazus v5.1 coupled/"),
   (str "Hazus Hurricane Wind - Buildings", str "hurricane/building/portfolio/Hazus v5.1 coupled/"),
   (str "Hazus Hurricane Wind - Buildings - Coupled", str "hurricane/building/portfolio/Hazus v5.1 coupled/"),
   (str "Hazus Hurricane Wind - Buildings - Original", str "hurricane/building/portfolio/Hazus v5.1 original/"),
   (str "Hazus Hurricane Storm Surge - Buildings", str "flood/building/portfolio/Hazus v6.1/"),
   (str "SimCenter Wind Component Library", str "hurricane/building/component/SimCenter Wind Component Library/")]

/-- file_io.py 83-96 -/
def legacyNames : Dict Str Str :=
  [(str "damage_DB_FEMA_P58_2nd", str "FEMA P-58"),
   (str "damage_DB_Hazus_EQ_bldg", str "Hazus Earthquake - Buildings"),
   (str "damage_DB_Hazus_EQ_story", str "Hazus Earthquake - Stories"),
   (str "damage_DB_Hazus_EQ_trnsp", str "Hazus Earthquake - Transportation"),
   (str "damage_DB_Hazus_EQ_water", str "Hazus Earthquake - Water"),
   (str "damage_DB_Hazus_EQ_power", str "Hazus Earthquake - Power"),
   (str "damage_DB_SimCenter_Hazus_HU_bldg", str "Hazus Hurricane Wind"),
   (str "loss_repair_DB_FEMA_P58_2nd", str "FEMA P-58"),
   (str "loss_repair_DB_Hazus_EQ_bldg", str "Hazus Earthquake - Buildings"),
   (str "loss_repair_DB_Hazus_EQ_story", str "Hazus Earthquake - Stories"),
   (str "loss_repair_DB_Hazus_EQ_trnsp", str "Hazus Earthquake - Transportation"),
   (str "loss_repair_DB_SimCenter_Hazus_HU_bldg", str "Hazus Hurricane Wind")]

/-- A path after the substitution: as it was, or a file in a folder of the library. -/
inductive Resolved where
  | asIs (path : Str)
  | library (folder file : Str)
  deriving DecidableEq

/-- `Path(s).parts` (without the root): empty parts and `.` are dropped. -/
def pathParts (s : Str) : List Str := (splitChar '/' s).filter fun p => decide (p ≠ [] ∧ p ≠ str ".")

/-- 345-347: the prefixes of the legacy names. -/
def legacyPrefixes : List Str := [str "fragility_DB", str "damage_DB", str "bldg_repair_DB", str "loss_repair_DB"]

/-- 364-367 -/
def dataType (file : Str) : Str :=
  if (str "fragility").isPrefixOf file || (str "damage").isPrefixOf file then str "fragility" else str "consequence_repair"

/-- 341-376: method and file name of a path that names only a file. -/
def legacyTarget (file : Str) : Except PyErr (Str × Str) :=
  if legacyPrefixes.any fun p => p.isPrefixOf file then
    match legacyNames.get? ((splitChar '.' file).headD []) with
    | none => .error .keyError
    | some m => .ok (m, dataType file ++ '.' :: (splitChar '.' file).getLastD [])
  else .error .keyError

/-- 379-382 -/
def lookupMethod (t : Str × Str) : Except PyErr Resolved :=
  match resourcePaths.get? t.1 with
  | none => .error .keyError
  | some folder => .ok (.library folder t.2)

/-- 333-395, one path; `parts` in reverse order. -/
def substituteParts : List Str → Except PyErr Resolved
  | file :: method :: _ =>
    if method = str "PelicunDefault" then
      match legacyTarget file with
      | .error e => .error e
      | .ok t => lookupMethod t
    else lookupMethod (method, file)
  | _ => .error .indexError

/-- 331-398, one path -/
def substituteOne (path : Str) : Except PyErr Resolved :=
  if hasInfix (str "PelicunDefault/") path then substituteParts (pathParts path).reverse else .ok (.asIs path)

/-- 265-398 `substitute_default_path` -/
def substitute (paths : List Str) : Except PyErr (List Resolved) := mapE substituteOne paths

end Verif.DefaultPath
