import Verif.Model.DefaultPath

/-!
# Data of the built-in models

pelicun/assessment.py `get_default_data` (171-218) and `get_default_metadata` (220-262).
-/

namespace Verif.DefaultData

open Verif.DefaultPath

/-- How files are read: tables (`load_data`, see C113) and JSON files, in a folder of the model library and elsewhere. -/
structure Files (τ μ : Type) where
  table : Str → Str → Except PyErr τ
  json : Str → Str → Except PyErr μ
  tableElsewhere : Str → Except PyErr τ
  jsonElsewhere : Str → Except PyErr μ

/-- 197-208, 243-254: the name that is looked up. -/
def defaultName (method : Str) (type : Option Str) (ext : Str) : Str :=
  match type with
  | none => str "PelicunDefault/" ++ method ++ ext
  | some t => str "PelicunDefault/" ++ method ++ '/' :: t ++ ext

/-- 200-208, 246-254: `substitute_default_path([...])[0]`. -/
def lookup (name : Str) : Except PyErr Resolved :=
  match substitute [name] with
  | .error e => .error e
  | .ok (x :: _) => .ok x
  | .ok [] => .error .indexError

variable {τ μ : Type}

/-- 171-218 `get_default_data` -/
def getDefaultData (F : Files τ μ) (method : Str) (type : Option Str) : Except PyErr τ :=
  match lookup (defaultName method type (str ".csv")) with
  | .error e => .error e
  | .ok (.library folder file) => F.table folder file
  | .ok (.asIs path) => F.tableElsewhere path

/-- 220-262 `get_default_metadata` -/
def getDefaultMetadata (F : Files τ μ) (method : Str) (type : Option Str) : Except PyErr μ :=
  match lookup (defaultName method type (str ".json")) with
  | .error e => .error e
  | .ok (.library folder file) => F.json folder file
  | .ok (.asIs path) => F.jsonElsewhere path

end Verif.DefaultData
