import Verif.Model.Dlml
import Verif.Model.DlmlCheck

/-!
# Which commit an update of the model library is made to, and which files it writes

pelicun/cli.py `main` (186-202, the subcommand `dlml`), pelicun/tools/dlml.py `dlml_update` (817-849),
`_resolve_version_to_commit_sha` (383-513) and the list of model files in `download_data_files` (613-632, 664).

The answers of the server are parameters; a request that fails is `none`.  `DlmlCheck` has the same resolution for a
server that answers all requests.
-/

namespace Verif.DlmlTarget

open Verif.DlmlCheck (validSha Request)

/-- The answers of the server. -/
structure Api where
  /-- `/commits`: the commits, newest first -/
  commits : Option (List Str)
  /-- `/releases/tags/{tag}` and, for `none`, `/releases/latest`: `tag_name` and `target_commitish` -/
  release : Option Str → Option (Option Str × Option Str)
  /-- `/git/refs/tags/{tag}`: `sha` and `type` of the object -/
  ref : Str → Option (Option Str × Option Str)
  /-- `/git/tags/{sha}`: `sha` of the object -/
  tagObject : Str → Option (Option Str)

/-- cli.py:194-202: what the argument `target` asks for.  `args.target.split(' ', 1)[1]` -/
def request (target : Str) : Request :=
  if (str "commit ").isPrefixOf target then .commit ((splitChar1 ' ' target).2.getD []) else .version target

/-- 470-500: the commit of a tag, with the fallback. -/
def tagCommit (api : Api) (tag : Str) (fallback : Option Str) : Option Str :=
  match api.ref tag with
  | none => fallback
  | some (sha, type) =>
    if type = some (str "commit") then sha
    else if type = some (str "tag") then
      match api.tagObject (sha.getD (str "None")) with
      | none => fallback
      | some s => s
    else fallback

/-- 383-513: the commit, and the version that is written to the cache.  The errors are replaced by `RuntimeError` in `download_data_files`
(586-592). -/
def resolve (api : Api) : Request → Except PyErr (Str × Str)
  | .commit s =>
    if s ≠ str "latest" ∧ validSha s = false then .error .runtimeError
    else if s = str "latest" then
      match api.commits with
      | some (h :: _) => .ok (h, str "commit-" ++ h.take 7)
      | _ => .error .runtimeError
    else .ok (s, str "commit-" ++ s.take 7)
  | .version v =>
    let name := if v = [] then str "latest" else v
    match api.release (if name = str "latest" then none else some name) with
    | none => .error .runtimeError
    | some (tag, target) =>
      match tagCommit api (tag.getD name) target with
      | none => .error .runtimeError
      | some [] => .error .runtimeError
      | some (c :: h) => .ok (c :: h, if v ≠ str "latest" then v else tag.getD (str "latest"))

/-- `pelicun dlml update target`: cli.py:194-202, `dlml_update` (817-849) and `download_data_files` on the data folder. -/
def updateTo {P C H : Type} [DecidableEq P] [DecidableEq C] [DecidableEq H] (api : Api) (r : Dlml.Remote Str P C) (hash : C → H)
    (answers useCache : Bool) (target : Str) (d : Dlml.Disk Str P C H) : Except PyErr (Dlml.Disk Str P C H) :=
  match resolve api (request target) with
  | .error e => .error e
  | .ok (h, _) => .ok (Dlml.update r hash answers useCache h d)

/-- 621-626: the list of model files; the lines without their line feeds. -/
def fileList (lines : List Str) : List Str :=
  (lines.filter (fun l => decide (strip isSpace l ≠ []) && !(str "#").isPrefixOf l)).map (strip isSpace)

/-- `Path(folder) / text` for the components of a folder: an absolute text replaces the folder, empty components and `.` are dropped. -/
def joinPath (folder : List Str) (p : Str) : List Str :=
  let parts := (splitChar '/' p).filter (fun x => x ≠ [] && x ≠ str ".")
  if p.head? = some '/' then parts else folder ++ parts

/-- The file that the operating system opens for the components of a path. -/
def follow : List Str → List Str → List Str
  | acc, [] => acc
  | acc, p :: rest => if p = str ".." then follow acc.dropLast rest else follow (acc ++ [p]) rest

/-- 664-692: the file that is written for an entry of the list. -/
def localFile (folder : List Str) (entry : Str) : List Str := follow [] (joinPath folder entry)

end Verif.DlmlTarget
