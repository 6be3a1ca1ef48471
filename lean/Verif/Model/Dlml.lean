import Verif.Basic

/-!
# The model library: downloads, cache and import

pelicun/tools/dlml.py `_get_changed_files` (165-214), `load_cache` (217-239), `download_data_files`
(548-706) and `check_dlml_data` (741-814).

`V` are commits, `P` paths, `C` contents of files and `H` hashes.  The remote repository is a function
from commits and paths to contents, together with the list of model files of each commit.  Resolving a
version to a commit (383-513) is a parameter: requests name commits.  An error of the network during a
download raises an exception without any clean-up, so it leaves the same state as a crash at this
point.  The version check at import (259-380) only rewrites other entries of the cache file; it is in
`DlmlCheck`.
-/

namespace Verif.Dlml

/-- The remote repository: content of each file and list of model files at each commit, and for two
commits the last common one (`merge base`), which the comparison of GitHub refers to. -/
structure Remote (V P C : Type) where
  content : V → P → C
  manifest : V → List P
  base : V → V → V

/-- The cache file: commit and hashes of the files.  A cache file that is missing, cannot be read or names
no commit is `none`. -/
abbrev Cache (V P H : Type) := Option (V × (P → Option H))

/-- The data folder.  `manifest` is `model_files.txt`, as the list of its files. -/
structure Disk (V P C H : Type) where
  manifest : Option (List P)
  files : P → Option C
  cache : Cache V P H

variable {V P C H : Type} [DecidableEq V] [DecidableEq P] [DecidableEq C] [DecidableEq H]

/-- GitHub's comparison `a...b`: the files that differ between the last common commit and `b`. -/
def compare (r : Remote V P C) (a b : V) (p : P) : Bool := decide (r.content (r.base a b) p ≠ r.content b p)

/-- `_get_changed_files`, 165-214: the status is `behind` if the new commit is an ancestor of the old
one; then the comparison is made the other way round. -/
def changedFiles (r : Remote V P C) (old new : V) : P → Bool :=
  if r.base old new = new ∧ old ≠ new then compare r new old else compare r old new

/-- 675-688: whether the download of a file is skipped.  `old` are the hashes of the cache, `changed`
the reported changes (`none` if the request failed or there is no old commit). -/
def skips (hash : C → H) (useCache : Bool) (old : P → Option H) (changed : Option (P → Bool)) (files : P → Option C) (p : P) : Bool :=
  useCache && (match changed with
    | none => false
    | some ch => !ch p && (match old p with
      | none => false
      | some h => decide ((files p).map hash = some h)))

/-- Replace one value of a function. -/
def put {α : Type} (f : P → Option α) (p : P) (x : Option α) : P → Option α := fun q => if q = p then x else f q

/-- 664-698: one file; the state is the files on disk and the hashes of the new cache. -/
def step (r : Remote V P C) (hash : C → H) (v : V) (useCache : Bool) (old : P → Option H) (changed : Option (P → Bool))
    (st : (P → Option C) × (P → Option H)) (p : P) : (P → Option C) × (P → Option H) :=
  if skips hash useCache old changed st.1 p then (st.1, put st.2 p ((st.1 p).map hash))
  else (put st.1 p (some (r.content v p)), put st.2 p (some (hash (r.content v p))))

/-- The hashes of the cache, 677. -/
def oldHashes (useCache : Bool) (d : Disk V P C H) : P → Option H :=
  if useCache then (match d.cache with | some c => c.2 | none => fun _ => none) else fun _ => none

/-- 595-610: the reported changes; `answers` says whether the comparison is answered. -/
def reported (r : Remote V P C) (answers : Bool) (useCache : Bool) (d : Disk V P C H) (v : V) : Option (P → Bool) :=
  if useCache then
    (match d.cache with
      | some c => if answers then some (changedFiles r c.1 v) else none
      | none => none)
  else none

/-- 599-602: the cached commit is the requested one. -/
def upToDate (useCache : Bool) (d : Disk V P C H) (v : V) : Bool :=
  useCache && (match d.cache with | some c => decide (c.1 = v) | none => false)

/-- The state after the first `n` model files. -/
def after (r : Remote V P C) (hash : C → H) (answers useCache : Bool) (v : V) (d : Disk V P C H) (n : Nat) :
    (P → Option C) × (P → Option H) :=
  ((r.manifest v).take n).foldl (step r hash v useCache (oldHashes useCache d) (reported r answers useCache d v)) (d.files, fun _ => none)

/-- `download_data_files`, 548-706, without interruption. -/
def update (r : Remote V P C) (hash : C → H) (answers useCache : Bool) (v : V) (d : Disk V P C H) : Disk V P C H :=
  if upToDate useCache d v then d
  else
    let st := after r hash answers useCache v d (r.manifest v).length
    { manifest := some (r.manifest v), files := st.1, cache := if useCache then some (v, st.2) else d.cache }

/-- Where a download is interrupted. -/
inductive Point (P C : Type)
  /-- before anything is written -/
  | start
  /-- while the list of model files is written: only a part of it is on disk -/
  | list (l : List P)
  /-- after `n` model files; the next one, if it is downloaded, is not written or partly written -/
  | files (n : Nat) (x : Option C)
  /-- while the cache file is written -/
  | cache

/-- `download_data_files` with an interruption. -/
def interrupted (r : Remote V P C) (hash : C → H) (answers useCache : Bool) (v : V) (pt : Point P C) (d : Disk V P C H) : Disk V P C H :=
  if upToDate useCache d v then d
  else match pt with
    | .start => d
    | .list l => { d with manifest := some l }
    | .files n x =>
      let st := after r hash answers useCache v d n
      match (r.manifest v)[n]? with
      | none => { d with manifest := some (r.manifest v), files := st.1 }
      | some p =>
        if skips hash useCache (oldHashes useCache d) (reported r answers useCache d v) st.1 p then
          { d with manifest := some (r.manifest v), files := st.1 }
        else { d with manifest := some (r.manifest v), files := (match x with | none => st.1 | some c => put st.1 p (some c)) }
    | .cache =>
      let st := after r hash answers useCache v d (r.manifest v).length
      { manifest := some (r.manifest v), files := st.1, cache := if useCache then none else d.cache }

/-- `check_dlml_data`, 763-790: at import, the latest version is downloaded if the list of model files does
not exist; otherwise the data are used as they are. -/
def importData (r : Remote V P C) (hash : C → H) (answers : Bool) (latest : V) (d : Disk V P C H) : Disk V P C H :=
  match d.manifest with
  | none => update r hash answers true latest d
  | some _ => d

/-- What can happen to the data folder. -/
inductive Event (V P C : Type)
  | update (answers useCache : Bool) (v : V)
  | interrupted (answers useCache : Bool) (v : V) (pt : Point P C)
  | importData (answers : Bool) (latest : V)
  /-- a file is changed or deleted locally -/
  | alter (p : P) (x : Option C)
  /-- the cache file is deleted or damaged -/
  | loseCache

def apply (r : Remote V P C) (hash : C → H) (d : Disk V P C H) : Event V P C → Disk V P C H
  | .update answers useCache v => update r hash answers useCache v d
  | .interrupted answers useCache v pt => interrupted r hash answers useCache v pt d
  | .importData answers latest => importData r hash answers latest d
  | .alter p x => { d with files := put d.files p x }
  | .loseCache => { d with cache := none }

/-- An empty data folder. -/
def fresh : Disk V P C H := ⟨none, fun _ => none, none⟩

end Verif.Dlml
