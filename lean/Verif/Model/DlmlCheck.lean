import Verif.Model.PyStr

/-!
# The check for new versions of the model library

pelicun/tools/dlml.py `validate_commit_sha` (118-137), `check_dlml_version` (259-380), `_resolve_version_to_commit_sha`
(383-513) and the entries for the version in the cache of `download_data_files` (548-706).

The files of the library are in `Dlml`.  The cache is a dictionary in a file; here it has the entries for the commit,
the version and the last check.  Downloads that are refused or interrupted leave these entries as they are.
-/

namespace Verif.DlmlCheck

/-- 118-137: `latest` or seven hexadecimal digits (`$` also matches before a line feed at the end). -/
def validSha (s : Str) : Bool :=
  decide (s = str "latest") ||
    ((s.length = 7 || (s.length = 8 && s.getLast? = some '\n')) && (s.take 7).all fun c =>
      ('0' ≤ c && c ≤ '9') || ('a' ≤ c && c ≤ 'f') || ('A' ≤ c && c ≤ 'F'))

/-- The result of a check, without its time. -/
structure Result where
  update : Bool
  current : Option Str
  latest : Option Str
  failed : Bool
  deriving DecidableEq, Repr

/-- The cache: the commit and the version of the last download, and time and result of the last check.  Times
are in seconds; texts that are no times are not modelled. -/
structure Cache where
  commit : Option Str
  version : Option Str
  check : Option (Int × Result)
  deriving DecidableEq, Repr

def Cache.empty : Cache := ⟨none, none, none⟩

def day : Int := 86400

/-- 341-348: the comparison of versions; `parse` is `version.parse` without a leading `v` (all leading letters `v` are
removed), which may fail. -/
def newer {V : Type} [LT V] [DecidableLT V] (parse : Str → Option V) (current latest : Str) : Bool :=
  match parse (current.dropWhile (· = 'v')), parse (latest.dropWhile (· = 'v')) with
  | some a, some b => decide (a < b)
  | _, _ => decide (current ≠ latest)

/-- Python takes an empty text for false. -/
def truthy (s : Option Str) : Option Str := s.filter fun x => decide (x ≠ [])

/-- 302-363: a check that asks the server.  `answer` is nothing if the request fails, otherwise the tag of the latest
release, if it has one. -/
def ask {V : Type} [LT V] [DecidableLT V] (parse : Str → Option V) (version : Option Str) (answer : Option (Option Str)) : Result :=
  match answer with
  | none => ⟨false, truthy version, none, true⟩
  | some tag =>
    match truthy tag with
    | none => ⟨false, truthy version, none, false⟩
    | some l =>
      match truthy version with
      | none => ⟨true, none, some l, false⟩
      | some v => ⟨if (str "commit-").isPrefixOf v then true else newer parse v l, some v, some l, false⟩

/-- 259-380 `check_dlml_version` -/
def check {V : Type} [LT V] [DecidableLT V] (parse : Str → Option V) (now : Int) (answer : Option (Option Str)) (c : Cache) : Result × Cache :=
  match c.check with
  | some (t, r) =>
    if now - t < day then (r, c)
    else (ask parse c.version answer, { c with check := some (now, ask parse c.version answer) })
  | none => (ask parse c.version answer, { c with check := some (now, ask parse c.version answer) })

/-- What is asked for: a release (`latest` is the latest one), or a commit (`latest` is the newest one). -/
inductive Request where
  | version (v : Str)
  | commit (s : Str)
  deriving DecidableEq, Repr

/-- The repository: the commit of each release, the latest release, and the newest commit. -/
structure Remote where
  sha : Str → Option Str
  latest : Option Str
  head : Option Str

/-- 383-513 `_resolve_version_to_commit_sha`: the commit, and the version that is written to the cache.  The server answers
all requests, and tags point to commits. -/
def resolve (r : Remote) : Request → Except PyErr (Str × Str)
  | .commit s =>
    if s = str "latest" then
      match r.head with
      | none => .error .runtimeError
      | some h => .ok (h, str "commit-" ++ h.take 7)
    else if validSha s then .ok (s, str "commit-" ++ s.take 7) else .error .runtimeError
  | .version v =>
    if v = str "latest" then
      match r.latest with
      | none => .error .runtimeError
      | some tag =>
        match r.sha tag with
        | none => .error .runtimeError
        | some h => .ok (h, tag)
    else
      match r.sha v with
      | none => .error .runtimeError
      | some h => .ok (h, v)

/-- 548-706 `download_data_files`, the entries of the cache. -/
def download (r : Remote) (useCache : Bool) (q : Request) (c : Cache) : Except PyErr Cache :=
  match resolve r q with
  | .error e => .error e
  | .ok (h, name) =>
    if useCache then
      if c.commit = some h then .ok c else .ok ⟨some h, some name, none⟩
    else .ok c

/-- What can happen: a check, or a download that succeeds or is refused. -/
inductive Event where
  | check (now : Int) (answer : Option (Option Str))
  | download (r : Remote) (useCache : Bool) (q : Request)

/-- The cache after an event. -/
def step {V : Type} [LT V] [DecidableLT V] (parse : Str → Option V) (c : Cache) : Event → Cache
  | .check now answer => (check parse now answer c).2
  | .download r useCache q =>
    match download r useCache q c with
    | .error _ => c
    | .ok c' => c'

/-- The cache after a history. -/
def run {V : Type} [LT V] [DecidableLT V] (parse : Str → Option V) (es : List Event) : Cache := es.foldl (step parse) Cache.empty

end Verif.DlmlCheck
