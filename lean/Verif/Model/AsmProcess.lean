import Verif.Model.DmgTasks
import Verif.Model.LossParams

/-!
# Selection of the damage process of an assessment

Models `pelicun/assessment.py`: the built-in damage processes (59-81) and the part of
`DLCalculationAssessment.calculate_damage` that prepares the damage process (1163-1250).

The built-in processes are module-level objects that live as long as the session.  `dict.copy` is
shallow, so that the dictionaries of events are shared between the copy and the built-in process;
here a copied process maps its keys to the source names of the built-in process, which stand for
references to the shared dictionaries of events.
-/

namespace Verif.AsmProcess

open DmgTasks (Targets femaP58 hazusLifeline hazusBuildings)
open LossParams (hasInfix)

/-- A damage process: the sources and the events of each. -/
abbrev Process := Dict Str (Dict Str Targets)

/-- The built-in processes by name: the state shared by all assessments of a session. -/
abbrev Session := Dict Str Process

/-- assessment.py 59-81 -/
def builtIn : Session :=
  [(str "FEMA P-58", femaP58),
   (str "Hazus Earthquake - Lifeline Facilities", hazusLifeline),
   (str "Hazus Earthquake - Buildings", hazusBuildings),
   (str "Hazus Hurricane", [])]

/-- `s.replace(w, r)` for a word that is not empty.  `skip` counts the letters of a match that are
still to be passed over. -/
def replaceFrom (w r : Str) : Nat → Str → Str
  | _, [] => []
  | skip + 1, _ :: s => replaceFrom w r skip s
  | 0, c :: s =>
    if w.isPrefixOf (c :: s) then r ++ replaceFrom w r (w.length - 1) s
    else c :: replaceFrom w r 0 s

/-- `s.replace(w, r)` -/
def replaceAll (w r s : Str) : Str := replaceFrom w r 0 s

/-- 1180: the component types. -/
def cmpTypes : List Str := [str "STR", str "LF", str "NSA"]

/-- 1182-1185, for one type: the last component of the type, the empty text if there is none. -/
def cmpOfType (cmps : List Str) (t : Str) : Str :=
  cmps.foldl (fun acc c => if hasInfix (t ++ ['.']) c then c else acc) []

/-- 1180-1185 -/
def cmpMap (cmps : List Str) : Dict Str Str := cmpTypes.map fun t => (t, cmpOfType cmps t)

/-- 1190-1194: the new name of a source, if it has one. -/
def newSource : Dict Str Str → Str → Option Str
  | [], _ => none
  | (t, id) :: m, s =>
    if hasInfix t s && !id.isEmpty then some (replaceAll t id s) else newSource m s

/-- 1205-1210: the types in a target are replaced, one type after the other. -/
def newTarget (m : Dict Str Str) (s : Str) : Str :=
  m.foldl (fun s p => if hasInfix p.1 s && !p.2.isEmpty then replaceAll p.1 p.2 s else s) s

/-- 1203-1228 -/
def newTargets (m : Dict Str Str) : Targets → Targets
  | .one s => .one (newTarget m s)
  | .many l => .many (l.map (newTarget m))

/-- 1196-1200: the references of the copy after the source has been renamed, and the name the
source has now. -/
def rename (m : Dict Str Str) (src : Str) (refs : Dict Str Str) : Str × Dict Str Str :=
  match newSource m src with
  | some n => (n, (refs.set n src).erase src)
  | none => (src, refs)

/-- `new_dmg_process[new_source][ds_i] = new_target_vals` (1230): the shared dictionary behind the
name is changed. -/
def writeEvent (p : Process) (ref : Str) (ds : Str) (v : Targets) : Process :=
  match p.get? ref with
  | none => p
  | some events => p.set ref (events.set ds v)

/-- 1202-1230: the events of one source. -/
def rewriteEvents (m : Dict Str Str) (refs : Dict Str Str) (name : Str) (action : Dict Str Targets) (p : Process) : Except PyErr Process :=
  match action with
  | [] => .ok p
  | (ds, v) :: rest =>
    match refs.get? name with
    | none => .error .keyError
    | some ref => rewriteEvents m refs name rest (writeEvent p ref ds (newTargets m v))

/-- 1188-1230: the loop over the sources of the built-in process.  The state is the built-in
process and the copy.  An exception leaves the built-in process as it is at that moment. -/
def rewriteLoop (m : Dict Str Str) : List Str → Process → Dict Str Str → Except PyErr (Dict Str Str) × Process
  | [], p, refs => (.ok refs, p)
  | src :: rest, p, refs =>
    let r := rename m src refs
    match p.get? src with
    | none => (.error .keyError, p)
    | some action =>
      match rewriteEvents m r.2 r.1 action p with
      | .error e => (.error e, p)
      | .ok p' => rewriteLoop m rest p' r.2

/-- The process that the references stand for. -/
def resolve (p : Process) (refs : Dict Str Str) : Process :=
  refs.filterMap fun kr => (p.get? kr.2).map fun ev => (kr.1, ev)

/-- 1234-1242: the tasks whose source component is part of the asset. -/
def filterProcess (cmps : List Str) : Process → Except PyErr Process
  | [] => .ok []
  | (k, ev) :: rest =>
    match splitChar '_' k with
    | _ :: c :: _ =>
      match filterProcess cmps rest with
      | .error e => .error e
      | .ok l => .ok (if c ∈ cmps then (k, ev) :: l else l)
    | _ => .error .indexError

/-- What an assessment asks for: the name of the approach, the components of its asset and the
process in the file of the user, if there is one. -/
structure Request where
  approach : Str
  cmps : List Str
  file : Option Process

/-- 1170-1174 -/
def isHazusEarthquake (a : Str) : Bool :=
  a == str "Hazus Earthquake" || a == str "Hazus Earthquake - Buildings"
    || a == str "Hazus Earthquake - Lifeline Facilities"

/-- 1170-1242: a built-in process. -/
def prepare (p : Process) (q : Request) : Except PyErr (Option Process) × Process :=
  if isHazusEarthquake q.approach then
    match rewriteLoop (cmpMap q.cmps) p.keys p (p.keys.map fun k => (k, k)) with
    | (.error e, p') => (.error e, p')
    | (.ok refs, p') =>
      match filterProcess q.cmps (resolve p' refs) with
      | .error e => (.error e, p')
      | .ok r => (.ok (some r), p')
  else
    match filterProcess q.cmps p with
    | .error e => (.error e, p)
    | .ok r => (.ok (some r), p)

/-- 1163-1264: the damage process that is used and the built-in processes afterwards. -/
def select (s : Session) (q : Request) : Except PyErr (Option Process) × Session :=
  match s.get? q.approach with
  | some p => ((prepare p q).1, s.set q.approach (prepare p q).2)
  | none =>
    if q.approach = str "User Defined" then
      match q.file with
      | none => (.error .valueError, s)
      | some p => (.ok (some p), s)
    else (.ok none, s)

/-- A session: one assessment after the other. -/
def runAll : Session → List Request → List (Except PyErr (Option Process)) × Session
  | s, [] => ([], s)
  | s, q :: qs => ((select s q).1 :: (runAll (select s q).2 qs).1, (runAll (select s q).2 qs).2)

end Verif.AsmProcess
