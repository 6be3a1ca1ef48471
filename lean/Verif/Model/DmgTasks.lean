import Verif.Model.DmgEval
import Verif.Model.DmgBatch
import Verif.Model.PyNum

/-!
# Damage processes

pelicun/model/damage_model.py `perform_dmg_task` (1706-1837), `_perform_dmg_event` (1839-1864),
`_perform_dmg_event_loc` (1866-1914), the order of the tasks (`DamageModel.calculate`, 306-317), and
the built-in processes of pelicun/assessment.py (59-81).  Warnings are not modelled; a task that
raises aborts the calculation, so that its partial effects are not modelled.
-/

namespace Verif.DmgTasks

open Verif.DmgEval (BlockId)
open Verif.DmgBatch (maxOf)
open Verif.FileIO (uniqueVals)

/-- The sample of damage states: the column labels (distinct) and, for each realization, the damage
state of every column; -1 stands for NA. -/
structure Sample where
  cols : List BlockId
  rows : List (BlockId → Int)

/-- The targets of an event: a text or a list of texts. -/
inductive Targets where
  | one (s : Str)
  | many (l : List Str)
  deriving DecidableEq

/-- 1781-1784 -/
def Targets.list : Targets → List Str
  | .one s => [s]
  | .many l => l

/-- A task: its name and its events. -/
abbrev Task := Str × Dict Str Targets

/-- An event with its source and target parsed. -/
structure Ev where
  matchLoc : Bool
  source : Str
  dsSource : Int
  target : Str
  dsTarget : Int
  deriving DecidableEq

/-- `s.replace('-LOC', '')` -/
def dropLoc : Str → Str
  | '-' :: 'L' :: 'O' :: 'C' :: s => dropLoc s
  | c :: s => c :: dropLoc s
  | [] => []

/-- 1747-1757: the source component and whether locations have to match; a name without underscore
is an `IndexError`. -/
def parseSource (name : Str) : Except PyErr (Bool × Str) :=
  match splitChar '_' name with
  | _ :: src :: _ =>
    if (str "-LOC").isSuffixOf src then .ok (true, dropLoc src) else .ok (false, src)
  | _ => .error .indexError

/-- `int(s[2:])` -/
def parseDs (s : Str) : Except PyErr Int :=
  match pyInt? (s.drop 2) with
  | some n => .ok n
  | none => .error .valueError

/-- 1772-1779 -/
def parseTrigger (s : Str) : Except PyErr Int :=
  if (str "DS").isPrefixOf s then parseDs s else .error .valueError

/-- 1802-1820 -/
def parseTargetEvent (s : Str) : Except PyErr Int :=
  if (str "DS").isPrefixOf s then parseDs s
  else if s = str "NA" then .ok (-1)
  else .error .valueError

/-- 1786-1831 for one target: `none` if the target is skipped. -/
def parseTarget (present : List Str) (matchLoc : Bool) (source : Str) (dsSource : Int) (info : Str) :
    Except PyErr (Option Ev) :=
  match splitChar '_' info with
  | [target, ev] =>
    if target ≠ str "ALL" ∧ target ∉ present then .ok none
    else
      match parseTargetEvent ev with
      | .error e => .error e
      | .ok dsTarget => .ok (some ⟨matchLoc, source, dsSource, target, dsTarget⟩)
  | _ => .error .valueError

/-- 1770-1831 for one event. -/
def parseEvent (present : List Str) (matchLoc : Bool) (source : Str) (e : Str × Targets) : Except PyErr (List Ev) :=
  match parseTrigger e.1 with
  | .error x => .error x
  | .ok ds =>
    match mapE (parseTarget present matchLoc source ds) e.2.list with
    | .error x => .error x
    | .ok l => .ok (l.filterMap id)

/-- The components in the sample. -/
def Sample.present (s : Sample) : List Str := s.cols.map (·.cmp)

/-- The events of a task; none if the source component is not in the sample (1762-1768). -/
def parseTask (present : List Str) (t : Task) : Except PyErr (List Ev) :=
  match parseSource t.1 with
  | .error x => .error x
  | .ok (matchLoc, source) =>
    if source ∉ present then .ok []
    else
      match mapE (parseEvent present matchLoc source) t.2 with
      | .error x => .error x
      | .ok l => .ok l.flatten

/-- The highest damage state among the columns selected by `p`. -/
def highest (cols : List BlockId) (p : BlockId → Bool) (row : BlockId → Int) : Option Int :=
  maxOf ((cols.filter p).map row)

/-- 1849-1864 for one realization, with the columns of source and target given by `src` and `tgt`. -/
def setIf (cols : List BlockId) (src tgt : BlockId → Bool) (dsSource dsTarget : Int) (row : BlockId → Int) :
    BlockId → Int :=
  if highest cols src row = some dsSource then fun c => if tgt c then dsTarget else row c else row

/-- 1856-1863, 1897-1913: the affected columns. -/
def isTarget (e : Ev) (c : BlockId) : Bool :=
  if e.target = str "ALL" then decide (c.cmp ≠ e.source) else decide (c.cmp = e.target)

/-- `_perform_dmg_event`, 1839-1864 -/
def event (cols : List BlockId) (e : Ev) (row : BlockId → Int) : BlockId → Int :=
  setIf cols (fun c => decide (c.cmp = e.source)) (isTarget e) e.dsSource e.dsTarget row

/-- 1886-1914 for one location. -/
def eventAt (cols : List BlockId) (e : Ev) (row : BlockId → Int) (loc : Str) : BlockId → Int :=
  setIf cols (fun c => decide (c.cmp = e.source ∧ c.loc = loc)) (fun c => isTarget e c && decide (c.loc = loc))
    e.dsSource e.dsTarget row

/-- 1888: the locations of the source component. -/
def sourceLocs (cols : List BlockId) (source : Str) : List Str :=
  uniqueVals [] ((cols.filter fun c => decide (c.cmp = source)).map (·.loc))

/-- One event in one realization; `visit` is the order in which the set of locations is visited. -/
def applyEv (visit : List Str → List Str) (cols : List BlockId) (row : BlockId → Int) (e : Ev) : BlockId → Int :=
  if e.matchLoc then (visit (sourceLocs cols e.source)).foldl (eventAt cols e) row
  else event cols e row

/-- `perform_dmg_task`, 1706-1837: every event acts on each realization separately. -/
def performTask (visit : List Str → List Str) (s : Sample) (t : Task) : Except PyErr Sample :=
  match parseTask s.present t with
  | .error x => .error x
  | .ok evs => .ok ⟨s.cols, s.rows.map fun row => evs.foldl (applyEv visit s.cols) row⟩

/-- 309-313: the tasks in the order in which they are performed. -/
def taskOrder (process : Dict Str (Dict Str Targets)) : List Task :=
  pySort (fun a b => strLe a.1 b.1) process

/-- 315-317 -/
def performAll (visit : List Str → List Str) : Sample → List Task → Except PyErr Sample
  | s, [] => .ok s
  | s, t :: ts =>
    match performTask visit s t with
    | .error x => .error x
    | .ok s' => performAll visit s' ts

/-- `calculate`, 306-317 -/
def runProcess (visit : List Str → List Str) (process : Dict Str (Dict Str Targets)) (s : Sample) : Except PyErr Sample :=
  performAll visit s (taskOrder process)

/-- pelicun/assessment.py 60-66 -/
def femaP58 : Dict Str (Dict Str Targets) :=
  [(str "1_excessive.coll.DEM", [(str "DS1", .one (str "collapse_DS1"))]),
   (str "2_collapse", [(str "DS1", .one (str "ALL_NA"))]),
   (str "3_excessiveRID", [(str "DS1", .one (str "irreparable_DS1"))]),
   (str "4_irreparable", [(str "DS1", .one (str "ALL_NA"))]),
   (str "5_irreparable", [(str "DS1", .one (str "collapse_DS0"))])]

/-- pelicun/assessment.py 68-71 -/
def hazusLifeline : Dict Str (Dict Str Targets) :=
  [(str "1_LF", [(str "DS5", .one (str "collapse_DS1"))]),
   (str "2_collapse", [(str "DS1", .one (str "ALL_NA"))])]

/-- pelicun/assessment.py 72-79 -/
def hazusBuildings : Dict Str (Dict Str Targets) :=
  [(str "1_STR", [(str "DS5", .one (str "collapse_DS1"))]),
   (str "2_excessive.coll.DEM", [(str "DS1", .one (str "collapse_DS1"))]),
   (str "3_collapse", [(str "DS1", .one (str "ALL_NA"))]),
   (str "4_excessiveRID", [(str "DS1", .one (str "irreparable_DS1"))]),
   (str "5_irreparable", [(str "DS1", .one (str "ALL_NA"))]),
   (str "6_irreparable", [(str "DS1", .one (str "collapse_DS0"))])]

end Verif.DmgTasks
