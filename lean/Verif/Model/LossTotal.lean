import Verif.Model.LossAgg
import Verif.Model.LossComb
import Verif.Model.Config

/-!
# Decision variables and aggregated losses

pelicun/model/loss_model.py `aggregate_losses` (791-960) with `_validate_input_loss_combination` (962-990) and
`_validate_input_replacement_thresholds` (992-1042); pelicun/assessment.py, the end of `calculate_loss` (1422-1467);
pelicun/tools/DL_calculation.py `_parse_decision_variables` (493-515).  The parts that sum, replace and combine the
losses are those of `LossAgg` and `LossComb`.
-/

namespace Verif.LossTotal

open LossAgg
open Verif.Config (Js Fields)

/-- The keys of a dictionary whose value is `True`, in order (DL_calculation.py 510-514). -/
def trueKeys : Fields → List Str
  | .nil => []
  | .cons k (.leaf (.atom (.bool true))) f => k :: trueKeys f
  | .cons _ _ f => trueKeys f

/-- DL_calculation.py 493-515 `_parse_decision_variables`: `False` and a missing entry give none; anything else
that is not a dictionary has no `items`. -/
def parseDecisionVariables (config : Js) : Except PyErr (List Str) :=
  match Verif.Config.get (some config) (str "DL/Losses/Repair/DecisionVariables") (.leaf (.atom (.bool false))) with
  | .leaf (.atom (.bool false)) => .ok []
  | .leaf _ => .error .attributeError
  | .dict f => .ok (trueKeys f)

/-- loss_model.py 86: the decision variables of a new loss model. -/
def defaultDvs : List Str := [str "Cost", str "Time"]

/-- assessment.py 1422-1423: an empty selection leaves the loss model as it is. -/
def activeDvs (current selected : List Str) : List Str := if selected = [] then current else selected

/-- loss_model.py 892-901 `_construct_columns` -/
def constructColumns (dvs : List Str) : List Str :=
  ((dvs.filter fun dv => decide (dv ≠ str "Time")).map fun dv => str "repair_" ++ lower dv) ++
  (if str "Time" ∈ dvs then [str "repair_time-sequential", str "repair_time-parallel"] else [])

/-- The combination tables: decision variable, components, table.  The components are tuples of strings and the
tables arrays, so that the checks of types (973-990) pass. -/
abbrev Combos := List (Str × List Str × List (List ℚ))

/-- loss_model.py 992-1042.  `raises` is the setting `Loss/ReplacementThreshold/RaiseOnUnknownKeys`; without it
unknown keys are reported as warnings.  The registry is one. -/
def validateThresholds (raises : Bool) (dvs : List Str) (cfg : Config) : Except PyErr Unit :=
  if raises && (cfg.reg.keys.any fun k => decide (k ∉ dvs)) then .error .valueError
  else if raises && (cfg.ratios.keys.any fun k => decide (k ∉ dvs)) then .error .valueError
  else if dvs.any fun k => decide (k ∉ cfg.reg.keys) then .error .valueError
  else .ok ()

/-- loss_model.py 962-971 -/
def validateCombos (dvs : List Str) (combos : Combos) : Except PyErr Unit :=
  if combos.any fun c => decide (c.1 ∉ dvs) then .error .valueError else .ok ()

/-- A table given as a dictionary of columns, with `n` realizations. -/
def ofColumns (n : Nat) (d : Dict LKey (List ℚ)) : LfSample :=
  ⟨d.keys, (List.range n).map fun i k => ((d.get? k).getD []).getD i 0⟩

/-- loss_model.py 931-932 -/
def afterCombos (iter : List Str → List Str) (combos : Option Combos) (s : LfSample) : Except PyErr LfSample :=
  match combos with
  | none => .ok s
  | some c =>
    match LossComb.applyCombinations iter c s with
    | .error e => .error e
    | .ok d => .ok (ofColumns s.rows.length d)

/-- What `aggregate_losses` returns with `future=True`: a pair of tables, or one table alone (904). -/
inductive Result where
  | pair (agg : List (Str × List ℚ)) (flags : List (Str × List Bool))
  | alone (agg : List (Str × List ℚ))
  deriving DecidableEq

/-- The units of the decision variables and the table of units. -/
structure Units where
  dv : Dict Str Str
  table : Dict Str ℚ

/-- loss_model.py 919-958: the samples are joined, combined, replaced above the thresholds, and summed. -/
def sumUp (iter : List Str → List Str) (ds : Option DsSample) (lf : Option LfSample) (cfg : Option Config)
    (combos : Option Combos) (dvs : List Str) (u : Units) : Except PyErr Result :=
  match afterCombos iter combos (combined ds lf) with
  | .error e => .error e
  | .ok s =>
    match afterThresholds cfg s with
    | .error e => .error e
    | .ok (s', flags) =>
      match aggregateSample dvs u.dv u.table s' with
      | .error e => .error e
      | .ok agg => .ok (.pair agg flags)

/-- loss_model.py 872-877: the checks of the arguments. -/
def validate (raises : Bool) (cfg : Option Config) (combos : Option Combos) (dvs : List Str) : Except PyErr Unit :=
  match (match cfg with
    | none => Except.ok ()
    | some c => validateThresholds raises dvs c) with
  | .error e => .error e
  | .ok () =>
    match combos with
    | none => .ok ()
    | some c => validateCombos dvs c

/-- loss_model.py 791-960 `aggregate_losses` with `future=True`.  `iter` is the order in which Python iterates over a
set.  Replacement is made exclusive in copies only (912-913), which has no effect. -/
def aggregate (iter : List Str → List Str) (raises : Bool) (ds : Option DsSample) (lf : Option LfSample)
    (cfg : Option Config) (combos : Option Combos) (dvs : List Str) (u : Units) : Except PyErr Result :=
  match validate raises cfg combos dvs with
  | .error e => .error e
  | .ok () =>
    match ds, lf with
    | none, none => .ok (.alone ((constructColumns dvs).map fun c => (c, [0])))
    | _, _ => sumUp iter ds lf cfg combos dvs u

/-- assessment.py 1430-1460: the combination of the losses.  `file` is the table of the model library (or the error
from reading it), `map` the labels of the loss map.  `None`, `Hazus Hurricane`, or something else. -/
def chosenCombos (method : Option Str) (file : Except PyErr (List (List ℚ))) (map : List Str) : Except PyErr (Option Combos) :=
  match method with
  | none => .ok none
  | some m =>
    if m = str "Hazus Hurricane" then
      match file with
      | .error e => .error e
      | .ok arr =>
        match map with
        | wind :: flood :: _ => .ok (some [(str "Cost", [wind, flood], arr)])
        | _ => .error .indexError
    else .error .valueError

/-- assessment.py 1462-1466: the result is unpacked into two tables.  A single table is unpacked into the labels of
its columns: with two columns these are not tables, any other number is refused. -/
def unpack : Result → Except PyErr (List (Str × List ℚ) × List (Str × List Bool))
  | .pair agg flags => .ok (agg, flags)
  | .alone [_, _] => .error .assertionError
  | .alone _ => .error .valueError

/-- assessment.py 1430-1467, after the losses are calculated. -/
def results (iter : List Str → List Str) (raises : Bool) (ds : Option DsSample) (lf : Option LfSample)
    (cfg : Option Config) (method : Option Str) (file : Except PyErr (List (List ℚ))) (map : List Str)
    (dvs : List Str) (u : Units) : Except PyErr (List (Str × List ℚ) × List (Str × List Bool)) :=
  match chosenCombos method file map with
  | .error e => .error e
  | .ok combos =>
    match aggregate iter raises ds lf cfg combos dvs u with
    | .error e => .error e
    | .ok r => unpack r

/-- DL_calculation.py 394-425 and assessment.py 1422-1467 for a tool run with a new assessment: the decision variables
of the configuration, no thresholds.  `losses` are the samples that the calculation gives for a list of decision
variables. -/
def toolResults (iter : List Str → List Str) (raises : Bool) (config : Js)
    (losses : List Str → Option DsSample × Option LfSample) (method : Option Str)
    (file : Except PyErr (List (List ℚ))) (map : List Str) (u : Units) :
    Except PyErr (List (Str × List ℚ) × List (Str × List Bool)) :=
  match parseDecisionVariables config with
  | .error e => .error e
  | .ok sel =>
    let dvs := activeDvs defaultDvs sel
    results iter raises (losses dvs).1 (losses dvs).2 none method file map dvs u

end Verif.LossTotal
