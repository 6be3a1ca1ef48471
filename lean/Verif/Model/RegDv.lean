import Verif.Model.RegLoss

/-!
# Decision variables of a regional simulation

pelicun/tools/regional_sim.py `process_buildings_chunk`: the decision variables (571-578) and the choice of the loss
calculation (694-706).
-/

namespace Verif.RegDv

open Verif.UQ
open Verif.LossCalc (Damage)
open Verif.RegLoss

/-- What the mapping of a building has in `DL/Losses/Repair/DecisionVariables`: the decision variables and whether they
are asked for; `none` if there is no such section. -/
abbrev Asked := Option (Dict Str Bool)

/-- 571-578: `auto_config` is the one of the last building of the loop in 549-569. -/
def requested (asked : List Asked) : Except PyErr (List Str) :=
  match asked.getLast? with
  | none => .error .unboundLocalError
  | some none => .error .keyError
  | some (some d) => .ok ((d.filter fun e => e.2).map fun e => e.1)

variable {F : Type} [Field F] [LinearOrder F] [FloorRing F]

/-- 571-578 and 694-706.  `cmps` are the components of the chunk, `d` is their damage.  What is between the two parts does not
depend on the decision variables and is left out.  The numbers of buildings are texts here. -/
def chunkLosses (S : Setup F) (method : Str) (bldgs : List (Nat × Option Str)) (asked : List Asked) (cmps : List Str) (d : Damage) :
    Except PyErr (List (Str × List F) × Option (List (Str × List F))) :=
  match requested asked with
  | .error e => .error e
  | .ok dvs =>
    if method = str "Hazus Earthquake - Buildings" then
      match hazusEq S bldgs d with
      | .error e => .error e
      | .ok (costs, times) => .ok (costs.map fun e => (decStr e.1, e.2), some (times.map fun e => (decStr e.1, e.2)))
    else general S cmps dvs d

end Verif.RegDv
