import Verif.Model.ParamUnits
import Verif.Model.LossTotal

/-!
# `Assessment.calculate_loss` and `aggregate_loss` (pelicun/assessment.py 475-593)

The functions call the loss model.  The calculation of losses (515, C95) is a parameter; the loss map (513), the loss parameters (514) and the
aggregation (589-593) are those of LossParams, ParamUnits and LossTotal.
-/

namespace Verif.CalcLoss

open LossAgg (DsSample LfSample Config)
open LossParams (LossMap Key addLossMap)
open ParamUnits (LossState loadLoss)
open LossTotal (Combos Units aggregate)

/-- The samples of the two loss models. -/
abbrev Losses := Option DsSample × Option LfSample

/-- What the loss model of an assessment has. -/
structure State where
  dvs : List Str
  map : Option LossMap
  params : LossState
  missing : List Key
  losses : Losses

/-- loss_model.py 86-109: a new loss model. -/
def State.fresh : State := ⟨LossTotal.defaultDvs, none, .fresh, [], (none, none)⟩

/-- The component ids of the asset, in the order in which Python iterates over their set, and `loss.calculate`, for the decision variables, the
loss map, the parameters, the missing parameters and the samples of before: it leaves samples, and may raise an exception. -/
structure Models where
  cmps : List Str
  calculate : List Str → LossMap → LossState → List Key → Losses → Losses × Option PyErr

/-- assessment.py 475-515 `calculate_loss`: the state that is left and the exception, if any.  Simplification: if loading parameters raises an
exception, the parameters stay as they are. -/
def calculateLoss (table : Dict Str ℚ) (M : Models) (dvs : List Str) (given : Option LossMap) (policy : Option Str)
    (sources : List LossParams.Source) (st : State) : State × Option PyErr :=
  let st := { st with dvs := dvs }
  match addLossMap given policy M.cmps with
  | .error e => (st, some e)
  | .ok m =>
    let st := { st with map := some m }
    match loadLoss table st.params sources m st.dvs with
    | .error e => (st, some e)
    | .ok (p, missing) =>
      let r := M.calculate st.dvs m p missing st.losses
      ({ st with params := p, missing := missing, losses := r.1 }, r.2)

/-- assessment.py 517-593 `aggregate_loss`: the result must be a pair of tables (592). -/
def aggregateLoss (iter : List Str → List Str) (raises : Bool) (cfg : Option Config) (combos : Option Combos) (u : Units) (st : State) :
    Except PyErr (List (Str × List ℚ) × List (Str × List Bool)) :=
  match aggregate iter raises st.losses.1 st.losses.2 cfg combos st.dvs u with
  | .error e => .error e
  | .ok (.pair agg flags) => .ok (agg, flags)
  | .ok (.alone _) => .error .assertionError

/-- `n` times the same call, as long as there is no exception. -/
def repeatLoss (table : Dict Str ℚ) (M : Models) (dvs : List Str) (given : Option LossMap) (policy : Option Str)
    (sources : List LossParams.Source) : Nat → State → State × Option PyErr
  | 0, st => (st, none)
  | n + 1, st =>
    match calculateLoss table M dvs given policy sources st with
    | (st', some e) => (st', some e)
    | (st', none) => repeatLoss table M dvs given policy sources n st'

end Verif.CalcLoss
