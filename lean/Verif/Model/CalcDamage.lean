import Verif.Model.RidAdjust
import Verif.Model.ParamUnits

/-!
# `Assessment.calculate_damage` (pelicun/assessment.py 356-473)

The function calls the demand, asset and damage models one after the other.  The generated demand sample (450-451, C88), the component ids of
the asset for a number of stories (467-468, C25-C27) and the damage for a demand sample and damage parameters (473, C90) are
parameters; residual drifts (453-457), the additional demand (459-464) and the damage parameters (470-472) are those of
RidAdjust, DemandSample and ParamUnits.
-/

namespace Verif.CalcDamage

open DemandSample (Sample NewValue expandSample)
open RidAdjust (estimateAndAdjust)
open ParamUnits (DmgState loadDmg)
open FileIO (Label)

/-- `residual_drift_configuration` (assessment.py 417-429): the values of its keys, `none` for a key that is not there.
`params` is the documented name, `parameters` the one in the code. -/
structure RidConfig where
  params : Option (Dict Str ℚ)
  method : Option Str
  parameters : Option (Dict Str ℚ)

/-- `collapse_fragility_configuration` (assessment.py 430-442). -/
structure CollapseConfig where
  label : Option Str
  value : Option NewValue
  unit : Option Str
  location : Option Str
  direction : Option Str

/-- assessment.py 453-457.  An empty dictionary is false. -/
def residualStep (table : Dict Str ℚ) (est : ℚ → Label → List (Option ℚ) → List (Option ℚ)) (cfg : Option RidConfig) (s : Sample) :
    Except PyErr Sample :=
  match cfg with
  | none => .ok s
  | some ⟨none, none, none⟩ => .ok s
  | some ⟨_, some m, some p⟩ => estimateAndAdjust table est p m (some s)
  | some _ => .error .keyError

/-- assessment.py 459-464: `location` and `direction` are not used, so that they are `0` and `1` (demand_model.py 480-481). -/
def collapseStep (table : Dict Str ℚ) (cfg : Option CollapseConfig) (s : Sample) : Except PyErr Sample :=
  match cfg with
  | none => .ok s
  | some ⟨none, none, none, none, none⟩ => .ok s
  | some ⟨some l, some v, some u, _, _⟩ => expandSample table (some s) [l, str "0", str "1"] v u
  | some _ => .error .keyError

/-- What the assessment has: the demand sample, the number of stories, the damage parameters and the damage sample. -/
structure State (D : Type) where
  demand : Option Sample
  stories : Option Nat
  params : DmgState
  damage : Option D

/-- The models that are parameters: `load_model` and `generate_sample` of the demand model, the component ids that `load_cmp_model` and
`generate_cmp_sample` give for a number of stories, and `damage.calculate` for a demand sample, damage parameters and missing
components. -/
structure Models (D : Type) where
  demand : Except PyErr Sample
  asset : Option Nat → Except PyErr (List Str)
  damage : Sample → DmgState → List Str → Except PyErr D

/-- assessment.py 356-473 `calculate_damage`: the state that is left and the exception, if any.  Simplification: if loading damage parameters
raises an exception, those of the state stay. -/
def calculateDamage {D : Type} (table : Dict Str ℚ) (est : ℚ → Label → List (Option ℚ) → List (Option ℚ)) (M : Models D)
    (rid : Option RidConfig) (collapse : Option CollapseConfig) (stories : Nat) (sources : List DmgParams.Source) (st : State D) :
    State D × Option PyErr :=
  match M.demand with
  | .error e => (st, some e)
  | .ok g =>
    match residualStep table est rid g with
    | .error e => ({ st with demand := some g }, some e)
    | .ok s1 =>
      match collapseStep table collapse s1 with
      | .error e => ({ st with demand := some s1 }, some e)
      | .ok s2 =>
        let st := { st with demand := some s2, stories := some stories }
        match M.asset st.stories with
        | .error e => (st, some e)
        | .ok ids =>
          match loadDmg table st.params sources ids with
          | .error e => (st, some e)
          | .ok (p, missing) =>
            match M.damage s2 p missing with
            | .error e => ({ st with params := p }, some e)
            | .ok d => ({ st with params := p, damage := some d }, none)

end Verif.CalcDamage
