import Verif.Model.LossDev
import Verif.Model.LossLfDev

/-!
# The loss calculation as a whole

pelicun/model/loss_model.py `LossModel.calculate` (454-507): the two models with their samples, over the life of an
assessment object.  The values of a sample can be changed by `consequence_scaling`, and a sample can be
loaded, between two calculations.
-/

namespace Verif.LossCalc

open Verif.UQ (Num Method)

section
variable {F : Type} [Field F] [LinearOrder F] [FloorRing F]

/-- The samples of `ds_model` and `lf_model`. -/
structure State (F : Type) where
  ds : Option (List (LossDs.OutKey × List F))
  lf : Option (List (LossLf.OutKey × List F))

/-- A loss model without samples. -/
def State.fresh : State F := ⟨none, none⟩

/-- The damage sample: its columns and realizations. -/
structure Damage where
  cols : List LossDs.DKey
  rows : List (LossDs.DKey → Option ℚ)

/-- Parameters and random numbers of the damage state model. -/
structure DsInput (F : Type) where
  eco : LossDs.Eco
  params : LossDs.Params
  spread : Str × Str → Str → List F
  missing : List (Str × Str)
  lossMap : List (Str × Str)
  dvs : List Str
  corr : Option (List (List F) → List (List F))
  perm : Nat → List Nat
  jitter : Nat → List F

/-- Parameters and random numbers of the loss function model, which may have no parameters. -/
structure LfInput (F : Type) where
  params : Option LossLf.Params
  spread : Str × Str → List F
  inp : LossLf.Input
  corr : Option (List (List F) → List (List F))
  perm : Nat → List Nat
  jitter : Nat → List F
  blocks : List (DemandReq.PGid × Nat)

/-- What an assessment has when `calculate` is called.  The assertions that there is a demand sample and a
component sample are met. -/
structure Env (F : Type) [Field F] [LinearOrder F] where
  num : Num F
  method : Method
  realizations : Nat
  damage : Option Damage
  dsIn : DsInput F
  lfIn : LfInput F

/-- The losses of the damage state model (C91). -/
def dsLosses (e : Env F) (d : Damage) : Except PyErr (Option (List (LossDs.OutKey × List F))) :=
  LossDev.calculate e.num e.dsIn.eco e.dsIn.params e.dsIn.spread e.dsIn.missing d.cols e.dsIn.lossMap e.dsIn.dvs e.dsIn.corr
    e.method e.dsIn.perm e.dsIn.jitter d.rows

/-- The losses of the loss function model (C92). -/
def lfLosses (e : Env F) (p : LossLf.Params) : Except PyErr (Option (List (LossLf.OutKey × List F))) :=
  LossLfDev.calculate e.num p e.lfIn.spread e.lfIn.inp e.lfIn.corr e.realizations e.method e.lfIn.perm e.lfIn.jitter e.lfIn.blocks

/-- 485-497.  An error leaves the sample as it is. -/
def stepDs (e : Env F) (st : State F) : State F × Option PyErr :=
  match e.damage with
  | none => (st, none)
  | some d =>
    if e.realizations ≠ d.rows.length then (st, some .valueError)
    else
      match dsLosses e d with
      | .error err => (st, some err)
      | .ok s => ({ st with ds := s }, none)

/-- 499-505 and 2536-2575: without parameters, or without components that have loss functions, the method
returns and the sample stays as it was, although the message says that it is set to `None`. -/
def stepLf (e : Env F) (st : State F) : State F × Option PyErr :=
  match e.lfIn.params with
  | none => (st, none)
  | some p =>
    match lfLosses e p with
    | .error err => (st, some err)
    | .ok none => (st, none)
    | .ok (some s) => ({ st with lf := some s }, none)

/-- 454-507 `calculate` -/
def calculate (e : Env F) (st : State F) : State F × Option PyErr :=
  match stepDs e st with
  | (st', some err) => (st', some err)
  | (st', none) => stepLf e st'

/-- What a user can do with a loss model that affects its samples: a calculation (also one that fails), scaling,
which changes values, and loading a sample, which is always that of the damage state model. -/
inductive Op (F : Type) [Field F] [LinearOrder F] where
  | calculate (e : Env F)
  | scale (ds : LossDs.OutKey × List F → List F) (lf : LossLf.OutKey × List F → List F)
  | load (s : List (LossDs.OutKey × List F))

def apply (st : State F) : Op F → State F
  | .calculate e => (calculate e st).1
  | .scale f g => ⟨st.ds.map fun s => s.map fun c => (c.1, f c), st.lf.map fun s => s.map fun c => (c.1, g c)⟩
  | .load s => { st with ds := some s }

/-- The samples after a history of operations. -/
def run (ops : List (Op F)) : State F := ops.foldl apply State.fresh

end

end Verif.LossCalc
