import Verif.Model.LossDev
import Verif.Model.LossLf

/-!
# Random deviations of losses from loss functions

pelicun/model/loss_model.py: `RepairModel_LF._create_DV_RVs` (2792-2900) and the sampling and use of the
random variables in `RepairModel_LF.calculate` (2615-2653).  The medians and the sum over blocks are in
`Model/LossLf`, the registry in `Model/UQRegistry`.

Only normal and lognormal deviations are modelled; here the code does not check the family, the model
refuses the others.
-/

namespace Verif.LossLfDev

open Verif.UQ Verif.FileIO Verif.LossLf Verif.LossDev
open Verif.DemandReq (PGid)

section
variable {F : Type} [Field F] [LinearOrder F]

omit [Field F] [LinearOrder F] in
/-- 2855-2858: `{decision_variable}-{consequence}-{component}-{location}-{direction}-{uid}-{block}`. -/
def blockLabel (k : BlockKey) : Label := [k.dv, k.loss, k.pg.cmp, k.pg.loc, k.pg.dir, k.pg.uid, decStr k.block]

omit [LinearOrder F] in
/-- 2828-2864: the variable of a block; without a family there is none.  `spread` are `Theta_1` and
`Theta_2` of the consequence, as far as these columns exist; the loss function is replaced by 1. -/
def blockVar (params : Params) (spread : Str × Str → List F) (k : BlockKey) : Option (DvVar F) :=
  match params.get? (k.loss, k.dv) with
  | none => none
  | some p => p.family.map fun f => ⟨blockLabel k, f, 1 :: spread (k.loss, k.dv)⟩

omit [LinearOrder F] in
/-- 2817-2864: the variables of the blocks, in the order of the columns of the medians (2790). -/
def lfVars (params : Params) (spread : Str × Str → List F) (ks : List BlockKey) : List (DvVar F) :=
  (pySort (fun a b => labelLe (blockLabel a) (blockLabel b)) ks).filterMap (blockVar params spread)

omit [LinearOrder F] in
/-- The deviation of a block in realization `i`; infinite deviations are not modelled. -/
def devAt (std : List (Label × List (Ext F))) (i : Nat) (k : BlockKey) : F :=
  match Dict.get? std (blockLabel k) with
  | none => 0
  | some v =>
    match v[i]? with
    | some (.fin x) => x
    | _ => 0

variable [FloorRing F]

/-- 2505-2668 `RepairModel_LF.calculate` for a demand sample with `n` realizations.  A consequence without
parameters (2829) is found before the first variable is created. -/
def calculate (N : Num F) (params : Params) (spread : Str × Str → List F) (inp : Input)
    (corr : Option (List (List F) → List (List F))) (n : Nat) (m : Method) (perm : Nat → List Nat) (jitter : Nat → List F)
    (blocks : List (PGid × Nat)) : Except PyErr (Option (List (OutKey × List F))) :=
  match medians params inp blocks with
  | .error e => .error e
  | .ok none => .ok none
  | .ok (some []) => .error .valueError
  | .ok (some (c :: cs)) =>
    if (c :: cs).any fun c => decide ((c.1.loss, c.1.dv) ∉ params.keys) then .error .keyError
    else
      match devSample N 6 (lfVars params spread ((c :: cs).map Prod.fst)) corr n m perm jitter with
      | .error e => .error e
      | .ok std => sampleOf params (fun k => (List.range n).map fun i => devAt std i k) (c :: cs)

end

end Verif.LossLfDev
