import Verif.Model.DemandReq
import Verif.Model.Interp
import Verif.Model.PySort

/-!
# Losses from loss functions

pelicun/model/loss_model.py `RepairModel_LF.calculate` (2505-2668), `_calc_median_consequence` (2687-2790),
`_create_DV_RVs` (2792-2900) and pelicun/base.py `stringterpolation` (1634-1663).

Loss functions are given in parsed form, as points `(x, y)` of `'y1,y2|x1,x2'`; equal x values are not
modelled (scipy divides by zero).  The sampled deviations, numbers of a field `F`, are a parameter (see
`Model/LossLfDev`).  Labels have no dashes.
-/

namespace Verif.LossLf

open DemandReq

/-- A row of the loss parameters: `Demand`, `LossFunction-Theta_0` and `LossFunction-Family`. -/
structure LfParam where
  demand : CmpDemand
  points : List (ℚ × ℚ)
  family : Option Str

abbrev Params := Dict (Str × Str) LfParam

/-- What `calculate` is given besides the loss parameters. -/
structure Input where
  /-- number of variables in an expression (C35) -/
  nvars : Str → Except PyErr Nat
  /-- numexpr (C77) -/
  eval : Str → List (List (Option ℚ)) → Except PyErr (List (Option ℚ))
  /-- `demand_offset` -/
  offsets : Dict Str ℚ
  /-- `nondirectional_multipliers` -/
  mults : Dict Str ℚ
  /-- the demand sample -/
  demands : DemandTable
  /-- `cmp_sample`: realizations of the quantity of each performance group -/
  qty : Dict PGid (List ℚ)
  /-- `loss_map['Repair'].to_dict()` -/
  lossMap : Dict Str Str
  /-- `self.missing` -/
  missing : List (Str × Str)
  dvs : List Str

/-- A row of `performance_group`: 2553-2566. -/
structure Group where
  pg : PGid
  dv : Str
  blocks : Nat

/-- 2546-2552: the performance groups of components whose consequence has loss functions. -/
def ofLf (params : Params) (inp : Input) (cmp : Str) : Bool :=
  match inp.lossMap.get? cmp with
  | none => false
  | some loss => params.keys.any fun k => k.1 = loss

/-- 2558-2566: the decision variables of a performance group; note that the component and not its
consequence is looked up among the missing ones. -/
def dvGroups (inp : Input) (b : PGid × Nat) : List Group :=
  (inp.dvs.filter fun dv => (b.1.cmp, dv) ∉ inp.missing).map fun dv => ⟨b.1, dv, b.2⟩

/-- 2546-2566. -/
def groupsOf (params : Params) (inp : Input) (blocks : List (PGid × Nat)) : List Group :=
  (blocks.filter fun b => ofLf params inp b.1.cmp).flatMap (dvGroups inp)

/-- 2582-2586 `_get_required_demand_type` for `(component, decision variable)`.  Filing the groups under
their demands and inverting that mapping is the identity (C35). -/
def groupEdp (params : Params) (inp : Input) (g : Group) : Except PyErr (List Str × Expression) :=
  match params.get? (g.pg.cmp, g.dv) with
  | none => .error .keyError
  | some p => keyOf inp.nvars [(g.pg.cmp, p.demand)] inp.offsets g.pg

/-- A group with its demand. -/
def withEdp (params : Params) (inp : Input) (g : Group) : Except PyErr (Group × (List Str × Expression)) :=
  match groupEdp params inp g with
  | .error e => .error e
  | .ok k => .ok (g, k)

/-- base.py 1656-1663: `interp1d(x, y, kind='linear')` sorts the points. -/
def sortedPoints (pts : List (ℚ × ℚ)) : List (ℚ × ℚ) := pySort (fun a b => decide (a.1 ≤ b.1)) pts

/-- Whether a value is in the range of the points. -/
def inRange (pts : List (ℚ × ℚ)) (x : ℚ) : Bool :=
  (pts.any fun p => decide (p.1 ≤ x)) && pts.any fun p => decide (x ≤ p.1)

/-- `stringterpolation(loss_function)(edp)`: values outside of the range are refused, NaN stays NaN. -/
def lossFunction (pts : List (ℚ × ℚ)) : Option ℚ → Except PyErr (Option ℚ)
  | none => .ok none
  | some x => if inRange pts x then .ok (some (interp (sortedPoints pts) x)) else .error .valueError

/-- The column of a block. -/
structure BlockKey where
  dv : Str
  loss : Str
  pg : PGid
  block : Nat
  deriving DecidableEq

/-- The column of the result: `dv`, `loss`, `dmg`, `loc`, `dir`, `uid`. -/
structure OutKey where
  dv : Str
  loss : Str
  pg : PGid
  deriving DecidableEq

/-- 2769-2784: the median loss of a block. -/
def blockMedian (q : ℚ) (blocks : Nat) (m : Option ℚ) : Option ℚ := m.map fun m => m * q / (blocks : ℚ)

/-- `required_edps[(consequence, decision_variable), location, direction, uid]`, 2747-2749. -/
def lookupEdp (edps : List (Group × (List Str × Expression))) (loss dv : Str) (pg : PGid) :
    Except PyErr (List Str × Expression) :=
  match edps.find? fun e => decide (e.1.pg = { pg with cmp := loss } ∧ e.1.dv = dv) with
  | none => .error .keyError
  | some e => .ok e.2

/-- 2746-2784: the medians of the blocks of a performance group, with its consequence. -/
def groupMedians (params : Params) (inp : Input) (edps : List (Group × (List Str × Expression)))
    (demand : Dict (List Str × Expression) (List (Option ℚ))) (g : Group) :
    Except PyErr (List (BlockKey × List (Option ℚ))) :=
  match inp.lossMap.getE g.pg.cmp with
  | .error e => .error e
  | .ok loss =>
  match lookupEdp edps loss g.dv g.pg with
  | .error e => .error e
  | .ok edp =>
  match demand.getE edp with
  | .error e => .error e
  | .ok values =>
  match params.getE (g.pg.cmp, g.dv) with
  | .error e => .error e
  | .ok p =>
  match mapE (lossFunction p.points) values with
  | .error e => .error e
  | .ok medians =>
    mapE (fun block => match inp.qty.getE g.pg with
      | .error e => .error e
      | .ok q => .ok (⟨g.dv, loss, g.pg, block⟩, List.zipWith (fun m q => blockMedian q g.blocks m) medians q))
      (List.range g.blocks)

/-- 2541-2614: the medians of all blocks.  `none`: there is nothing to calculate. -/
def medians (params : Params) (inp : Input) (blocks : List (PGid × Nat)) :
    Except PyErr (Option (List (BlockKey × List (Option ℚ)))) :=
  match groupsOf params inp blocks with
  | [] => .ok none
  | g0 :: gs =>
  match mapE (withEdp params inp) (g0 :: gs) with
  | .error e => .error e
  | .ok edps =>
  match verifyEdps inp.demands (edps.map (·.2)) with
  | .error e => .error e
  | .ok _ =>
  match assembleDemands inp.eval inp.mults inp.demands (edps.map (·.2)) with
  | .error e => .error e
  | .ok demand =>
  match mapE (groupMedians params inp edps demand) (g0 :: gs) with
  | .error e => .error e
  | .ok cols => .ok (some cols.flatten)

section
variable {F : Type} [Field F]

/-- 2828-2866 and 2634: the deviation of a block; without a family there is none.  The family is that of
the consequence. -/
def deviate (params : Params) (dev : BlockKey → List F) (c : BlockKey × List (Option ℚ)) :
    Except PyErr (BlockKey × List (Option F)) :=
  match params.getE (c.1.loss, c.1.dv) with
  | .error e => .error e
  | .ok p =>
    match p.family with
    | none => .ok (c.1, c.2.map fun m => m.map fun x : ℚ => (x : F))
    | some _ => .ok (c.1, List.zipWith (fun m d => m.map fun x : ℚ => (x : F) * d) c.2 (dev c.1))

/-- `.sum()` over blocks, realization by realization, skipping NaN. -/
def sumColumns : List (List (Option F)) → List F
  | [] => []
  | [c] => c.map fun x => x.getD 0
  | c :: cs => List.zipWith (fun x s => x.getD 0 + s) c (sumColumns cs)

/-- 2648-2653: sum over the blocks of a performance group. -/
def sumBlocks (cols : List (BlockKey × List (Option F))) : List (OutKey × List F) :=
  let keys := (cols.map fun c => (⟨c.1.dv, c.1.loss, c.1.pg⟩ : OutKey)).dedup
  keys.map fun k => (k, sumColumns ((cols.filter fun c => decide ((⟨c.1.dv, c.1.loss, c.1.pg⟩ : OutKey) = k)).map (·.2)))

/-- The result without its columns sorted by label. -/
def sampleOf (params : Params) (dev : BlockKey → List F) (medians : List (BlockKey × List (Option ℚ))) :
    Except PyErr (Option (List (OutKey × List F))) :=
  match medians with
  | [] => .error .valueError
  | c :: cs =>
    match mapE (deviate params dev) (c :: cs) with
    | .error e => .error e
    | .ok cols => .ok (some (sumBlocks cols))

/-- 2505-2668.  `none`: no sample.  A table without any block cannot be given its column names
(`ValueError`). -/
def calculate (params : Params) (inp : Input) (dev : BlockKey → List F) (blocks : List (PGid × Nat)) :
    Except PyErr (Option (List (OutKey × List F))) :=
  match medians params inp blocks with
  | .error e => .error e
  | .ok none => .ok none
  | .ok (some cols) => sampleOf params dev cols

end

end Verif.LossLf
