import Verif.Model.LossCalc
import Verif.Model.FileIO

/-!
# Losses in regional simulations

pelicun/tools/regional_sim.py `unique_list` (126-148), `_calculate_losses_hazus_eq` (206-348) and
`_calculate_losses_general` (351-426).

Buildings have numbers; the location of a component of a building is the text of its number.  The losses of
the damage state model are those of `LossDev.calculate`; loss functions play no role.
-/

namespace Verif.RegLoss

open Verif.FileIO (uniqueVals labelLe)
open Verif.UQ (Num Method)
open Verif.LossDs (DKey OutKey Params Eco)
open Verif.LossCalc (Damage)

section
variable {F : Type} [Field F] [LinearOrder F] [FloorRing F]

/-- Consequence database, settings and random numbers.  The random numbers are given by calculation: the
occupancy class, or nothing.  Costs and times are not correlated, this is the default (596-602). -/
structure Setup (F : Type) [Field F] [LinearOrder F] where
  num : Num F
  method : Method
  eco : Eco
  params : Params
  spread : Str × Str → Str → List F
  perm : Option Str → Nat → List Nat
  jitter : Option Str → Nat → List F

/-- Sum over columns with the same label, `x.T.groupby(level=...).sum().T`, in the order of the labels, for `n`
realizations.  Losses are never missing values, so the mask for groups without values has no effect. -/
def groupSum {κ γ : Type} [DecidableEq γ] (g : κ → γ) (le : γ → γ → Bool) (n : Nat) (s : List (κ × List F)) : List (γ × List F) :=
  (pySort le (uniqueVals [] (s.map fun e => g e.1))).map fun c =>
    (c, (List.range n).map fun i => ((s.filter fun e => decide (g e.1 = c)).map fun e => e.2.getD i 0).sum)

/-- 303-308: the levels without `uid`. -/
def noUid (k : OutKey) : List Str := [k.dv, k.loss, k.dmg, k.ds, k.loc, k.dir]

/-- 312: the levels `dv` and `loc` of such a label. -/
def dvLoc (k : List Str) : Str × Str := (k.getD 0 [], k.getD 4 [])

/-- 296-318 and 393-411: losses by decision variable and building. -/
def aggregate (n : Nat) (out : List (OutKey × List F)) : List ((Str × Str) × List F) :=
  groupSum dvLoc (fun a b => labelLe [a.1, a.2] [b.1, b.2]) n (groupSum noUid labelLe n out)

/-- `grp_repair[dv]`: the columns of a decision variable, a `KeyError` if there are none. -/
def ofDv (dv : Str) (grp : List ((Str × Str) × List F)) : Except PyErr (List (Str × List F)) :=
  match grp.filterMap fun e => if e.1.1 = dv then some (e.1.2, e.2) else none with
  | [] => .error .keyError
  | l => .ok l

/-- 322-327: the columns of the buildings of a group, a `KeyError` if one is not there. -/
def ofBuildings (ids : List Nat) (cols : List (Str × List F)) : Except PyErr (List (Nat × List F)) :=
  mapE (fun id => match Dict.get? cols (decStr id) with
    | none => .error .keyError
    | some v => .ok (id, v)) ids

/-- 237-242, 268-279: the buildings of an occupancy class that have columns in the damage sample.  Buildings
without an occupancy class are in no group. -/
def groupIds (bldgs : List (Nat × Option Str)) (d : Damage) (occ : Str) : List Nat :=
  (uniqueVals [] (bldgs.filterMap fun b => if b.2 = some occ then some b.1 else none)).filter fun id =>
    d.cols.any fun k => decide (k.loc = decStr id)

/-- 242: the occupancy classes, sorted. -/
def occupancies (bldgs : List (Nat × Option Str)) : List Str := pySort strLe (uniqueVals [] (bldgs.filterMap (·.2)))

/-- 282-286: the damage of some buildings. -/
def subset (ids : List Nat) (d : Damage) : Damage := ⟨d.cols.filter fun k => ids.any fun id => decide (k.loc = decStr id), d.rows⟩

/-- The consequences that are not in the database. -/
def missing (params : Params) (losses dvs : List Str) : List (Str × Str) :=
  losses.flatMap fun l => (dvs.filter fun dv => decide (params.rows.get? (l, dv) = none)).map fun dv => (l, dv)

/-- 289-309: the consequence of an occupancy class. -/
def lossId (occ : Str) : Str := str "LF." ++ occ

/-- 289-305: every damaged component has the consequence of the occupancy class. -/
def hazusMap (occ : Str) (d : Damage) : List (Str × Str) := (uniqueVals [] (d.cols.map (·.cmp))).map fun c => (c, lossId occ)

def dvs : List Str := [str "Cost", str "Time"]

/-- 311-321: the losses of the buildings of an occupancy class. -/
def hazusLosses (S : Setup F) (occ : Str) (sub : Damage) : Except PyErr (Option (List (OutKey × List F))) :=
  LossDev.calculate S.num S.eco S.params S.spread (missing S.params [lossId occ] dvs) sub.cols (hazusMap occ sub) dvs none S.method
    (S.perm (some occ)) (S.jitter (some occ)) sub.rows

/-- 264-337: one occupancy class; no loss sample is an `AssertionError` in `save_sample`. -/
def hazusGroup (S : Setup F) (bldgs : List (Nat × Option Str)) (d : Damage) (occ : Str) :
    Except PyErr (List (Nat × List F) × List (Nat × List F)) :=
  match hazusLosses S occ (subset (groupIds bldgs d occ) d) with
  | .error e => .error e
  | .ok none => .error .assertionError
  | .ok (some out) =>
    match ofDv (str "Cost") (aggregate d.rows.length out) with
    | .error e => .error e
    | .ok cost =>
      match ofBuildings (groupIds bldgs d occ) cost with
      | .error e => .error e
      | .ok cost =>
        match ofDv (str "Time") (aggregate d.rows.length out) with
        | .error e => .error e
        | .ok time =>
          match ofBuildings (groupIds bldgs d occ) time with
          | .error e => .error e
          | .ok time => .ok (cost, time)

/-- 206-348 `_calculate_losses_hazus_eq`: repair costs and times by building, sorted by number.  Without any group there is
nothing to concatenate. -/
def hazusEq (S : Setup F) (bldgs : List (Nat × Option Str)) (d : Damage) : Except PyErr (List (Nat × List F) × List (Nat × List F)) :=
  match mapE (hazusGroup S bldgs d) (occupancies bldgs) with
  | .error e => .error e
  | .ok [] => .error .valueError
  | .ok rs => .ok (pySort (fun a b => decide (a.1 ≤ b.1)) (rs.flatMap (·.1)), pySort (fun a b => decide (a.1 ≤ b.1)) (rs.flatMap (·.2)))

/-- 351-426 `_calculate_losses_general`: every component of the asset has the consequence of the same name.  The locations stay texts here. -/
def general (S : Setup F) (cmps dvs : List Str) (d : Damage) : Except PyErr (List (Str × List F) × Option (List (Str × List F))) :=
  match LossDev.calculate S.num S.eco S.params S.spread (missing S.params cmps dvs) d.cols (cmps.map fun c => (c, c)) dvs none S.method
      (S.perm none) (S.jitter none) d.rows with
  | .error e => .error e
  | .ok none => .error .assertionError
  | .ok (some out) =>
    match ofDv (str "Cost") (aggregate d.rows.length out) with
    | .error e => .error e
    | .ok cost =>
      if str "Time" ∈ dvs then
        match ofDv (str "Time") (aggregate d.rows.length out) with
        | .error e => .error e
        | .ok time => .ok (cost, some time)
      else .ok (cost, none)

end

end Verif.RegLoss
