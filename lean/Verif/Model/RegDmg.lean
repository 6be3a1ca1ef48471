import Verif.Model.ToolDmg

/-!
# Damage states in regional simulations

pelicun/tools/regional_sim.py, the part of `process_buildings_chunk` after the damage calculation (637-692).
-/

namespace Verif.RegDmg

open Verif.FileIO (uniqueVals)
open Verif.ToolDmg

/-- `astype(int)` cuts off the digits after the point. -/
def trunc (x : ℚ) : Int := if 0 ≤ x then ⌊x⌋ else ⌈x⌉

/-- 689-691: the sums over the components of a location; its label must be a number. -/
def ofLocation (g : Sample (Str × Str)) (loc : Str) : Except PyErr (Int × List Int) :=
  match pyInt? loc with
  | some n => .ok (n, g.rows.map fun row => ((g.cols.filter fun c => decide (c.2 = loc)).map fun c => trunc ((row c).getD 0)).sum)
  | none => .error .valueError

/-- 642-679: sums over `uid`, over directions, and the governing damage state by component and location.  These are the
same operations as in `_damage_save` (`ToolDmg`).  685: missing values cannot be converted to integers.  687-692:
the sum over the components of a location, sorted by the number of the location. -/
def damageStates (s : Sample Key) : Except PyErr (List (Int × List Int)) :=
  match condense (grpDamage true s) with
  | .error e => .error e
  | .ok g =>
    if g.rows.any fun row => g.cols.any fun c => (row c).isNone then .error .valueError
    else
      match mapE (ofLocation g) (pySort strLe (uniqueVals [] (g.cols.map (·.2)))) with
      | .error e => .error e
      | .ok r => .ok (pySort (fun a b => decide (a.1 ≤ b.1)) r)

end Verif.RegDmg
