import Verif.Model.PyStr
import Verif.Model.PySort
import Verif.Model.FileIO

/-!
# Building id filters

pelicun/tools/regional_sim.py `parse_id_filter` (61-123) and its use in `regional_sim` (908-930).
-/

namespace Verif.RegFilter

open Verif.FileIO (uniqueVals)

/-- `range(start, end + 1)` -/
def pyRange (a b : Int) : List Int := (List.range (b + 1 - a).toNat).map fun (i : Nat) => a + (i : Int)

/-- 92-110: a range. -/
def rangePart (a b : Option Int) : Except PyErr (List Int) :=
  match a, b with
  | some a, some b => if a > b then .error .valueError else .ok (pyRange a b)
  | _, _ => .error .valueError

/-- 89-121: the ids of one part, which is already stripped. -/
def parsePart (part : Str) : Except PyErr (List Int) :=
  if part = [] then .ok []
  else match splitChar1 '-' part with
    | (s, some t) =>
      rangePart (pyInt? s) (pyInt? t)
    | (_, none) =>
      match pyInt? part with
      | some n => .ok [n]
      | none => .error .valueError

/-- The order of integers. -/
def intLe (a b : Int) : Bool := decide (a ≤ b)

/-- `parse_id_filter`, 61-123.  `''.split(',')` has one empty part, so an empty filter gives no ids. -/
def parseIdFilter (s : Str) : Except PyErr (List Int) :=
  match mapE (fun p => parsePart (strip isSpace p)) (splitChar ',' s) with
  | .error e => .error e
  | .ok l => .ok (pySort intLe (uniqueVals [] l.flatten))

/-- `bldg_df.loc[ids]`: for each id all its rows, in the order of the inventory. -/
def locRows {α : Type} (inventory : List (Int × α)) (ids : List Int) : List (Int × α) :=
  ids.flatMap fun i => inventory.filter fun r => decide (r.1 = i)

/-- `regional_sim`, 908-930. -/
def applyFilter {α : Type} (filter : Option Str) (inventory : List (Int × α)) : Except PyErr (List (Int × α)) :=
  match filter with
  | none => .ok inventory
  | some s =>
    if s = [] then .ok inventory
    else match parseIdFilter s with
      | .error e => .error e
      | .ok ids =>
        if ids = [] then .ok inventory
        else if ids.any fun i => decide (i ∉ inventory.map (·.1)) then .error .valueError
        else .ok (locRows inventory ids)

end Verif.RegFilter
