import Verif.Model.Asset
import Verif.Model.FileIO

/-!
# The components of the buildings of a regional simulation

pelicun/tools/regional_sim.py `unique_list` (126-148) and the part of `process_buildings_chunk` that collects the
components of all buildings in one component model (547-591, 615).
-/

namespace Verif.RegAsset

open Verif.FileIO (uniqueVals)
open Verif.Asset (CmpRow PG loadCmpModel)
open Verif.UQ (Entry)

/-- A row of the table that the mapping script makes for one building.  The table has further columns, which are
dropped in 584-591. -/
structure Arch where
  cmp : Str
  unit : Str
  direction : Str
  quantity : Str
  deriving DecidableEq

/-- The buildings of a chunk, by their numbers, with the tables of their components (549-565; the mapping script itself
is an input). -/
abbrev Chunk := List (Int × List Arch)

/-- 126-148 `unique_list`; the values are already written as strings.  The list is not empty, as it is the column of a
group. -/
def uniqueList (vals : List Str) : Str :=
  match uniqueVals [] vals with
  | [v] => v
  | vs => joinChar ',' vs

/-- 567-580: the tables of all buildings, one after the other, with the number of the building as location. -/
def concat (m : Chunk) : List (Int × Arch) := m.flatMap fun b => b.2.map fun a => (b.1, a)

/-- 584: the components, in the order of `groupby`. -/
def components (m : Chunk) : List Str := pySort strLe (uniqueVals [] ((concat m).map fun e => e.2.cmp))

/-- 584: the rows of a component. -/
def rowsOf (m : Chunk) (c : Str) : List (Int × Arch) := (concat m).filter fun e => decide (e.2.cmp = c)

/-- A row of the component table of the chunk. -/
structure Marg where
  cmp : Str
  unit : Str
  location : Str
  direction : Str
  quantity : Str
  deriving DecidableEq

/-- 584-591: one row for each component.  The numbers of the buildings are distinguished before they are written. -/
def marginals (m : Chunk) : List Marg :=
  (components m).map fun c =>
    ⟨c, uniqueList ((rowsOf m c).map (·.2.unit)), joinChar ',' ((uniqueVals [] ((rowsOf m c).map (·.1))).map intStr),
      uniqueList ((rowsOf m c).map (·.2.direction)), uniqueList ((rowsOf m c).map (·.2.quantity))⟩

/-- asset_model.py 376-399: `Theta_0` is written as a string and read as a number.  Infinite quantities are not modelled
(reported as `ValueError`).  There is no distribution and no number of blocks. -/
def cmpRow (x : Marg) : Except PyErr CmpRow :=
  match pyFloat? x.quantity with
  | some (.fin q) => .ok ⟨x.cmp, x.location, x.direction, none, some x.unit, ⟨.undefined, false, [.num q], none, none⟩⟩
  | some .nan => .ok ⟨x.cmp, x.location, x.direction, none, some x.unit, ⟨.undefined, false, [.nan], none, none⟩⟩
  | _ => .error .valueError

/-- 547-591 and 615: the component model of the chunk.  The assessment has no number of stories.  A location or
direction that cannot be read is found before a quantity that cannot be read in the code, and after it here. -/
def componentModel (table : Dict Str ℚ) (m : Chunk) : Except PyErr (List (((Str × Str × Str) × Str) × PG)) :=
  match mapE cmpRow (marginals m) with
  | .error e => .error e
  | .ok rows => loadCmpModel table none rows

end Verif.RegAsset
