import Verif.Model.Regional

/-!
# Hazard data of a regional simulation

pelicun/tools/regional_sim.py `regional_sim` (839-891): the intensity measures of the configuration and the files of the
grid points, and the number of realizations in `process_buildings_chunk` (488-490).

Simplified: the configuration and the table of grid points have been read (829-837, 857-860); `samples` is a natural number; the
columns of a file have different names.
-/

namespace Verif.RegGrid

/-- A file of a grid point as `pd.read_csv` returns it (866, 882-884): its columns and its rows.  Simplified: a row is a function on all
names; only the columns that exist are read. -/
structure GridFile (K : Type) where
  cols : List Str
  rows : List (Str → K)

/-- The data of all grid points after `pd.concat(..., axis=1)` (891, its number of rows is read in 490): the number of rows, and the cell of a grid point, an intensity
measure and a row; `none` is NaN. -/
structure Grid (K : Type) where
  nReal : Nat
  cell : Nat → Str → Nat → Option K

variable {K : Type}

/-- 882-889: the file of one grid point, with at most `samples` rows and the columns of the intensity measures.  `none` is a
file that is not there. -/
def loadPoint (ims : List Str) (samples : Nat) : Option (GridFile K) → Except PyErr (List (Str → K))
  | none => .error .fileNotFoundError
  | some f => if ims.all fun im => decide (im ∈ f.cols) then .ok (f.rows.take samples) else .error .keyError

/-- 864-875: the columns of the first file are checked. -/
def checkFirst (ims : List Str) : List (Option (GridFile K)) → Except PyErr Unit
  | [] => .error .indexError
  | none :: _ => .error .fileNotFoundError
  | some f :: _ => if ims.all fun im => decide (im ∈ f.cols) then .ok () else .error .valueError

/-- 891: rows are matched by their number; there are as many as in the longest table. -/
def concat (points : List (List (Str → K))) : Grid K where
  nReal := (points.map List.length).foldr max 0
  cell g im r := (points[g]?.bind fun rows => rows[r]?).map fun row => row im

/-- 839-891.  `units` is the entry `RegionalEvent/units`, `files` are the files of the grid points. -/
def load (units : Option (Dict Str Str)) (samples : Nat) (files : List (Option (GridFile K))) : Except PyErr (Grid K) :=
  match units with
  | none => .error .valueError
  | some [] => .error .valueError
  | some (u :: us) =>
    match checkFirst ((u :: us).map (·.1)) files with
    | .error e => .error e
    | .ok _ =>
      match mapE (loadPoint ((u :: us).map (·.1)) samples) files with
      | .error e => .error e
      | .ok points => .ok (concat points)

end Verif.RegGrid
