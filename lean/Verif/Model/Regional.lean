import Verif.Model.NNR
import Verif.Model.PySort
import Verif.Model.FileIO

/-!
# Regional simulation

pelicun/tools/regional_sim.py: the intensity measures of `process_buildings_chunk` (481-538) and the
organization of `process_and_save_chunk` (710-778) and `regional_sim` (781-1033).
-/

namespace Verif.Regional

open Verif.FileIO (uniqueVals)

/-! ## Intensity measures at the buildings -/

/-- The order of `sort_index(axis=1)` on columns with the levels grid point and intensity measure. -/
def colLe (a b : Nat × Str) : Bool := if a.1 < b.1 then true else if b.1 < a.1 then false else strLe a.2 b.2

/-- `regional_sim`, 877-891: the columns of the grid data; `ims` are the intensity measures in the order
of the configuration, and the grid points are numbered. -/
def gridColumns (nPoints : Nat) (ims : List Str) : List (Nat × Str) :=
  (List.range nPoints).flatMap fun g => ims.map fun im => (g, im)

/-- 488: the columns in alphabetical order. -/
def sortedColumns (nPoints : Nat) (ims : List Str) : List (Nat × Str) := pySort colLe (gridColumns nPoints ims)

/-- 492: number of intensity measures. -/
def nFeatures (nPoints : Nat) (ims : List Str) : Nat := (uniqueVals [] ((sortedColumns nPoints ims).map (·.2))).length

/-- 494-496: `to_numpy().T.reshape(n_sources, n_features, n_realizations)`.  `data` are the values of a
column in a realization. -/
def gridValues {K : Type} [Field K] (nPoints : Nat) (ims : List Str) (data : Nat → Str → Nat → K) (s f r : Nat) : K :=
  match (sortedColumns nPoints ims)[s * nFeatures nPoints ims + f]? with
  | some c => data c.1 c.2 r
  | none => 0

/-- 510-515: the labels of the demand columns, as pairs of intensity measure and building. -/
def imColumns (ims : List Str) (locs : List Int) : List (Str × Int) := locs.flatMap fun loc => ims.map fun im => (im, loc)

/-- 520-522: `transpose(2, 0, 1).reshape(n_realizations, -1)`, column by column. -/
def flatValues {K : Type} (nF : Nat) (out : List (Nat → Nat → K)) : List (Nat → K) :=
  out.flatMap fun v => (List.range nF).map fun f => v f

/-- 481-538: the columns of the demand sample.  `kn` is the neighbour search, `nReal` the number of
realizations in the grid files (at most the sample size, because of `nrows`). -/
def demandSample {K : Type} [Field K] (eps : K) (nPoints : Nat) (ims : List Str) (data : Nat → Str → Nat → K) (nReal : Nat)
    (kn : Int → List (K × Nat)) (nNeighbors sampleSize : Nat) (locs : List Int) :
    Except PyErr (List ((Str × Int) × List K)) :=
  match NNR.nnr eps (str "distance2") nNeighbors (gridValues nPoints ims data) kn locs with
  | .error e => .error e
  | .ok out =>
    .ok ((imColumns ims locs).zip ((flatValues (nFeatures nPoints ims) out).map fun col =>
      (List.range sampleSize).map fun j => col (j % nReal)))

/-! ## Chunks, jobs and files -/

/-- 942-945: `[df.iloc[i : i + size] for i in range(0, len(df), size)]` -/
def chunksAux {α : Type} (size : Nat) : Nat → List α → List (List α)
  | 0, _ => []
  | _, [] => []
  | fuel + 1, l => l.take size :: chunksAux size fuel (l.drop size)

def chunks {α : Type} (size : Nat) (l : List α) : List (List α) := chunksAux size l.length l

/-- The four tables. -/
inductive Kind
  | demand | damage | costs | times
  deriving DecidableEq

/-- 769-778 and 980-997 -/
def Kind.pre : Kind → Str
  | .demand => str "demand_part_"
  | .damage => str "damage_part_"
  | .costs => str "repair_costs_part_"
  | .times => str "repair_times_part_"

/-- The labels of the entries of a table: columns for the demands and rows for the others. -/
inductive Key
  | col (im : Str) (loc : Int)
  | row (id : Int)
  deriving DecidableEq

/-- A table with its entries (columns or rows). -/
abbrev Table (ρ : Type) := List (Key × ρ)

/-- 769-778: name of a temporary file. -/
def fileName (k : Kind) (i : Nat) : Str := k.pre ++ (decStr i ++ str ".csv")

/-- 982-997: `startswith`, in the order of the code. -/
def classify (name : Str) : Option Kind :=
  if (Kind.demand.pre).isPrefixOf name then some .demand
  else if (Kind.damage.pre).isPrefixOf name then some .damage
  else if (Kind.costs.pre).isPrefixOf name then some .costs
  else if (Kind.times.pre).isPrefixOf name then some .times
  else none

/-- 769-778: the files that job `i` writes; there may be no repair times. -/
def jobFiles {ρ : Type} (i : Nat) (res : Kind → Option (Table ρ)) : List (Str × Table ρ) :=
  [Kind.demand, .damage, .costs, .times].filterMap fun k => (res k).map fun t => (fileName k i, t)

/-- All files that the jobs write. -/
def allFiles {ρ : Type} (results : List (Kind → Option (Table ρ))) : List (Str × Table ρ) :=
  results.zipIdx.flatMap fun r => jobFiles r.2 r.1

/-- The folder after writing files one after the other. -/
def folder {ρ : Type} (events : List (Str × Table ρ)) : Dict Str (Table ρ) := events.foldl (fun d e => d.set e.1 e.2) []

/-- 980-997: the tables of one kind, in the order of `os.listdir`. -/
def collect {ρ : Type} (listing : List (Str × Table ρ)) (k : Kind) : List (Table ρ) :=
  listing.filterMap fun e => if classify e.1 = some k then some e.2 else none

/-- `reindex`: the entries with the target labels; missing ones are NaN.  Labels that appear more than
once are refused unless nothing changes. -/
def reindex {ρ : Type} (target : List Key) (t : Table ρ) : Except PyErr (List (Key × Option ρ)) :=
  if t.map (·.1) = target then .ok (t.map fun e => (e.1, some e.2))
  else if ¬ (t.map (·.1)).Nodup then .error .valueError
  else .ok (target.map fun key => (key, Dict.get? t key))

/-- 1007-1011, 1020, 1026 and 1032: the labels in the order of the inventory. -/
def target (ims : List Str) (ids : List Int) : Kind → List Key
  | .demand => ids.flatMap fun loc => ims.map fun im => .col im loc
  | _ => ids.map .row

/-- 1002-1033: the saved table of one kind, `none` if there is none. -/
def result {ρ : Type} (ims : List Str) (ids : List Int) (listing : List (Str × Table ρ)) (k : Kind) :
    Option (Except PyErr (List (Key × Option ρ))) :=
  if collect listing k = [] then none else some (reindex (target ims ids k) (collect listing k).flatten)

end Verif.Regional
