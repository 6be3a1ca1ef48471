import Verif.Model.DmgTasks
import Verif.Model.DmgRVs

/-!
# Damaged quantities

pelicun/model/damage_model.py `prepare_dmg_quantities` (1598-1704), `probabilities` (725-759) and
`complete_ds_cols` (1916-2021).
-/

namespace Verif.DmgQty

open Verif.DmgEval (BlockId)
open Verif.DmgTasks (Sample)
open Verif.DmgRVs (LSRow)
open Verif.DemandReq (PGid)
open Verif.FileIO (uniqueVals labelLe)

/-- The performance group of a block. -/
def pgOf (b : BlockId) : PGid := ⟨b.cmp, b.loc, b.dir, b.uid⟩

/-- `set(damage_state_series.values)`, 1669 -/
def dsSet (s : Sample) (b : BlockId) : List Int := uniqueVals [] (s.rows.map fun row => row b)

/-- 1670-1674: the damage states of a block for which a column is made. -/
def dsKept (dropzero : Bool) (s : Sample) (b : BlockId) : List Int :=
  (dsSet s b).filter fun ds => decide (ds ≠ -1) && !(dropzero && decide (ds = 0))

/-- 1675-1687: the value of a column in one realization; NaN is `none`. -/
def cell (hasNa : Bool) (q n : ℚ) (ds v : Int) : Option ℚ :=
  let x := if v = ds then q / n else 0
  if hasNa then (if v ≠ -1 then some x else none) else some x

/-- The labels of the columns before grouping, 1659-1691. -/
def seriesKeys (dropzero : Bool) (s : Sample) : List (BlockId × Int) :=
  s.cols.flatMap fun b => (dsKept dropzero s b).map fun ds => (b, ds)

/-- The sum with `min_count=1`: missing values are skipped, and the sum is missing if all are. -/
def sumMin1 (l : List (Option ℚ)) : Option ℚ :=
  if l.filterMap id = [] then none else some (l.filterMap id).sum

/-- The value of the column `(pg, ds)` of the result in the realization with damage states `row` and
component quantities `qty`. -/
def quantity (dropzero : Bool) (s : Sample) (blocks : PGid → ℚ) (pg : PGid) (ds : Int) (row : BlockId → Int) (qty : PGid → ℚ) :
    Option ℚ :=
  sumMin1 (((seriesKeys dropzero s).filter fun k => decide (pgOf k.1 = pg ∧ k.2 = ds)).map fun k =>
    cell (decide (-1 ∈ dsSet s k.1)) (qty (pgOf k.1)) (blocks (pgOf k.1)) k.2 (row k.1))

/-- The labels of the result: sorted by `cmp`, `loc`, `dir`, `uid` and the damage state as text. -/
def keyLe (a b : PGid × Int) : Bool :=
  labelLe [a.1.cmp, a.1.loc, a.1.dir, a.1.uid, intStr a.2] [b.1.cmp, b.1.loc, b.1.dir, b.1.uid, intStr b.2]

/-- A table of damaged quantities. -/
abbrev Table := List ((PGid × Int) × List (Option ℚ))

/-- `prepare_dmg_quantities`, 1598-1704.  `blocks` is 1 for all groups if the asset model has no
number of blocks.  `pd.concat` refuses an empty collection. -/
def prepare (dropzero : Bool) (s : Sample) (blocks : PGid → ℚ) (qty : List (PGid → ℚ)) : Except PyErr Table :=
  match seriesKeys dropzero s with
  | [] => .error .valueError
  | k :: ks =>
    .ok ((pySort keyLe (uniqueVals [] ((k :: ks).map fun k => (pgOf k.1, k.2)))).map fun key =>
      (key, (s.rows.zip qty).map fun r => quantity dropzero s blocks key.1 key.2 r.1 r.2))

/-! ## Probabilities -/

/-- 740-750: the probabilities of the damage states of one block; `none` without any defined
damage state. -/
def blockProbs (s : Sample) (b : BlockId) : Option (List (Int × ℚ)) :=
  let values := (s.rows.map fun row => row b).filter fun v => decide (v ≠ -1)
  if values = [] then none
  else some ((uniqueVals [] values).map fun ds => (ds, (values.count ds : ℚ) / (values.length : ℚ)))

/-- `probabilities`, 725-759, as one list of damage states and probabilities per block.  If no block
has a defined damage state, `pd.DataFrame` of scalars without an index is refused. -/
def probabilities (s : Sample) : Except PyErr (List (BlockId × Option (List (Int × ℚ)))) :=
  if s.cols.all fun b => (blockProbs s b).isNone then
    (if s.cols = [] then .ok [] else .error .valueError)
  else .ok (s.cols.map fun b => (b, blockProbs s b))

/-! ## All damage states -/

/-- 1979-1988: the damage states of one limit state. -/
def addStates (n : Nat) (r : LSRow) : Nat :=
  match r.theta0 with
  | none => n
  | some _ => match r.weights with
    | none => n + 1
    | some w => n + (splitChar '|' w).length

/-- 1971-1988: the number of damage states of a component. -/
def dsCount (rows : List LSRow) : Nat := rows.foldl addStates 0

/-- 1958: the performance groups of the sample. -/
def header (t : Table) : List PGid :=
  pySort (fun a b => labelLe [a.cmp, a.loc, a.dir, a.uid] [b.cmp, b.loc, b.dir, b.uid])
    (uniqueVals [] (t.map fun c => c.1.1))

/-- 1971-2011: the labels of the completed table. -/
def allLabels (params : List (Str × List LSRow)) (t : Table) : List (PGid × Int) :=
  params.flatMap fun p =>
    (List.range (dsCount p.2 + 1)).flatMap fun (ds : Nat) =>
      ((header t).filter fun pg => decide (pg.cmp = p.1)).map fun pg => (pg, (ds : Int))

/-- `complete_ds_cols`, 1916-2021.  The labels of damage states are compared as numbers instead of
texts.  Without any label the empty index has no levels to reorder; a column of the sample that is
not among the labels is a `KeyError`.  `n` is the number of realizations.  Tables without
a column of weights (a `KeyError` in 1980) are not modelled. -/
def complete (params : List (Str × List LSRow)) (n : Nat) (t : Table) : Except PyErr Table :=
  let labels := allLabels params t
  if labels = [] then .error .attributeError
  else if t.all fun c => decide (c.1 ∈ labels) then
    .ok (labels.map fun k => (k, match Dict.get? t k with
      | some v => v
      | none => List.replicate n (some 0)))
  else .error .keyError

end Verif.DmgQty
