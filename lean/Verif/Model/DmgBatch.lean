import Verif.Model.DemandReq
import Verif.Model.FileIO

/-!
# Batches of performance groups

pelicun/model/damage_model.py `DamageModel_Base._get_pg_batches` (582-704).
-/

namespace Verif.DmgBatch

open Verif.DemandReq (PGid)
open Verif.FileIO (uniqueVals labelLe)

/-- A row of `component_blocks` with the columns `Blocks`, `CBlocks` and `Batch`. -/
structure BRow where
  pg : PGid
  blocks : Int
  c : Int
  batch : Nat
  deriving DecidableEq

/-- The order of the labels `loc`, `dir`, `cmp`, `uid` (653-656). -/
def pgLe (a b : PGid) : Bool :=
  labelLe [a.loc, a.dir, a.cmp, a.uid] [b.loc, b.dir, b.cmp, b.uid]

/-- 639-656: the rows of missing components are dropped, those of components with damage
parameters are kept, rows with the same label are summed up and sorted.  (`drop` raises if a
missing component is not in the table; the callers only pass components that are.) -/
def prepare (available missing : List Str) (table : List (PGid × Int)) : List (PGid × Int) :=
  let rows := table.filter fun e => e.1.cmp ∉ missing ∧ e.1.cmp ∈ available
  (pySort pgLe (uniqueVals [] (rows.map Prod.fst))).map fun pg =>
    (pg, ((rows.filter fun e => e.1 = pg).map Prod.snd).sum)

/-- 658-662: the cumulative sum, batch zero. -/
def withSums : Int → List (PGid × Int) → List BRow
  | _, [] => []
  | s, (pg, n) :: l => ⟨pg, n, s + n, 0⟩ :: withSums (s + n) l

/-- 668-676 -/
def inBudget (size : Int) (r : BRow) : Bool := decide (r.c ≤ size ∧ 0 < r.c)

/-- 680: the first row with a positive cumulative sum gets the batch. -/
def assignFirst (b : Nat) : List BRow → Except PyErr (List BRow)
  | [] => .error .indexError
  | r :: l =>
    if 0 < r.c then .ok ({ r with batch := b } :: l)
    else match assignFirst b l with
      | .error e => .error e
      | .ok l' => .ok (r :: l')

/-- 668-682 -/
def assign (size : Int) (b : Nat) (rows : List BRow) : Except PyErr (List BRow) :=
  if rows.any (inBudget size) then
    .ok (rows.map fun r => if inBudget size r then { r with batch := b } else r)
  else assignFirst b rows

/-- `Series.max()` -/
def maxOf : List Int → Option Int
  | [] => none
  | a :: l => match maxOf l with
    | none => some a
    | some m => some (max a m)

/-- 686-688 -/
def subtractMax (b : Nat) (rows : List BRow) : List BRow :=
  match maxOf ((rows.filter fun r => r.batch = b).map (·.c)) with
  | none => rows
  | some m => rows.map fun r => { r with c := r.c - m }

/-- 665-693: the loop over batch numbers. -/
def batchLoop (size : Int) : List Nat → List BRow → Except PyErr (List BRow)
  | [], rows => .ok rows
  | b :: bs, rows =>
    match assign size b rows with
    | .error e => .error e
    | .ok rows1 =>
      let rows2 := subtractMax b rows1
      if maxOf (rows2.map (·.c)) = some 0 then .ok rows2 else batchLoop size bs rows2

/-- The order of the result: batch, cmp, loc, dir, uid (702-704). -/
def outLe (a b : Nat × PGid × Int) : Bool :=
  if a.1 < b.1 then true else if b.1 < a.1 then false
  else labelLe [a.2.1.cmp, a.2.1.loc, a.2.1.dir, a.2.1.uid] [b.2.1.cmp, b.2.1.loc, b.2.1.dir, b.2.1.uid]

/-- `_get_pg_batches`; the labels are distinct after the first grouping, so that the second
`groupby` (697-699) sums nothing. -/
def pgBatches (available missing : List Str) (table : List (PGid × Int)) (size : Int) :
    Except PyErr (List (Nat × PGid × Int)) :=
  let rows := withSums 0 (prepare available missing table)
  match batchLoop size ((List.range rows.length).map (· + 1)) rows with
  | .error e => .error e
  | .ok rows => .ok (pySort outLe (rows.map fun r => (r.batch, r.pg, r.blocks)))

end Verif.DmgBatch
