import Verif.Model.UQDist
import Verif.Model.DemandReq
import Verif.Model.FileIO

/-!
# Damage states from demands and capacities

pelicun/model/damage_model.py `DamageModel_DS._evaluate_damage_state` (1040-1161), for one
realization: every step of that function acts on each row of the tables separately.
-/

namespace Verif.DmgEval

open Verif.FileIO (uniqueVals)
open Verif.UQ (Ext)

/-- The column labels `cmp`, `loc`, `dir`, `uid`, `block` of a component block. -/
structure BlockId where
  cmp : Str
  loc : Str
  dir : Str
  uid : Str
  block : Str
  deriving DecidableEq

/-- One column of the capacity sample and of the sample of damage states, in one realization.
Both tables have the same labels (`FRG-...` and `LSDS-...` of the same tag, 1494-1570). -/
structure LSCell (F : Type) where
  block : BlockId
  ls : Str
  capacity : Ext F
  ds : Int
  deriving DecidableEq

section
variable {F : Type} [Field F] [LinearOrder F]

/-- The name of the random variable (1495-1503) by which the columns are sorted (1014-1018). -/
def flatLabel (c : LSCell F) : Str :=
  joinChar '-' [str "FRG", c.block.cmp, c.block.loc, c.block.dir, c.block.uid, c.block.block, c.ls]

/-- 1014-1018: the columns sorted by name. -/
def sortCells (cells : List (LSCell F)) : List (LSCell F) :=
  pySort (fun a b => strLe (flatLabel a) (flatLabel b)) cells

/-- 1110: `(capacity - demand) < 0`; comparisons with NaN are false. -/
def exceeded (demand : BlockId → Option F) (c : LSCell F) : Bool :=
  match c.capacity, demand c.block with
  | .fin a, some d => decide (a - d < 0)
  | .negInf, some _ => true
  | _, _ => false

/-- 1126: the limit states in order of first appearance in the columns. -/
def lsList (cells : List (LSCell F)) : List Str := uniqueVals [] (cells.map (·.ls))

/-- 1129-1159 for one limit state and one block: the damage state is replaced if the block has
this limit state and it is exceeded. -/
def stepLS (demand : BlockId → Option F) (cells : List (LSCell F)) (ls : Str) (b : BlockId) (v : Int) : Int :=
  match cells.find? fun c => decide (c.block = b ∧ c.ls = ls) with
  | some c => if exceeded demand c then c.ds else v
  | none => v

/-- `_evaluate_damage_state` for one realization: the damage state of each block. -/
def evaluate (demand : BlockId → Option F) (cells : List (LSCell F)) : Dict BlockId Int :=
  let cells := sortCells cells
  (lsList cells).foldl (fun ds ls => ds.map fun e => (e.1, stepLS demand cells ls e.1 e.2))
    ((uniqueVals [] (cells.map (·.block))).map fun b => (b, 0))

end

end Verif.DmgEval
