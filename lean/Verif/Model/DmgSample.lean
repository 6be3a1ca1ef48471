import Verif.Model.DemandGen
import Verif.Model.DemandReq
import Verif.Model.DmgBatch
import Verif.Model.DmgEval
import Verif.Model.DmgRVs

/-!
# The sample of damage states

pelicun/model/damage_model.py: `_create_dmg_RVs` (1163-1594), `_generate_dmg_sample` (934-1038)
and `obtain_ds_sample` (761-856), on top of the batches (`Model/DmgBatch`), the numbering of
damage states (`Model/DmgRVs`), the demand data (`Model/DemandReq`), the registry
(`Model/UQRegistry`) and the evaluation of one realization (`Model/DmgEval`).

Capacities and uniform numbers are elements of an ordered field `F` (the reals, with the normal
distribution), demands and weights are rational.  The medians of the limit states are those after the capacity
adjustment, which is the subject of C47.  Every performance group has at least one block (with none, the code leaves
`ds_id_next` undefined or the performance group without columns).
-/

namespace Verif.DmgSample

open Verif.UQ Verif.FileIO
open Verif.DmgRVs (LSDS LSRow lsds)
open Verif.DmgEval (BlockId LSCell evaluate)
open Verif.DemandReq (PGid)
open Verif.DemandGen (tag rvSample toColumns sampleOf)

section
variable {F : Type} [Field F] [LinearOrder F]

/-- The distribution of a limit state: a family with numeric parameters, or `multilinear_CDF` with
the text in `Theta_0` (without truncation limits). -/
inductive CapDist (F : Type) [Field F] [LinearOrder F] where
  | dist (kind : RVKind F)
  | multilinear (text : Str)

/-- A limit state of a component; `none`: `Theta_0` is missing, the limit state is not defined. -/
structure LSCap (F : Type) [Field F] [LinearOrder F] where
  id : Str
  dist : Option (CapDist F)
  weights : Option Str := none

/-- The part of a limit state that decides on damage states (1466-1474, 1574-1584). -/
def LSCap.toRow (r : LSCap F) : LSRow :=
  { id := r.id, theta0 := r.dist.map fun _ => 0, weights := r.weights }

/-- `np.array(text.split(','), dtype=float)`; numpy also accepts infinite and undefined numbers. -/
def parseFloats (s : Str) : Except PyErr (List F) :=
  mapE (fun w => match pyFloat? w with
    | some (.fin q) => .ok (q : F)
    | _ => .error .valueError) (splitChar ',' s)

/-- 1535-1547 and uq.py 2090-2130: the points `x1,x2,...|y1,y2,...` of a multilinear function. -/
def parsePoints (s : Str) : Except PyErr (RVKind F) :=
  match splitChar '|' s with
  | xs :: ys :: _ =>
    match parseFloats xs, parseFloats ys with
    | .ok xs, .ok ys =>
      if xs.length = ys.length then (multilinearInit (xs.zip ys) none none).map .multilinear
      else .error .valueError
    | .error e, _ => .error e
    | _, .error e => .error e
  | _ => .error .indexError

/-- 1534-1554: the distribution of the capacity of block `b` (from zero).  `theta` is overwritten
with the parsed points in the first round of the loop over blocks, so that in the second one
`theta[0]` is an array without `split`. -/
def kindAt (d : CapDist F) (b : Nat) : Except PyErr (RVKind F) :=
  match d with
  | .dist k => .ok k
  | .multilinear s => if b = 0 then parsePoints s else .error .attributeError

/-- 1511-1519, 1564-1572: the labels of block `b` and a limit state. -/
def blockLabel (pg : PGid) (b : Nat) (ls : Str) : Label :=
  [pg.cmp, pg.loc, pg.dir, pg.uid, decStr (b + 1), ls]

/-- 1529-1532, 1561-1562: the anchor of a limit state: none for the first one in the table, for
the others the variable of the first one in this block.  If the first limit state is not defined,
the list of anchors is empty. -/
def anchorOf (pg : PGid) (head r : LSCap F) (b : Nat) : Except PyErr (Option (RV F)) :=
  if r.id = head.id then .ok none
  else match head.dist with
    | none => .error .indexError
    | some d =>
      match kindAt d b with
      | .error e => .error e
      | .ok k => .ok (some (.mk (tag (str "FRG") (blockLabel pg b head.id)) k none))

/-- The two variables of one limit state of one block. -/
structure BlockVar (F : Type) [Field F] [LinearOrder F] where
  label : Label
  cap : RV F
  ds : LSDS

/-- 1510-1584: the variables of a limit state for block `b`. -/
def blockVar (pg : PGid) (head r : LSCap F) (d : CapDist F) (v : LSDS) (b : Nat) :
    Except PyErr (BlockVar F) :=
  match anchorOf pg head r b with
  | .error e => .error e
  | .ok a =>
    match kindAt d b with
    | .error e => .error e
    | .ok k => .ok ⟨blockLabel pg b r.id, .mk (tag (str "FRG") (blockLabel pg b r.id)) k a, v⟩

/-- 1450-1588 for one limit state and `n` blocks. -/
def lsVars (pg : PGid) (n : Nat) (head : LSCap F) (ds : Dict Str LSDS) (r : LSCap F) :
    Except PyErr (List (BlockVar F)) :=
  match r.dist with
  | none => .ok []
  | some d =>
    match ds.get? r.id with
    | none => .error .keyError
    | some v => mapE (blockVar pg head r d v) (List.range n)

/-- The order of the limit states in the parameter table (file_io.py 527). -/
def lsLe (a b : LSCap F) : Bool := strLe (str "LS" ++ a.id) (str "LS" ++ b.id)

/-- 1438-1588: the variables of a performance group.  (The code creates them limit state by limit
state together with the numbering of the damage states; here the numbering comes first.  When
there are several errors, another one may be reported.) -/
def pgVars (pg : PGid) (n : Nat) (rows : List (LSCap F)) : Except PyErr (List (BlockVar F)) :=
  match lsds (rows.map LSCap.toRow) with
  | .error e => .error e
  | .ok ds =>
    match pySort lsLe rows with
    | [] => .ok []
    | head :: rest =>
      match mapE (lsVars pg n head ds) (head :: rest) with
      | .error e => .error e
      | .ok l => .ok l.flatten

/-- 1421-1588: the variables of a batch.  `caps` gives the limit states of a performance group
(`none`: no parameters for the component). -/
def batchVars (caps : PGid → Option (List (LSCap F))) (pgb : List (PGid × Nat)) :
    Except PyErr (List (BlockVar F)) :=
  match mapE (fun e => match caps e.1 with
      | none => .ok []
      | some rows => pgVars e.1 e.2 rows) pgb with
  | .error e => .error e
  | .ok l => .ok l.flatten

/-- `add_RV` for each variable (1556, 1293-1318). -/
def addVars : List (RV F) → Registry F → Except PyErr (Registry F)
  | [], r => .ok r
  | v :: vs, r =>
    match r.addRV v with
    | .error e => .error e
    | .ok r' => addVars vs r'

/-- 1259-1318: the variable that draws the damage state. -/
def lsdsKind : LSDS → RVKind F
  | .fixed ds => .deterministic [(ds : F)]
  | .drawn ws _ => .multinomial (ws.map fun w : ℚ => (w : F))

/-- 1279-1313: the offset added by `f_map`. -/
def lsdsOffset : LSDS → Nat
  | .fixed _ => 0
  | .drawn _ o => o

def lsdsVar (v : BlockVar F) : RV F := .mk (tag (str "LSDS") v.label) (lsdsKind v.ds) none

/-- Draws of the random number generator for one registry. -/
structure Draws (K : Type) where
  perm : Nat → List Nat
  jitter : Nat → List K

/-- `f_map` (1279-1313, uq.py 1166-1180) on the sample of a variable. -/
def mapDs (offset : Nat) (l : List (Ext F)) : List (Ext F) := l.map fun x => Ext.addF (offset : F) x

variable [FloorRing F]

/-- `astype(int)` of a sampled damage state (1026); undefined and infinite numbers are refused. -/
def toInt : Ext F → Except PyErr Int
  | .fin q => .ok (pyTrunc q)
  | _ => .error .valueError

/-- `astype(int)` on a column (1026). -/
def intColumn (c : Label × List (Ext F)) : Except PyErr (Label × List Int) :=
  match mapE toInt c.2 with
  | .error e => .error e
  | .ok l => .ok (c.1, l)

/-- 990-1002, 1009-1018: the sample of the capacities. -/
def sampleCaps (N : Num F) (vars : List (BlockVar F)) (n : Nat) (m : Method) (dc : Draws F) :
    Except PyErr (List (Label × List (Ext F))) :=
  match addVars (vars.map (·.cap)) {} with
  | .error e => .error e
  | .ok r => sampleOf N (str "FRG") 6 r n m dc.perm dc.jitter

/-- 1003-1007, 1020-1028: the sample of the damage states of the limit states. -/
def sampleLsds (NQ : Num F) (vars : List (BlockVar F)) (n : Nat) (m : Method) (dl : Draws F) :
    Except PyErr (List (Label × List Int)) :=
  match addVars (vars.map lsdsVar) {} with
  | .error e => .error e
  | .ok r =>
    match generateSample NQ r n m dl.perm dl.jitter with
    | .error e => .error e
    | .ok r' =>
      match toColumns (str "LSDS") 6 (vars.map fun v => (tag (str "LSDS") v.label,
          mapDs (lsdsOffset v.ds) ((r'.samples.get? (tag (str "LSDS") v.label)).getD []))) with
      | .error e => .error e
      | .ok ls => mapE intColumn ls

/-- 972-1038 `_generate_dmg_sample`: the columns of the capacities and of the damage states.  (Both
samples are drawn before either table is built; when both fail, the error may be the other one.) -/
def generateBatch (N : Num F) (NQ : Num F) (vars : List (BlockVar F)) (n : Nat) (m : Method)
    (dc : Draws F) (dl : Draws F) :
    Except PyErr (List (Label × List (Ext F)) × List (Label × List Int)) :=
  match sampleCaps N vars n m dc with
  | .error e => .error e
  | .ok cap =>
    match sampleLsds NQ vars n m dl with
    | .error e => .error e
    | .ok ls => .ok (cap, ls)

/-- A column label as block and limit state. -/
def blockOf : Label → BlockId × Str
  | [cmp, loc, dir, uid, block, ls] => (⟨cmp, loc, dir, uid, block⟩, ls)
  | _ => (⟨[], [], [], [], []⟩, [])

/-- The performance group of a block. -/
def pgOf (b : BlockId) : PGid := ⟨b.cmp, b.loc, b.dir, b.uid⟩

/-- 1110-1159: the cells of realization `i`. -/
def cellsAt (cap : List (Label × List (Ext F))) (ls : List (Label × List Int)) (i : Nat) :
    List (LSCell F) :=
  cap.map fun c => { block := (blockOf c.1).1, ls := (blockOf c.1).2, capacity := c.2.getD i .nan,
                     ds := ((Dict.get? ls c.1).getD []).getD i 0 }

/-- 1085-1103: `dmg_eval.loc[:1, PG_i]` for a performance group without a column. -/
def checkColumns (cap : List (Label × List (Ext F))) (pgs : List PGid) : Except PyErr Unit :=
  if ∀ pg ∈ pgs, ∃ c ∈ cap, pgOf (blockOf c.1).1 = pg then .ok () else .error .keyError

/-- What the damage calculation is given (`damage_params`, the options and the demand sample). -/
structure Input (F : Type) [Field F] [LinearOrder F] where
  /-- the limit states of a performance group, `none` if the component has no parameters -/
  caps : PGid → Option (List (LSCap F))
  nvars : Str → Except PyErr Nat
  eval : Str → List (List (Option ℚ)) → Except PyErr (List (Option ℚ))
  params : Dict Str DemandReq.CmpDemand
  offsets : Dict Str ℚ
  mults : Dict Str ℚ
  sample : DemandReq.DemandTable
  /-- `len(demand_sample)` -/
  size : Nat
  method : Method

/-- 823-848: the demand of each performance group of a batch. -/
def batchDemand (x : Input F) (pgs : List PGid) : Except PyErr (PGid → List (Option ℚ)) :=
  match DemandReq.requiredDemands x.nvars x.params x.offsets pgs with
  | .error e => .error e
  | .ok req =>
    match DemandReq.verifyEdps x.sample req.keys with
    | .error e => .error e
    | .ok _ =>
      match DemandReq.assembleDemands x.eval x.mults x.sample req.keys with
      | .error e => .error e
      | .ok d => .ok fun pg =>
        match req.find? fun e => decide (pg ∈ e.2) with
        | none => []
        | some e => (Dict.get? d e.1).getD []

/-- The demand of a block in realization `i` as a number of `F`. -/
def demandAt (d : PGid → List (Option ℚ)) (i : Nat) (b : BlockId) : Option F :=
  ((d (pgOf b)).getD i none).map fun q : ℚ => (q : F)

/-- 805-853: one batch, one row of damage states for each realization. -/
def runBatch (N : Num F) (NQ : Num F) (x : Input F) (dc : Draws F) (dl : Draws F)
    (pgb : List (PGid × Nat)) : Except PyErr (List (Dict BlockId Int)) :=
  match batchVars x.caps pgb with
  | .error e => .error e
  | .ok vars =>
    match generateBatch N NQ vars x.size x.method dc dl with
    | .error e => .error e
    | .ok (cap, ls) =>
      match batchDemand x (pgb.map Prod.fst) with
      | .error e => .error e
      | .ok d =>
        match checkColumns cap (pgb.map Prod.fst) with
        | .error e => .error e
        | .ok _ => .ok ((List.range x.size).map fun i => evaluate (demandAt d i) (cellsAt cap ls i))

/-- 779-803: the performance groups of the batches, in the order of the batch numbers. -/
def groupBatches (l : List (Nat × PGid × Int)) : List (List (PGid × Nat)) :=
  (uniqueVals [] (l.map (·.1))).map fun b =>
    (l.filter fun e => e.1 = b).map fun e => (e.2.1, e.2.2.toNat)

/-- 851-854: the batches side by side; `pd.concat` of no tables raises `ValueError`. -/
def concatBatches (size : Nat) : List (List (Dict BlockId Int)) → Except PyErr (List (Dict BlockId Int))
  | [] => .error .valueError
  | l => .ok ((List.range size).map fun i => l.flatMap fun rows => rows.getD i [])

/-- 761-856 `obtain_ds_sample`: the damage state of every block, one row for each realization.
`dc k` and `dl k` are the draws for batch `k` (from zero). -/
def obtainDs (N : Num F) (NQ : Num F) (x : Input F) (available missing : List Str)
    (blocks : List (PGid × Int)) (batchSize : Int) (dc : Nat → Draws F) (dl : Nat → Draws F) :
    Except PyErr (List (Dict BlockId Int)) :=
  match DmgBatch.pgBatches available missing blocks batchSize with
  | .error e => .error e
  | .ok l =>
    match mapE (fun e => runBatch N NQ x (dc e.2) (dl e.2) e.1) (groupBatches l).zipIdx with
    | .error e => .error e
    | .ok rows => concatBatches x.size rows

end

end Verif.DmgSample
