import Verif.Model.DemandReq
import Verif.Model.UQDist

/-!
# Random variables of the damage calculation

pelicun/model/damage_model.py `DamageModel_DS._create_dmg_RVs` (1163-1596): damage states of limit
states (`assign_lsds` 1210-1318) and capacity adjustment (`parse_scaling_specification` 1320-1402,
1460-1487, `_handle_operation` 858-897, `_handle_operation_list` 899-932).  Fragility functions
given as text (`multilinear_CDF`) are not modelled.
-/

namespace Verif.DmgRVs

open Verif.UQ (multinomialInit multinomialInverse)
open Verif.DemandReq (PGid)

/-- The parameters of one limit state of a component; NaN and absent cells are `none`. -/
structure LSRow where
  /-- the column name without the leading `LS` (1446-1448) -/
  id : Str
  family : Option Str := none
  theta0 : Option ℚ
  theta1 : Option ℚ := none
  weights : Option Str := none
  deriving DecidableEq

/-- The random variable that draws the damage state of a limit state. -/
inductive LSDS where
  | fixed (ds : Nat)
  | drawn (weights : List ℚ) (offset : Nat)
  deriving DecidableEq

/-- 1272-1275: `ds_weights.replace(' ', '').split('|')` as floats (nonfinite weights are refused
here; numpy would accept them). -/
def parseWeights (s : Str) : Except PyErr (List ℚ) :=
  mapE (fun w => match pyFloat? w with | some (.fin q) => .ok q | _ => .error .valueError)
    (splitChar '|' (s.filter (· ≠ ' ')))

/-- `assign_lsds`, 1259-1318: the variable and the number of the last damage state used. -/
def assignLsds (weights : Option Str) (dsId : Nat) : Except PyErr (LSDS × Nat) :=
  match weights with
  | none => .ok (.fixed (dsId + 1), dsId + 1)
  | some s =>
    match parseWeights s with
    | .error e => .error e
    | .ok ws =>
      match multinomialInit ws none none with
      | .error e => .error e
      | .ok ws => .ok (.drawn ws (dsId + 1), dsId + ws.length)

/-- 1450-1456, 1466-1468, 1571-1584: the loop over the limit states; undefined limit states
(`Theta_0` missing) are skipped.  The loop over blocks creates the same variable for each block. -/
def lsdsLoop : Nat → List LSRow → Except PyErr (List (Str × LSDS))
  | _, [] => .ok []
  | dsId, r :: rows =>
    match r.theta0 with
    | none => lsdsLoop dsId rows
    | some _ =>
      match assignLsds r.weights dsId with
      | .error e => .error e
      | .ok (v, next) =>
        match lsdsLoop next rows with
        | .error e => .error e
        | .ok l => .ok ((r.id, v) :: l)

/-- The damage states of the limit states of a component.  The columns of the parameter table are
sorted by name when it is loaded (file_io.py 527), so that the limit states come in the order of
their names. -/
def lsds (rows : List LSRow) : Except PyErr (List (Str × LSDS)) :=
  lsdsLoop 0 (pySort (fun a b => strLe (str "LS" ++ a.id) (str "LS" ++ b.id)) rows)

/-- The sampled damage states for uniform draws (1293-1313: the category plus an offset). -/
def sampleLsds {F : Type} [Field F] [LinearOrder F] (v : LSDS) (us : List F) : List F :=
  match v with
  | .fixed ds => us.map fun _ => (ds : F)
  | .drawn ws offset => (multinomialInverse (ws.map fun w : ℚ => (w : F)) us).1.map (· + (offset : F))

/-! ## Capacity adjustment -/

/-- An entry of a list of operations: text or something else. -/
inductive SpecVal where
  | text (s : Str)
  | other
  deriving DecidableEq

/-- The value under a limit state: a single entry or a list. -/
inductive SpecEntry where
  | one (v : SpecVal)
  | many (l : List SpecVal)
  deriving DecidableEq

/-- 1371-1374 -/
def SpecEntry.values : SpecEntry → List SpecVal
  | .one v => [v]
  | .many l => l

def operations : List Char := ['+', '-', '*', '/']

/-- 1375-1399 for one entry: `spec[0]` of an empty text is an `IndexError`. -/
def parseOp : SpecVal → Except PyErr (Char × PyFloat)
  | .other => .error .typeError
  | .text [] => .error .indexError
  | .text (c :: num) =>
    if c ∉ operations then .error .valueError
    else match pyFloat? num with
      | none => .error .valueError
      | some x => .ok (c, x)

/-- 1361-1370: the name of a limit state. -/
def checkName (ls : Str) : Except PyErr Unit :=
  if (str "LS").isPrefixOf ls || ls == str "ALL" then .ok () else .error .valueError

/-- 1361-1401 for one limit state. -/
def parseLS (e : Str × SpecEntry) : Except PyErr (Str × List (Char × PyFloat)) :=
  match checkName e.1 with
  | .error x => .error x
  | .ok () =>
    match mapE parseOp e.2.values with
    | .error x => .error x
    | .ok l => .ok (e.1, l)

/-- 1352-1401 for one component.  A limit state with an empty list gets no entry. -/
def parseComponent (e : Str × Dict Str SpecEntry) : Except PyErr (Str × Dict Str (List (Char × PyFloat))) :=
  if e.2.contains (str "ALL") ∧ 1 < e.2.length then .error .valueError
  else match mapE parseLS e.2 with
    | .error x => .error x
    | .ok l => .ok (e.1, l.filter fun x => x.2 ≠ [])

/-- `parse_scaling_specification`, 1320-1402. -/
def parseSpec (d : Dict Str (Dict Str SpecEntry)) : Except PyErr (Dict Str (Dict Str (List (Char × PyFloat)))) :=
  mapE parseComponent d

/-- `x / v` in floating point. -/
def divF (x : ℚ) : PyFloat → PyFloat
  | .fin v => if v = 0 then (if x = 0 then .nan else .inf (decide (x < 0))) else .fin (x / v)
  | .inf _ => .fin 0
  | .nan => .nan

/-- `x * v` in floating point. -/
def mulF (x : ℚ) : PyFloat → PyFloat
  | .fin v => .fin (x * v)
  | .inf neg => if x = 0 then .nan else .inf (if x < 0 then !neg else neg)
  | .nan => .nan

/-- `x + v` -/
def addF (x : ℚ) : PyFloat → PyFloat
  | .fin v => .fin (x + v)
  | v => v

/-- `x - v` -/
def subF (x : ℚ) : PyFloat → PyFloat
  | .fin v => .fin (x - v)
  | .inf neg => .inf (!neg)
  | .nan => .nan

/-- `_handle_operation`, 858-897 -/
def handleOperation (x : ℚ) (op : Char × PyFloat) : Except PyErr PyFloat :=
  if op.1 = '+' then .ok (addF x op.2)
  else if op.1 = '-' then .ok (subF x op.2)
  else if op.1 = '*' then .ok (mulF x op.2)
  else if op.1 = '/' then .ok (divF x op.2)
  else .error .valueError

/-- `Theta_0` used in the random variable: one value for all realizations or one per realization. -/
inductive Median where
  | single (x : PyFloat)
  | perRealization (l : List PyFloat)
  deriving DecidableEq

/-- 1453-1463: empty families are deterministic. -/
def familyOf (r : LSRow) : Str :=
  match r.family with
  | none => str "deterministic"
  | some f => if f = [] then str "deterministic" else f

/-- 1481-1493 -/
def selectOps (ops : Dict Str (List (Char × PyFloat))) (ls : Str) : Option (List (Char × PyFloat)) :=
  match ops.get? (str "ALL") with
  | some l => some l
  | none => ops.get? (str "LS" ++ ls)

/-- `_handle_operation_list` and the assignment, 899-932, 1494-1502. -/
def applyOps (x : ℚ) (l : List (Char × PyFloat)) : Except PyErr Median :=
  match mapE (handleOperation x) l with
  | .error e => .error e
  | .ok [v] => .ok (.single v)
  | .ok vs => .ok (.perRealization vs)

/-- 1475-1507: the median of a limit state `r` of a performance group, given the parsed
specification. -/
def adjustedMedian (spec : Dict Str (Dict Str (List (Char × PyFloat)))) (pg : PGid) (r : LSRow) (x : ℚ) :
    Except PyErr Median :=
  match spec.get? (joinChar '-' [pg.cmp, pg.loc, pg.dir]) with
  | none => .ok (.single (.fin x))
  | some ops =>
    if ops = [] then .ok (.single (.fin x))
    else if familyOf r = str "normal" ∨ familyOf r = str "lognormal" ∨ familyOf r = str "deterministic" then
      match selectOps ops r.id with
      | none => .ok (.single (.fin x))
      | some l => applyOps x l
    else .ok (.single (.fin x))

end Verif.DmgRVs
