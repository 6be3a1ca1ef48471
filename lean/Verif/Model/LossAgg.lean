import Verif.Model.FileIO
import Verif.Model.PyNum

/-!
# Aggregating losses

pelicun/model/loss_model.py `LossModel.sample` (111-146), `aggregate_losses` (791-960),
`_make_replacement_exclusive` (1486-1514), `_apply_replacement_thresholds` (1382-1484) and
`_aggregate_sample` (1313-1380).  A realization is a function from the columns to the values; cells are
never missing (losses of damage states are filled with zeros, 2120).  Loss combinations are in
`LossComb`; warnings and the order of columns are not modelled.
-/

namespace Verif.LossAgg

/-- The levels `dv`, `loss`, `dmg`, `loc`, `dir`, `uid` of a loss column. -/
structure LKey where
  dv : Str
  loss : Str
  dmg : Str
  loc : Str
  dir : Str
  uid : Str
  deriving DecidableEq

/-- A table of losses: columns and realizations. -/
structure Sample (κ : Type) where
  cols : List κ
  rows : List (κ → ℚ)

/-- Loss sample of the damage state model: the second entry of a label is the `ds` level. -/
abbrev DsSample := Sample (LKey × Str)
/-- Loss sample of the loss function model. -/
abbrev LfSample := Sample LKey

/-- `[...].sum()` over the columns that satisfy a condition. -/
def sumOver {κ : Type} (cols : List κ) (p : κ → Bool) (row : κ → ℚ) : ℚ := ((cols.filter p).map row).sum

/-- A row in which the columns that satisfy the condition are set to zero. -/
def zeroWhere {κ : Type} (p : κ → Bool) (row : κ → ℚ) : κ → ℚ := fun k => if p k then 0 else row k

/-- 1494-1509: does the realization have a positive replacement consequence? -/
def replacedRow (cols : List (LKey × Str)) (row : LKey × Str → ℚ) : Bool :=
  cols.any fun c => decide (c.1.loss = str "replacement" ∧ 0 < row c)

/-- 1510: the other columns of the realizations with replacement are set to zero. -/
def exclusiveDs (ds : DsSample) : DsSample :=
  { ds with rows := ds.rows.map fun row =>
      if replacedRow ds.cols row then zeroWhere (fun c => decide (c.1.loss ≠ str "replacement")) row else row }

/-- 1511-1512: and all columns of the loss functions. -/
def exclusiveLf (ds : DsSample) (lf : LfSample) : LfSample :=
  ⟨lf.cols, List.zipWith (fun drow row => if replacedRow ds.cols drow then zeroWhere (fun _ => true) row else row)
    ds.rows lf.rows⟩

/-- 1486-1514 `_make_replacement_exclusive` -/
def makeExclusive (ds : DsSample) (lf : Option LfSample) : DsSample × Option LfSample :=
  (exclusiveDs ds, lf.map (exclusiveLf ds))

/-- The columns of `self.sample` (111-146), labelled without the `ds` level: a label occurs once for
each damage state and once more for the loss functions. -/
def rowOf (ds : Option DsSample) (lf : Option LfSample) (i : Nat) : LKey → ℚ := fun k =>
  (match ds with
    | none => 0
    | some s => match s.rows[i]? with
      | none => 0
      | some row => sumOver s.cols (fun c => decide (c.1 = k)) row) +
  (match lf with
    | none => 0
    | some s => match s.rows[i]? with
      | none => 0
      | some row => sumOver s.cols (fun c => decide (c = k)) row)

def colsOf (ds : Option DsSample) (lf : Option LfSample) : List LKey :=
  FileIO.uniqueVals [] ((match ds with
    | none => []
    | some s => s.cols.map (·.1)) ++ (match lf with
    | none => []
    | some s => s.cols))

def nRows (ds : Option DsSample) (lf : Option LfSample) : Nat :=
  match ds, lf with
  | some s, _ => s.rows.length
  | none, some s => s.rows.length
  | none, none => 0

/-- 111-146 and 920-924: the samples are joined and summed over the damage states.  Both samples have
the same number of realizations. -/
def combined (ds : Option DsSample) (lf : Option LfSample) : LfSample :=
  ⟨colsOf ds lf, (List.range (nRows ds lf)).map fun (i : Nat) => rowOf ds lf i⟩

/-- The replacement configuration: the registry has, for each decision variable, the sampled value of
each realization; the thresholds are given as ratios. -/
structure Config where
  reg : Dict Str (Nat → ℚ)
  ratios : Dict Str ℚ

/-- 1412-1428: no replacement consequence of this decision variable is positive. -/
def noReplacement (cols : List LKey) (dv : Str) (row : LKey → ℚ) : Bool :=
  !(cols.any fun k => decide (k.dv = dv ∧ k.loss = str "replacement" ∧ 0 < row k))

/-- 1430-1433: the sum to compare with the threshold. -/
def repairSum (cols : List LKey) (dv : Str) (row : LKey → ℚ) : ℚ :=
  sumOver cols (fun k => decide (k.dv = dv ∧ k.loss ≠ str "replacement")) row

/-- 1408-1456: the flags of one decision variable.  `sample.loc[:, dv]` and
`replacement_ratios[dv]` raise `KeyError`; the ratio is only used if some realization has no
replacement. -/
def flagsOf (s : LfSample) (ratios : Dict Str ℚ) (dv : Str) (value : Nat → ℚ) : Except PyErr (List Bool) :=
  if ∀ k ∈ s.cols, k.dv ≠ dv then .error .keyError
  else if ∀ row ∈ s.rows, noReplacement s.cols dv row = false then .ok (s.rows.map fun _ => false)
  else
    match ratios.get? dv with
    | none => .error .keyError
    | some ratio => .ok (s.rows.mapIdx fun i row =>
        noReplacement s.cols dv row && decide (repairSum s.cols dv row > value i * ratio))

/-- The column for replacement triggered by thresholds, 1464-1471 -/
def thrKey (dv : Str) : LKey := ⟨dv, str "replacement", str "threshold_exceedance", str "0", str "1", str "0"⟩

/-- Is the realization `i` flagged in some decision variable? (1461) -/
def exceeded (flags : List (Str × List Bool)) (i : Nat) : Bool := flags.any fun f => f.2.getD i false

/-- 1462-1482 for a realization. -/
def replaceRow (cols : List LKey) (reg : Dict Str (Nat → ℚ)) (hit : Bool) (i : Nat) (row : LKey → ℚ) : LKey → ℚ :=
  fun k =>
    let old := if k ∈ cols then row k else 0
    if hit then
      if k.dmg ≠ str "threshold_exceedance" then 0
      else
        match reg.get? k.dv with
        | some value => if k = thrKey k.dv then value i else old
        | none => old
    else old

/-- 1382-1484 `_apply_replacement_thresholds` with a configuration: the new sample and, for each
decision variable of the registry, the flags.  The sampling of the registry (1406) is the argument. -/
def applyThresholds (s : LfSample) (cfg : Config) : Except PyErr (LfSample × List (Str × List Bool)) :=
  match mapE (fun d => match flagsOf s cfg.ratios d.1 d.2 with
      | .error e => .error e
      | .ok f => .ok (d.1, f)) cfg.reg with
  | .error e => .error e
  | .ok flags =>
    .ok (⟨FileIO.uniqueVals [] (s.cols ++ cfg.reg.map fun d => thrKey d.1),
        s.rows.mapIdx fun i row => replaceRow s.cols cfg.reg (exceeded flags i) i row⟩, flags)

/-- 1390-1394: without a configuration nothing happens. -/
def afterThresholds (cfg : Option Config) (s : LfSample) : Except PyErr (LfSample × List (Str × List Bool)) :=
  match cfg with
  | none => .ok (s, [])
  | some c => applyThresholds s c

/-- `str.lower` (ASCII) -/
def lower (s : Str) : Str := s.map lowerC

def isLetter (c : Char) : Bool := ('a' ≤ c && c ≤ 'z') || ('A' ≤ c && c ≤ 'Z')

def upperC (c : Char) : Char := if 'a' ≤ c && c ≤ 'z' then Char.ofNat (c.toNat - 32) else c

/-- `str.title` (ASCII): a letter after a letter is lower case, other letters are upper case. -/
def titleFrom : Bool → Str → Str
  | _, [] => []
  | prev, c :: s => (if isLetter c then (if prev then lowerC c else upperC c) else c) :: titleFrom (isLetter c) s

def title (s : Str) : Str := titleFrom false s

/-- The locations of the columns of a decision variable, each once. -/
def locsOf (cols : List LKey) (dv : Str) : List Str :=
  FileIO.uniqueVals [] ((cols.filter fun k => decide (k.dv = dv)).map (·.loc))

/-- 1324: the sum of the losses of a decision variable at a location. -/
def locSum (cols : List LKey) (dv loc : Str) (row : LKey → ℚ) : ℚ :=
  sumOver cols (fun k => decide (k.dv = dv ∧ k.loc = loc)) row

/-- `max` of a non-empty list -/
def maxL : List ℚ → ℚ
  | [] => 0
  | [a] => a
  | a :: l => max a (maxL l)

/-- 1333, 1350: sum of the location totals. -/
def seqTotal (cols : List LKey) (dv : Str) (row : LKey → ℚ) : ℚ := ((locsOf cols dv).map fun l => locSum cols dv l row).sum

/-- 1335: largest location total. -/
def parTotal (cols : List LKey) (dv : Str) (row : LKey → ℚ) : ℚ := maxL ((locsOf cols dv).map fun l => locSum cols dv l row)

/-- 1326-1356: the aggregated columns before the conversion of units, with the name of the decision
variable from which the unit is taken (1359-1367: `title` of the lower case name; decision variables
with `repair_`, `-sequential` or `-parallel` in their names are not modelled).  Decision variables
without a column in the sample are dropped. -/
def aggColumns (dvs : List Str) (s : LfSample) : List (Str × Str × List ℚ) :=
  ((dvs.filter fun dv => decide (dv ≠ str "Time" ∧ dv ∈ s.cols.map (·.dv))).map fun dv =>
    (str "repair_" ++ lower dv, title (lower dv), s.rows.map (seqTotal s.cols dv))) ++
  (if str "Time" ∈ dvs ∧ str "Time" ∈ s.cols.map (·.dv) then
    [(str "repair_time-sequential", str "Time", s.rows.map (seqTotal s.cols (str "Time"))),
     (str "repair_time-parallel", str "Time", s.rows.map (parTotal s.cols (str "Time")))]
   else [])

/-- 1357-1380 and `save_to_csv`: the values are expressed in the unit of the decision variable. -/
def toUnit (dvUnits : Dict Str Str) (table : Dict Str ℚ) (c : Str × Str × List ℚ) : Except PyErr (Str × List ℚ) :=
  match dvUnits.get? c.2.1 with
  | none => .error .keyError
  | some u =>
    match table.get? u with
    | none => .error .keyError
    | some f => .ok (c.1, c.2.2.map fun v => v * (1 / f))

/-- 1313-1380 `_aggregate_sample` -/
def aggregateSample (dvs : List Str) (dvUnits : Dict Str Str) (table : Dict Str ℚ) (s : LfSample) :
    Except PyErr (List (Str × List ℚ)) := mapE (toUnit dvUnits table) (aggColumns dvs s)

/-- 791-960 `aggregate_losses` with `future=True` and without loss combinations, for a model that has
losses.  As in the code, `replacement` is made exclusive on copies (903-912) and the sample that is
aggregated afterwards is the original one (921). -/
def aggregateLosses (ds : Option DsSample) (lf : Option LfSample) (cfg : Option Config) (dvs : List Str)
    (dvUnits : Dict Str Str) (table : Dict Str ℚ) : Except PyErr (List (Str × List ℚ) × List (Str × List Bool)) :=
  let _copies := ds.map fun d => makeExclusive d lf
  let sample := combined ds lf
  match afterThresholds cfg sample with
  | .error e => .error e
  | .ok (s, flags) =>
    match aggregateSample dvs dvUnits table s with
    | .error e => .error e
    | .ok agg => .ok (agg, flags)

end Verif.LossAgg
