import Verif.Model.LossAgg
import Verif.Model.LocDir

/-!
# Consequence scaling

pelicun/model/loss_model.py `consequence_scaling` (508-617), `_apply_consequence_scaling` (619-694) and
pelicun/base.py `multiply_factor_multiple_levels` (937-1001).
-/

namespace Verif.LossScale

open LossAgg (LKey Sample DsSample LfSample)

/-- A row of the scaling specification; `none` is an empty cell.  A missing optional column is a column
of empty cells (573-576).  Texts that `pd.read_csv` takes for missing values (`NA`, ...) are not
modelled. -/
structure Row where
  dv : Option Str
  dmg : Option Str
  loc : Option Str
  dir : Option Str
  factor : Option ℚ
  deriving DecidableEq

/-- The table, and whether the two required columns are there. -/
structure Table where
  hasDv : Bool
  hasFactor : Bool
  rows : List Row

/-- 588-595 `_expand_range` -/
def expandRange : Option Str → Except PyErr (List (Option Str))
  | none => .ok [none]
  | some s =>
    if hasDash2 s then
      match splitDash2 s with
      | [a, b] =>
        match pyInt? a, pyInt? b with
        | some m, some n => .ok ((arange m (n + 1)).map fun i => some (intStr i))
        | _, _ => .error .valueError
      | _ => .error .valueError
    else .ok [some s]

/-- A condition on the level of the columns: `none` if it is not in `scaling_conditions` (608-610). -/
def levelIs (c : Option Str) (x : Str) : Bool :=
  match c with
  | none => true
  | some s => decide (x = s)

/-- An expanded row, with the decision variable and the factor as they are after the checks. -/
structure Step where
  dv : Str
  dmg : Option Str
  loc : Option Str
  dir : Option Str
  factor : ℚ

/-- 598-604: the combinations of locations and directions of a row. -/
def expandRow (r : Row) : Except PyErr (List Step) :=
  match expandRange r.loc with
  | .error e => .error e
  | .ok ls =>
    match expandRange r.dir with
    | .error e => .error e
    | .ok ds => .ok (ls.flatMap fun l => ds.map fun d => ⟨r.dv.getD [], r.dmg, l, d, r.factor.getD 0⟩)

/-- base.py 981-992: the columns that satisfy all conditions. -/
def mask (t : Step) (k : LKey) : Bool :=
  decide (k.dv = t.dv) && levelIs t.dmg k.dmg && levelIs t.loc k.loc && levelIs t.dir k.dir

/-- base.py 998-1001: `df.iloc[:, mask] *= factor`; `key` reads the levels of a column. -/
def multiply {κ : Type} (key : κ → LKey) (t : Step) (s : Sample κ) : Sample κ :=
  ⟨s.cols, s.rows.map fun row k => if mask t (key k) then row k * t.factor else row k⟩

/-- The samples of the two models; `none` if there is no sample. -/
abbrev Samples := Option DsSample × Option LfSample

/-- 669-694: one scaling for both models. -/
def applyStep (t : Step) (m : Samples) : Samples :=
  (m.1.map (multiply Prod.fst t), m.2.map (multiply id t))

/-- 508-617 `consequence_scaling`: the samples afterwards, and the error raised if any. -/
def consequenceScaling (spec : Table) (m : Samples) : Samples × Option PyErr :=
  if spec.hasDv = false ∨ ∃ r ∈ spec.rows, r.dv = none then (m, some .valueError)
  else if spec.hasFactor = false ∨ ∃ r ∈ spec.rows, r.factor = none then (m, some .valueError)
  else
    match mapE expandRow spec.rows with
    | .error e => (m, some e)
    | .ok [] => (m, some .valueError) -- 606 `pd.concat` of nothing
    | .ok steps => (steps.flatten.foldl (fun m t => applyStep t m) m, none)

end Verif.LossScale
