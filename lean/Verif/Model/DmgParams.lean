import Verif.Model.PySort

/-!
# Damage model parameters

pelicun/model/damage_model.py `DamageModel.load_model_parameters` (138-239) with
`DamageModel_Base.load_model_parameters` (504-525), `drop_unused_damage_parameters` (562-580),
`remove_incomplete_components` (542-560) and `_ensure_damage_parameter_availability` (432-466).  The
conversion of units (220-227) is not part of this file.
-/

namespace Verif.DmgParams

/-- A cell that is not missing. -/
inductive Cell where
  | num (q : ℚ)
  | text (s : Str)
  deriving DecidableEq

/-- The parameters of one component: the cell in each column, `none` for missing cells and for
columns that the table does not have (`pd.concat` fills these with NaN). -/
abbrev Row := Str × Str → Option Cell

/-- A source: its columns and its rows, labelled by component. -/
structure Source where
  cols : List (Str × Str)
  rows : List (Str × Row)

/-- Keep the first row of each component. -/
def firsts (seen : List Str) : List (Str × Row) → List (Str × Row)
  | [] => []
  | r :: rows => if r.1 ∈ seen then firsts seen rows else r :: firsts (r.1 :: seen) rows

/-- `data.groupby(data.index).first(skipna=False)`, 521-522: components in increasing order, for
each its first row as it is. -/
def groupFirst (rows : List (Str × Row)) : List (Str × Row) :=
  pySort (fun a b => strLe a.1 b.1) (firsts [] rows)

/-- `DamageModel_Base.load_model_parameters`, 504-525 -/
def addSource (params : Option (List (Str × Row))) (data : List (Str × Row)) : List (Str × Row) :=
  match params with
  | none => groupFirst data
  | some p => groupFirst (p ++ data)

/-- `_is_for_ds_model`, 2024-2042 -/
def isForDs (s : Source) : Bool := s.cols.any fun c => c.1 == str "LS1"

/-- 180-194: the loop over the sources; `none` if there are none. -/
def addSources : Option (List (Str × Row)) → List Source → Except PyErr (Option (List (Str × Row)))
  | p, [] => .ok p
  | p, s :: ss => if isForDs s then addSources (some (addSource p s.rows)) ss else .error .valueError

/-- `drop_unused_damage_parameters`, 562-580 -/
def dropUnused (cmpSet : List Str) (p : List (Str × Row)) : List (Str × Row) := p.filter fun r => decide (r.1 ∈ cmpSet)

/-- `remove_incomplete_components`, 542-560.  Without the column every cell is missing and nothing
is removed. -/
def removeIncomplete (p : List (Str × Row)) : List (Str × Row) :=
  p.filter fun r => decide (r.2 (str "Incomplete", []) ≠ some (.num 1))

/-- 180-239: the parameters and the components without parameters. -/
def loadParams (sources : List Source) (cmpSet : List Str) : Except PyErr (Option (List (Str × Row)) × List Str) :=
  match addSources none sources with
  | .error e => .error e
  | .ok none => .ok (none, cmpSet)
  | .ok (some p) =>
    let q := removeIncomplete (dropUnused cmpSet p)
    .ok (some q, cmpSet.filter fun c => decide (c ∉ q.map (·.1)))

end Verif.DmgParams
