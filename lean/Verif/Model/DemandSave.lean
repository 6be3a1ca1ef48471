import Verif.Model.ParamUnits
import Verif.Model.FileIO

/-!
# Saving and loading the distributions of a demand model

pelicun/model/demand_model.py `save_model` (840-857) and `load_model` (925-949), with
pelicun/model/pelicun_model.py `_convert_marginal_params` (81-260) in both directions and
pelicun/file_io.py `save_to_csv` (100-262) and `load_data` (400-549) with orientation 1.  The correlation and the
empirical data are in `Model/DemandGen.lean` and `Model/FileIO.lean`.  Writing the cells as text and reading
them back is not modelled: the cells are assumed to be restored exactly.
-/

namespace Verif.DemandSave

open DmgParams (Cell)
open ParamUnits (Group finite parseTheta limitOf rescale)
open FileIO (Label labelLe rowsOf)

/-- pelicun_model.py 225-231: without argument units the factor is that of the unit, or its inverse. -/
def directed (inverse : Bool) (u : ℚ) : Except PyErr ℚ :=
  if inverse then if u = 0 then .error .zeroDivisionError else .ok (1 / u) else .ok u

/-- pelicun_model.py 150-257 for one row; `empirical` distributions are skipped. -/
def convertMarg (table : Dict Str ℚ) (inverse : Bool) (unit : Str) (g : Group) : Except PyErr Group :=
  match finite (Asset.calcUnitScaleFactor table unit) with
  | .error e => .error e
  | .ok u =>
    if g.family = some (.text (str "empirical")) then .ok g
    else
      match parseTheta g.t0, parseTheta g.t1, parseTheta g.t2 with
      | .error e, _, _ => .error e
      | _, .error e, _ => .error e
      | _, _, .error e => .error e
      | .ok p0, .ok p1, .ok p2 =>
        match limitOf g.lower, limitOf g.upper with
        | .error e, _ => .error e
        | _, .error e => .error e
        | .ok lo, .ok hi =>
          match directed inverse u with
          | .error e => .error e
          | .ok c => rescale ⟨c, none, true⟩ g p0 p1 p2 lo hi

/-- pelicun_model.py 132: the rows of the parameters and of the units are compared position by position; indexes
of different lengths cannot be compared. -/
def sameRows (a b : List Label) : Option PyErr :=
  if a.length ≠ b.length then some .valueError else if a ≠ b then some .assertionError else none

/-- pelicun_model.py 132-260.  The loop over the distinct units is merged with the loop over the rows, so that
of several errors another one may be reported. -/
def convertTable (table : Dict Str ℚ) (inverse : Bool) (params : List (Label × Group)) (units : List (Label × Str)) :
    Except PyErr (List (Label × Group)) :=
  match sameRows (params.map (·.1)) (units.map (·.1)) with
  | some e => .error e
  | none =>
    mapE (fun r => match convertMarg table inverse r.2.2 r.1.2 with
      | .error e => .error e
      | .ok g => .ok (r.1.1, g)) (params.zip units)

/-- The file `<prefix>_marginals.csv`: simple labels, the columns of the distribution and the entry of the
`Units` column, if there is one. -/
structure MargFile where
  hasUnits : Bool
  rows : List (Str × Group × Option Str)

/-- demand_model.py 840-857.  `marginal_params['Units'] = user_units` is aligned by label, which is the same as
by position because the labels are the same. -/
def saveMarginals (table : Dict Str ℚ) (params : List (Label × Group)) (units : List (Label × Str)) : Except PyErr MargFile :=
  match convertTable table true params units with
  | .error e => .error e
  | .ok ps => .ok ⟨true, List.zipWith (fun p u => (joinChar '-' p.1, p.2, some u.2)) ps units⟩

/-- file_io.py 452-549 and demand_model.py 925-949: the rows are sorted; rows without a unit are dropped from
the units only; three names are given to the levels of the labels. -/
def loadMarginals (table : Dict Str ℚ) (t : MargFile) : Except PyErr (List (Label × Group) × List (Label × Str)) :=
  if t.hasUnits = false then .error .assertionError
  else
    match Labels.toMulti (.simple (t.rows.map (·.1))) with
    | .error e => .error e
    | .ok idx =>
      if (rowsOf idx).any fun l => decide (l.length ≠ 3) then .error .valueError
      else
        let params := pySort (fun a b => labelLe a.1 b.1) ((rowsOf idx).zip (t.rows.map (·.2.1)))
        let units := pySort (fun a b => labelLe a.1 b.1)
          (((rowsOf idx).zip (t.rows.map (·.2.2))).filterMap fun r => r.2.map fun u => (r.1, u))
        match convertTable table false params units with
        | .error e => .error e
        | .ok ps => .ok (ps, units)

end Verif.DemandSave
