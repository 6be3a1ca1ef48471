import Verif.Model.PySort
import Mathlib.Analysis.SpecialFunctions.Log.Basic
import Mathlib.Data.Real.Sqrt

/-!
# Statistics of results

pelicun/base.py `describe` (1058-1124) with the parts of `pandas.DataFrame.describe` that it uses.  A column is a list of
values, `none` for a missing value (NaN); statistics that are NaN are `none` as well.
-/

namespace Verif.Stats

noncomputable section

/-- pandas leaves missing values out. -/
def valid (col : List (Option ℝ)) : List ℝ := col.filterMap id

def mean (l : List ℝ) : Option ℝ := if l = [] then none else some (l.sum / l.length)

/-- `std` with `ddof=1`; not defined for fewer than two values. -/
def std (l : List ℝ) : Option ℝ :=
  if l.length < 2 then none
  else some (Real.sqrt ((l.map fun x => (x - l.sum / l.length) ^ 2).sum / (l.length - 1)))

def sorted (l : List ℝ) : List ℝ := pySort (fun a b => decide (a ≤ b)) l

/-- `quantile` with linear interpolation between the sorted values. -/
def quantile (q : ℝ) (l : List ℝ) : Option ℝ :=
  if l = [] then none
  else
    let s := sorted l
    let pos := q * (l.length - 1 : ℝ)
    let i := ⌊pos⌋₊
    let a := s.getD (min i (l.length - 1)) 0
    let b := s.getD (min (i + 1) (l.length - 1)) 0
    some (a + (b - a) * (pos - i))

/-- base.py 1117-1122: the standard deviation of the logarithms, if the smallest value is positive. -/
def logStd (l : List ℝ) : Option ℝ :=
  match l.min? with
  | none => none
  | some m => if m > 0 then std (l.map Real.log) else none

/-- base.py 1060-1070: the percentiles. -/
def percentiles : List (Str × ℝ) :=
  [(str "0.1%", 0.001), (str "2.3%", 0.023), (str "10%", 0.10), (str "15.9%", 0.159), (str "50%", 0.5), (str "84.1%", 0.841),
   (str "90%", 0.90), (str "97.7%", 0.977), (str "99.9%", 0.999)]

/-- base.py 1058-1124 for one column: the rows of the result in their order. -/
def describe (col : List (Option ℝ)) : List (Str × Option ℝ) :=
  let l := valid col
  [(str "count", some (l.length : ℝ)), (str "mean", mean l), (str "std", std l), (str "log_std", logStd l), (str "min", l.min?)] ++
    percentiles.map (fun p => (p.1, quantile p.2 l)) ++ [(str "max", l.max?)]

end

end Verif.Stats
