import Verif.Model.Copula

/-!
# The correlation of a set, as the registry applies it (pelicun/uq.py)

`UQ.RVSet.copula` is any function of the uniform samples; this is the one of uq.py 2582-2619.
-/

namespace Verif.CorrSample

open Verif.Copula

/-- uq.py 2593-2616 `apply_correlation`: the uniform samples of the variables of a set, in the stored order, with
correlation.  All samples have the length of the first. -/
noncomputable def copulaRows {c : Nat} (f : Factors c) (rows : List (List ℝ)) : List (List ℝ) :=
  List.ofFn fun j : Fin c => List.ofFn fun k : Fin (rows.headD []).length =>
    applyCorrelation f (fun l (i : Fin (rows.headD []).length) => (rows.getD l []).getD i 0) j k

end Verif.CorrSample
