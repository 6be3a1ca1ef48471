import Verif.Basic

/-!
# `numpy.interp`

Library behaviour: piecewise linear interpolation with constant extrapolation, for
points with ascending abscissae.  Arithmetic is exact (an ordered field).
-/

namespace Verif

section
variable {F : Type} [Field F] [LinearOrder F]

/-- `np.interp` to the right of the first point. -/
def interpFrom : List (F × F) → F → F
  | [], _ => 0
  | [(_, y0)], _ => y0
  | (x0, y0) :: (x1, y1) :: r, x =>
    if x < x1 then y0 + (y1 - y0) / (x1 - x0) * (x - x0) else interpFrom ((x1, y1) :: r) x

/-- `np.interp(x, xp, fp)` with the points `(xp[i], fp[i])`. -/
def interp (pts : List (F × F)) (x : F) : F :=
  match pts with
  | [] => 0
  | (x0, y0) :: r => if x < x0 then y0 else interpFrom ((x0, y0) :: r) x

end
end Verif
