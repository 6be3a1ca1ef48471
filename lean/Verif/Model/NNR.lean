import Verif.Basic
import Mathlib.Algebra.Order.Field.Basic

/-!
# Nearest neighbour regression

pelicun/tools/NNR.py `NNR` (50-241).

Numbers are elements of a linearly ordered field (so distances may be irrational).  The tree search of
scikit-learn is a parameter: for each target the list of its neighbours, as pairs of a distance and
the index of the source point, nearest first.  The known values are a function of the index of the
source point, the feature and the realization; for two-dimensional known values the realization
plays no role.
-/

namespace Verif.NNR

variable {K : Type} [Field K]

/-- 180-192: the weights of the neighbours.  For an unknown name the variable `weights` is not bound. -/
def weights (scheme : Str) (nNeighbors : Nat) (dist : List K) : Except PyErr (List K) :=
  if scheme = str "distance2" then
    let dw := dist.map fun d => 1 / d ^ 2
    .ok (dw.map fun w => w / dw.sum)
  else if scheme = str "uniform" then .ok (dist.map fun _ => 1 / (nNeighbors : K))
  else if scheme = str "distance1" then
    let dw := dist.map fun d => 1 / d
    .ok (dw.map fun w => w / dw.sum)
  else .error .unboundLocalError

/-- 226-232: `weights @ values` and the sum along the axis of neighbours. -/
def weighted (w vals : List K) : K := (List.zipWith (· * ·) w vals).sum

/-- 178-237 for one target with `sample_size = -1`: the expected value of each feature and realization.
`eps` is added to all distances, 170. -/
def expected (eps : K) (scheme : Str) (nNeighbors : Nat) (src : Nat → Nat → Nat → K) (nbrs : List (K × Nat)) :
    Except PyErr (Nat → Nat → K) :=
  match weights scheme nNeighbors (nbrs.map fun p => p.1 + eps) with
  | .error e => .error e
  | .ok w => .ok fun f r => weighted w (nbrs.map fun p => src p.2 f r)

/-- `NNR(..., sample_size=-1)` for all targets. -/
def nnr {τ : Type} (eps : K) (scheme : Str) (nNeighbors : Nat) (src : Nat → Nat → Nat → K) (kn : τ → List (K × Nat))
    (targets : List τ) : Except PyErr (List (Nat → Nat → K)) :=
  mapE (fun t => expected eps scheme nNeighbors src (kn t)) targets

/-- 194-222 for one target with `sample_size > 0`: `draws` has the rank of the neighbour drawn for each
realization of the sample; with `nReal` known realizations (1 for two-dimensional known values) the value
is that of realization `j % nReal` of the neighbour. -/
def resampled (src : Nat → Nat → Nat → K) (nReal : Nat) (nbrs : List (K × Nat)) (draws : List Nat) (f : Nat) : List (Option K) :=
  draws.zipIdx.map fun d => (nbrs[d.1]?).map fun p => src p.2 f (d.2 % nReal)

end Verif.NNR
