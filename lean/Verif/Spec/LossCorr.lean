import Verif.Spec.LossProb
import Verif.Spec.CorrSample

/-! # Words used in C124 -/

namespace Verif.LossCorr

open Verif.UQ Verif.LossDs Verif.LossDev Verif.LossProb MeasureTheory ProbabilityTheory
open Verif.SampleProb (RandomGen)

variable {Ω : Type} [MeasurableSpace Ω]

/-- Calculations of repair consequences with the correlation `r` of costs and times (`q` is the square root of `1 - r * r`), with the
numbers of a random number generator.  The word "Cost" is not part of other names (see C91). -/
structure CorrRepair (P : Measure Ω) (N : Num ℝ) (s : Setting) (r q : ℝ) (m : Method) (perm : Ω → Nat → List Nat)
    (jitter : Ω → Nat → List ℝ) (σ : Nat → Ω → Equiv.Perm (Fin s.rows.length)) (out : Ω → List (OutKey × List ℝ)) : Prop where
  eps : 0 < N.eps
  normal : N.D = gaussian
  root : 0 < q ∧ r * r + q * q = 1
  states : ∀ key row, s.params.rows.get? key = some row → ∀ ds, row ds ≠ none → ds ∈ s.params.states
  names : ∀ dv k loss p f, Random s.params s.missing s.cols s.lossMap s.dvs dv k loss p f → NoCost dv k
  method : m = .monteCarlo ∨ m = .lhs
  draws : RandomGen P s.rows.length perm jitter σ
  run : ∀ ω, calculate N s.eco s.params s.spread s.missing s.cols s.lossMap s.dvs (some (gauss2 N.D r q)) m (perm ω) (jitter ω) s.rows =
    .ok (some (out ω))

/-- The cost and the time of the same damaged quantity. -/
structure Pair (s : Setting) (c t : Consequence) : Prop where
  cost : c.dv = str "Cost"
  time : t.dv = str "Time"
  same : c.k = t.k
  cost_valid : c.Valid s
  time_valid : t.Valid s

/-- Two standard normal variables with correlation `r`. -/
noncomputable def pairNormal (r : ℝ) : Measure (EuclideanSpace ℝ (Fin 2)) := multivariateGaussian 0 !![1, r; r, 1]

/-- The probability that the loss is at most `z` according to the consequence database, if the loss is `t` for a deviation of one. -/
noncomputable def upTo (N : Num ℝ) (c : Consequence) (t : ℚ) (z : ℝ) : ℝ := devCdf N c.family (center c.p) c.spread (z / t)

end Verif.LossCorr
