import Verif.Spec.SampleProb
import Verif.Props.LossDev

/-! # Words used in C119 -/

namespace Verif.LossProb

open Verif.UQ Verif.LossDs Verif.LossDev MeasureTheory
open Verif.SampleProb (RandomGen)

variable {Ω : Type} [MeasurableSpace Ω]

/-- What the calculation of repair consequences starts from: parameters of the consequences, loss map, decision variables
and damaged quantities. -/
structure Setting where
  eco : Eco
  params : Params
  spread : Str × Str → Str → List ℝ
  missing : List (Str × Str)
  cols : List DKey
  lossMap : List (Str × Str)
  dvs : List Str
  rows : List (DKey → Option ℚ)

/-- Calculations of repair consequences, without a correlation of costs and times, with the numbers of a random number
generator. -/
structure Repair (P : Measure Ω) (N : Num ℝ) (s : Setting) (m : Method) (perm : Ω → Nat → List Nat)
    (jitter : Ω → Nat → List ℝ) (σ : Nat → Ω → Equiv.Perm (Fin s.rows.length)) (out : Ω → List (OutKey × List ℝ)) : Prop where
  eps : 0 < N.eps
  states : ∀ key row, s.params.rows.get? key = some row → ∀ ds, row ds ≠ none → ds ∈ s.params.states
  method : m = .monteCarlo ∨ m = .lhs
  draws : RandomGen P s.rows.length perm jitter σ
  run : ∀ ω, calculate N s.eco s.params s.spread s.missing s.cols s.lossMap s.dvs none m (perm ω) (jitter ω) s.rows = .ok (some (out ω))

/-- A random consequence: of the decision variable `dv` for the damaged quantity in column `k`. -/
structure Consequence where
  dv : Str
  k : DKey
  /-- the name of the consequence in the database -/
  loss : Str
  p : DsParam
  family : Str
  /-- coefficient of variation or dispersion -/
  spread : ℝ

/-- The consequence is in the database, with parameters that make sense. -/
structure Consequence.Valid (s : Setting) (c : Consequence) : Prop where
  random : Random s.params s.missing s.cols s.lossMap s.dvs c.dv c.k c.loss c.p c.family
  parameter : (s.spread (c.loss, c.dv) c.k.ds).head? = some c.spread
  spread_pos : 0 < c.spread
  center_pos : 0 < center (F := ℝ) c.p
  curve : ∀ pts, c.p.theta = .curve pts → pts ≠ [] ∧ (pts.map Prod.fst).Pairwise (· < ·)

/-- `t` is the loss of a realization when the deviation is one: the damaged quantity times the unit consequence at the
quantity that governs economies of scale. -/
def Scale (s : Setting) (c : Consequence) (i : Nat) (t : ℚ) : Prop :=
  ∃ row q m, s.rows[i]? = some row ∧ row c.k = some q ∧
    UnitMedian c.p (governing s.eco s.cols (⟨row, fun _ _ => 0⟩ : Real ℚ) c.k) m ∧ t = q * m

/-- The loss in the result is `x`. -/
def Loss (out : List (OutKey × List ℝ)) (c : Consequence) (i : Nat) (x : ℝ) : Prop :=
  ∃ v, (outKey c.dv c.loss c.k, v) ∈ out ∧ v[i]? = some x

end Verif.LossProb
