import Verif.Spec.SampleProb
import Verif.Props.LossLfDev

/-! # Words used in C121 -/

namespace Verif.LossLfProb

open Verif.UQ Verif.LossLf Verif.LossLfDev Verif.DemandReq MeasureTheory ProbabilityTheory
open Verif.SampleProb (RandomGen)

variable {Ω : Type} [MeasurableSpace Ω]

/-- What the calculation of losses with loss functions starts from: the loss functions, demands, quantities and loss map,
the number of realizations, and the performance groups with their numbers of blocks. -/
structure Setting where
  params : LossLf.Params
  spread : Str × Str → List ℝ
  inp : Input
  n : Nat
  blocks : List (PGid × Nat)

/-- Calculations of losses with loss functions, without a correlation of costs and times, with the numbers of a random
number generator, the normal distribution and the real exponential function. -/
structure Losses (P : Measure Ω) (N : Num ℝ) (s : Setting) (m : Method) (perm : Ω → Nat → List Nat)
    (jitter : Ω → Nat → List ℝ) (σ : Nat → Ω → Equiv.Perm (Fin s.n)) (out : Ω → List (LossLf.OutKey × List ℝ)) : Prop where
  normal : N.D = gaussian
  exponential : N.E = realExp
  eps : 0 < N.eps
  dvs : s.inp.dvs.Nodup
  groups : (s.blocks.map (·.1)).Nodup
  positive : ∀ b ∈ s.blocks, 1 ≤ b.2
  /-- components are mapped to the loss functions with their own name -/
  own : ∀ c l, s.inp.lossMap.get? c = some l → l = c
  method : m = .monteCarlo ∨ m = .lhs
  draws : RandomGen P s.n perm jitter σ
  run : ∀ ω, calculate N s.params s.spread s.inp none s.n m (perm ω) (jitter ω) s.blocks = .ok (some (out ω))

/-- A random loss: of the decision variable `dv` in the performance group `pg`, with its number of blocks. -/
structure RandomLoss where
  dv : Str
  pg : PGid
  p : LfParam
  family : Str
  /-- coefficient of variation or dispersion -/
  spread : ℝ
  blocks : Nat

/-- The loss is to be calculated, and its loss function has parameters that make sense. -/
structure RandomLoss.Valid (s : Setting) (l : RandomLoss) : Prop where
  group : (l.pg, l.blocks) ∈ s.blocks
  asked : l.dv ∈ s.inp.dvs
  available : (l.pg.cmp, l.dv) ∉ s.inp.missing
  mapped : s.inp.lossMap.get? l.pg.cmp = some l.pg.cmp
  params : s.params.get? (l.pg.cmp, l.dv) = some l.p
  random : l.p.family = some l.family
  parameter : (s.spread (l.pg.cmp, l.dv)).head? = some l.spread
  spread_pos : 0 < l.spread
  points : (l.p.points.map Prod.fst).Nodup

/-- `t` is the loss in realization `i` when all deviations are one: the value of the loss function at the demand times the
quantity. -/
def Scale (s : Setting) (l : RandomLoss) (i : Nat) (t : ℚ) : Prop :=
  ∃ edp values qs x q m, keyOf s.inp.nvars [(l.pg.cmp, l.p.demand)] s.inp.offsets l.pg = .ok edp ∧
    demandOf s.inp.eval s.inp.mults s.inp.demands edp = .ok values ∧ values[i]? = some (some x) ∧
    s.inp.qty.get? l.pg = some qs ∧ qs[i]? = some q ∧ OnGraph l.p.points x m ∧ t = m * q

/-- The loss in the result is `x`. -/
def Loss (out : List (LossLf.OutKey × List ℝ)) (l : RandomLoss) (i : Nat) (x : ℝ) : Prop :=
  ∃ v, (⟨l.dv, l.pg.cmp, l.pg⟩, v) ∈ out ∧ v[i]? = some x

/-- The law of the deviation of a block: the normal distribution with mean one and the coefficient of variation `c`, under
the condition that it is positive, or the lognormal distribution with median one and the dispersion `c`, under the
condition that it is above the smallest number. -/
noncomputable def deviationLaw (eps : ℝ) (family : Str) (c : ℝ) : Measure ℝ :=
  if family = str "normal" then (gaussianReal 1 (Real.toNNReal (c ^ 2)))[|Set.Ioi 0]
  else ((gaussianReal 0 (Real.toNNReal (c ^ 2)))[|Set.Ioi (Real.log eps)]).map Real.exp

end Verif.LossLfProb
