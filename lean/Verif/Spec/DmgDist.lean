import Verif.Spec.DmgProb
import Verif.Props.DmgCalc

/-! # Words used in C116 -/

namespace Verif.DmgDist

open Verif.UQ Verif.DmgSample Verif.DmgProb MeasureTheory ProbabilityTheory
open Verif.DmgCalc (Assets Sound componentBlocks calculate)
open Verif.DemandReq (PGid)
open Verif.DmgRVs (LSRow)
open Verif.DmgQty (Table)

variable {Ω : Type} [MeasurableSpace Ω]

/-- A damage calculation with Monte Carlo sampling and no damage process that returns the table of damaged
quantities `t`. -/
structure Calculated (P : Measure Ω) (N NQ : Num ℝ) (x : Input ℝ) (available missing : List Str) (a : Assets)
    (size : Int) (listAll : Bool) (params : List (Str × List LSRow)) (visit : List Str → List Str)
    (dc dl : Ω → Nat → Draws ℝ) (t : Ω → Table) : Prop where
  batch : 0 ≤ size
  sound : Sound a
  dashless : Dashless x (componentBlocks a)
  components : ∀ e ∈ componentBlocks a, ∀ rows, x.caps e.1 = some rows → Component rows
  distinct : (params.map (·.1)).Nodup
  method : x.method = .monteCarlo
  draws : RandomDraws P x.size dc dl
  run : ∀ ω, calculate N NQ x available missing a none size listAll params visit (dc ω) (dl ω) = .ok (t ω)

/-- The probability that a binomial variable with `n` trials of probability `p` is `m`. -/
noncomputable def binomial (n : Nat) (p : ℝ) (m : Nat) : ℝ := n.choose m * p ^ m * (1 - p) ^ (n - m)

end Verif.DmgDist
