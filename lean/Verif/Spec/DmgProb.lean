import Verif.Props.DmgSample
import Verif.Spec.Copula
import Mathlib.Probability.HasLaw
import Mathlib.Probability.Independence.Basic

/-! # Words used in C115 -/

namespace Verif.DmgProb

open Verif.UQ Verif.DmgSample MeasureTheory ProbabilityTheory
open Verif.DmgEval (BlockId numOf)
open Verif.DemandReq (PGid)
open Verif.Copula (uniform01)

variable {Ω : Type} [MeasurableSpace Ω]

/-- A number that the generator returns: for capacities (`false`) or for damage states (`true`), in batch
`t.2.1`, for variable `t.2.2.1` and realization `t.2.2.2`. -/
def number {n : Nat} (dc dl : Ω → Nat → Draws ℝ) (t : Bool × Nat × Nat × Fin n) (ω : Ω) : ℝ :=
  (((if t.1 then dl ω else dc ω) t.2.1).jitter t.2.2.1).getD t.2.2.2 0

/-- All numbers of the generator are independent and uniform between zero and one. -/
structure RandomDraws (P : Measure Ω) (n : Nat) (dc dl : Ω → Nat → Draws ℝ) : Prop where
  capacities : ∀ ω j, GoodDraws n (dc ω j).perm (dc ω j).jitter
  states : ∀ ω j, GoodDraws n (dl ω j).perm (dl ω j).jitter
  measurable : ∀ t : Bool × Nat × Nat × Fin n, Measurable (number dc dl t)
  uniform : ∀ t : Bool × Nat × Nat × Fin n, HasLaw (number dc dl t) uniform01 P
  independent : iIndepFun (fun t : Bool × Nat × Nat × Fin n => number dc dl t) P

/-- A damage calculation with Monte Carlo sampling that returns the sample of damage states `out`. -/
structure MonteCarlo (P : Measure Ω) (N NQ : Num ℝ) (x : Input ℝ) (available missing : List Str)
    (table : List (PGid × Int)) (size : Int) (dc dl : Ω → Nat → Draws ℝ)
    (out : Ω → List (Dict BlockId Int)) : Prop where
  batch : 0 ≤ size
  blocks : ∀ e ∈ table, 0 < e.2
  dashless : Dashless x table
  components : ∀ e ∈ table, ∀ rows, x.caps e.1 = some rows → Component rows
  method : x.method = .monteCarlo
  draws : RandomDraws P x.size dc dl
  run : ∀ ω, obtainDs N NQ x available missing table size (dc ω) (dl ω) = .ok (out ω)

/-- The damage state of a block in a realization. -/
def stateOf (out : List (Dict BlockId Int)) (b : BlockId) (i : Nat) : Option Int :=
  out[i]?.bind fun row => row.get? b

/-- `curve` gives the values of the fragility curves of the limit states at the demand. -/
def Curves (N : Num ℝ) (x : Input ℝ) (rows : List (LSCap ℝ)) (k : Nat) (q : ℚ) (curve : LSCap ℝ → ℝ) : Prop :=
  ∀ r ∈ rows, r.dist ≠ none → Fragility N x.size r k (q : ℝ) (curve r)

/-- The highest fragility curve of the limit states selected by `S`. -/
def Highest (rows : List (LSCap ℝ)) (curve : LSCap ℝ → ℝ) (S : Nat → Prop) (p : ℝ) : Prop :=
  IsGreatest {y | y = 0 ∨ ∃ a ∈ rows, a.dist ≠ none ∧ S (numOf a.id) ∧ y = curve a} p

/-- The weight of damage state `j` of a limit state: the last one takes what the others leave. -/
def share (ws : List ℚ) (j : Nat) : ℚ := if j + 1 = ws.length then 1 - (ws.take j).sum else ws.getD j 0

end Verif.DmgProb
