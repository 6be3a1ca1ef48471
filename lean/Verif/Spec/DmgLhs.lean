import Verif.Spec.DmgDist

/-! # Words used in C117 -/

namespace Verif.DmgLhs

open Verif.UQ Verif.DmgSample Verif.DmgProb MeasureTheory ProbabilityTheory
open Verif.DmgEval (BlockId)
open Verif.DmgCalc (Assets Sound componentBlocks calculate)
open Verif.DemandReq (PGid)
open Verif.DmgRVs (LSRow)
open Verif.DmgQty (Table)
open Verif.Copula (uniform01)

variable {Ω : Type} [MeasurableSpace Ω]

/-- Every set of permutations is an event. -/
instance (n : Nat) : MeasurableSpace (Equiv.Perm (Fin n)) := ⊤

/-- The generator returns, for each variable `c` of capacities (`false`) or damage states (`true`) in batch `c.2.1`, a
permutation, all permutations being equally likely, and numbers that are uniform between zero and one.  The permutation
is independent of the numbers, and different variables are independent. -/
structure RandomLhs (P : Measure Ω) (n : Nat) (dc dl : Ω → Nat → Draws ℝ)
    (perm : Bool × Nat × Nat → Ω → Equiv.Perm (Fin n)) : Prop where
  perms : ∀ (c : Bool × Nat × Nat) ω, ((if c.1 then dl ω else dc ω) c.2.1).perm c.2.2 = List.ofFn fun i => (perm c ω i : ℕ)
  numbers : ∀ (c : Bool × Nat × Nat) ω, (((if c.1 then dl ω else dc ω) c.2.1).jitter c.2.2).length = n ∧
    ∀ u ∈ ((if c.1 then dl ω else dc ω) c.2.1).jitter c.2.2, 0 ≤ u ∧ u < 1
  perm_measurable : ∀ c, Measurable (perm c)
  measurable : ∀ t : Bool × Nat × Nat × Fin n, Measurable (number dc dl t)
  equally : ∀ c σ, P {ω | perm c ω = σ} = (n.factorial : ENNReal)⁻¹
  uniform : ∀ t : Bool × Nat × Nat × Fin n, HasLaw (number dc dl t) uniform01 P
  within : ∀ c : Bool × Nat × Nat, IndepFun (perm c) (fun ω (i : Fin n) => number dc dl (c.1, c.2.1, c.2.2, i) ω) P
  between : iIndepFun (fun (c : Bool × Nat × Nat) ω =>
    (perm c ω, fun i : Fin n => number dc dl (c.1, c.2.1, c.2.2, i) ω)) P

/-- A damage calculation with Latin hypercube sampling that returns the sample of damage states `out`. -/
structure Lhs (P : Measure Ω) (N NQ : Num ℝ) (x : Input ℝ) (available missing : List Str)
    (table : List (PGid × Int)) (size : Int) (dc dl : Ω → Nat → Draws ℝ)
    (perm : Bool × Nat × Nat → Ω → Equiv.Perm (Fin x.size)) (out : Ω → List (Dict BlockId Int)) : Prop where
  batch : 0 ≤ size
  blocks : ∀ e ∈ table, 0 < e.2
  dashless : Dashless x table
  components : ∀ e ∈ table, ∀ rows, x.caps e.1 = some rows → Component rows
  method : x.method = .lhs
  draws : RandomLhs P x.size dc dl perm
  run : ∀ ω, obtainDs N NQ x available missing table size (dc ω) (dl ω) = .ok (out ω)

/-- A damage calculation with Latin hypercube sampling and no damage process that returns the table of damaged
quantities `t`. -/
structure CalculatedLhs (P : Measure Ω) (N NQ : Num ℝ) (x : Input ℝ) (available missing : List Str) (a : Assets)
    (size : Int) (listAll : Bool) (params : List (Str × List LSRow)) (visit : List Str → List Str)
    (dc dl : Ω → Nat → Draws ℝ) (perm : Bool × Nat × Nat → Ω → Equiv.Perm (Fin x.size)) (t : Ω → Table) : Prop where
  batch : 0 ≤ size
  sound : Sound a
  dashless : Dashless x (componentBlocks a)
  components : ∀ e ∈ componentBlocks a, ∀ rows, x.caps e.1 = some rows → Component rows
  distinct : (params.map (·.1)).Nodup
  method : x.method = .lhs
  draws : RandomLhs P x.size dc dl perm
  run : ∀ ω, calculate N NQ x available missing a none size listAll params visit (dc ω) (dl ω) = .ok (t ω)

end Verif.DmgLhs
