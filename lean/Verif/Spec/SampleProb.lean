import Verif.Spec.Copula
import Verif.Spec.DmgLhs
import Verif.Model.Weibull
import Verif.Props.DemandGen

/-! # Words used in C118 -/

namespace Verif.SampleProb

open Verif.UQ MeasureTheory ProbabilityTheory
open Verif.Copula (uniform01)
open Verif.Weibull (weibullCdf)
open Verif.DemandGen (Marginal Tidy generateDemand generateCmp)
open Verif.FileIO (Label)

variable {Ω : Type} [MeasurableSpace Ω]

/-- Number `i` that the generator returns for free variable `v`. -/
def number (jitter : Ω → Nat → List ℝ) (v i : Nat) (ω : Ω) : ℝ := (jitter ω v).getD i 0

/-- The generator returns, for each free variable `v`, a permutation, all permutations being equally likely, and numbers
that are uniform between zero and one.  The permutation is independent of the numbers, and different variables are
independent. -/
structure RandomGen (P : Measure Ω) (n : Nat) (perm : Ω → Nat → List Nat) (jitter : Ω → Nat → List ℝ)
    (σ : Nat → Ω → Equiv.Perm (Fin n)) : Prop where
  perms : ∀ v ω, perm ω v = List.ofFn fun i => (σ v ω i : ℕ)
  numbers : ∀ v ω, (jitter ω v).length = n ∧ ∀ u ∈ jitter ω v, 0 ≤ u ∧ u < 1
  perm_measurable : ∀ v, Measurable (σ v)
  measurable : ∀ v (i : Fin n), Measurable (number jitter v i)
  equally : ∀ v τ, P {ω | σ v ω = τ} = (n.factorial : ENNReal)⁻¹
  uniform : ∀ v (i : Fin n), HasLaw (number jitter v i) uniform01 P
  within : ∀ v, IndepFun (σ v) (fun ω (i : Fin n) => number jitter v i ω) P
  between : iIndepFun (fun v ω => (σ v ω, fun i : Fin n => number jitter v i ω)) P

/-- The value of a variable in a realization. -/
def valueOf (samples : Dict Str (List (Ext ℝ))) (name : Str) (i : Nat) : Option (Ext ℝ) :=
  (samples.get? name).bind fun s => s[i]?

/-- The value of a variable in a realization is a number up to `z`. -/
def UpTo (samples : Dict Str (List (Ext ℝ))) (name : Str) (i : Nat) (z : ℝ) : Prop :=
  ∃ y, valueOf samples name i = some (.fin y) ∧ y ≤ z

/-- The method `cdf` of the classes of random variables, for one value (`none` for `nan`). -/
noncomputable def cdf (N : Num ℝ) : RVKind ℝ → ℝ → Except PyErr (Option ℝ)
  | .normal (.const mu sig) a b, z => normalCdf N.D N.eps mu sig a b (.fin z)
  | .lognormal (.const theta beta) a b, z => lognormalCdf N.D N.E N.eps theta beta a b (.fin z)
  | .uniform t0 t1 a b, z => .ok (uniformCdf t0 t1 a b z)
  | .weibull W a b, z => (weibullCdf W N.eps a b z).map some
  | .multilinear pts, z => .ok (some (multilinearCdf pts z))
  | _, _ => .error .notImplementedError

/-- Parameters that make sense.  The `cdf` of a lognormal variable without limits is off below the smallest number `eps`. -/
def Proper (N : Num ℝ) : RVKind ℝ → ℝ → Prop
  | .normal (.const _ sig) _ _, _ => 0 < sig
  | .lognormal (.const theta beta) a b, z => 0 < theta ∧ 0 < beta ∧ (∀ y ∈ a, 0 < y) ∧ (∀ y ∈ b, 0 < y) ∧ 0 < z ∧
      (a = none → b = none → N.eps ≤ z)
  | .uniform (some t0) (some t1) none none, _ => t0 < t1
  | .uniform (some t0) (some t1) (some a) (some b), _ => t0 < t1 ∧ a < b
  | .weibull _ _ _, _ => True
  | .multilinear pts, _ => multilinearInit pts none none = .ok pts
  | _, _ => False

/-- The variable is registered and no correlated set has the variable that it is anchored to.  No other variable that is
multinomial is anchored to the same one (see C22). -/
structure Alone (r : Registry ℝ) (v : RV ℝ) : Prop where
  registered : v ∈ r.vars.map Prod.snd
  uncorrelated : ∀ s ∈ r.sets.map Prod.snd, ∀ w ∈ s.members, w.name ≠ v.root.name
  unshared : ∀ w ∈ r.vars.map Prod.snd, w.kind.isMultinomial = true → w.root.name = v.root.name → w = v

/-- Samples of a registry. -/
structure Sampling (P : Measure Ω) (N : Num ℝ) (r : Registry ℝ) (n : Nat) (m : Method) (perm : Ω → Nat → List Nat)
    (jitter : Ω → Nat → List ℝ) (σ : Nat → Ω → Equiv.Perm (Fin n)) (r' : Ω → Registry ℝ) : Prop where
  eps : 0 < N.eps
  names : RegInv r
  anchors : Closed r
  method : m = .monteCarlo ∨ m = .lhs
  draws : RandomGen P n perm jitter σ
  run : ∀ ω, generateSample N r n m (perm ω) (jitter ω) = .ok (r' ω)

/-- Samples of a demand model. -/
structure DemandSampling (P : Measure Ω) (N : Num ℝ) (rows : List (Label × Marginal ℝ)) (emp : Option (Dict Label (List ℝ)))
    (corr : Option (List Label × (List (List ℝ) → List (List ℝ)))) (preserve : Bool) (n : Nat) (m : Method)
    (perm : Ω → Nat → List Nat) (jitter : Ω → Nat → List ℝ) (σ : Nat → Ω → Equiv.Perm (Fin n))
    (cols : Ω → List (Label × List (Ext ℝ))) : Prop where
  eps : 0 < N.eps
  labels : Tidy 3 (rows.map Prod.fst)
  correlated : ∀ c ∈ corr, Tidy 3 c.1
  method : m = .monteCarlo ∨ m = .lhs
  draws : RandomGen P n perm jitter σ
  run : ∀ ω, generateDemand N (some rows) emp corr preserve n m (perm ω) (jitter ω) = .ok (cols ω)

/-- Samples of component quantities. -/
structure QuantitySampling (P : Measure Ω) (N : Num ℝ) (rows : List (Label × RVKind ℝ)) (size demand : Option Nat) (n : Nat)
    (m : Method) (perm : Ω → Nat → List Nat) (jitter : Ω → Nat → List ℝ) (σ : Nat → Ω → Equiv.Perm (Fin n))
    (cols : Ω → List (Label × List (Ext ℝ))) : Prop where
  eps : 0 < N.eps
  labels : Tidy 4 (rows.map Prod.fst)
  known : size.or demand = some n
  method : m = .monteCarlo ∨ m = .lhs
  draws : RandomGen P n perm jitter σ
  run : ∀ ω, generateCmp N (some rows) size demand m (perm ω) (jitter ω) = .ok (cols ω)

/-- The table has the value `x` in the column `l` and realization `i`. -/
def Entry (cols : List (Label × List (Ext ℝ))) (l : Label) (i : Nat) (x : ℝ) : Prop :=
  ∃ v, (l, v) ∈ cols ∧ v[i]? = some (.fin x)

end Verif.SampleProb
