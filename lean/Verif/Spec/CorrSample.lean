import Verif.Model.CorrSample
import Verif.Spec.SampleProb
import Mathlib.Probability.Distributions.Gaussian.Multivariate

/-! # Words used in C122 -/

namespace Verif.CorrSample

open Verif.UQ Verif.Copula MeasureTheory ProbabilityTheory WithLp
open Verif.FileIO (Label)

/-- The matrix given by the user is a correlation matrix of distinct variables, and `f` is what scipy returns for it. -/
structure Correlation (names : List Str) (rho : Nat → Nat → ℝ) (f : Factors (CorrSet.init names rho).names.length) : Prop where
  distinct : names.Nodup
  semidefinite : (given names rho).PosSemidef
  unit : ∀ j < names.length, rho j j = 1
  factors : Valid (storedRho names rho) f

/-- The registry has a set of the variables `names` with the correlation `rho`.  The sets of the registry are disjoint, and
their variables are registered and have no anchors. -/
structure HasSet (r : Registry ℝ) (names : List Str) (rho : Nat → Nat → ℝ)
    (f : Factors (CorrSet.init names rho).names.length) : Prop where
  disjoint : (r.sets.map Prod.snd).Pairwise fun s t => ∀ v ∈ s.members, ∀ w ∈ t.members, v.name ≠ w.name
  once : ∀ s ∈ r.sets.map Prod.snd, (s.members.map RV.name).Nodup
  own : ∀ s ∈ r.sets.map Prod.snd, ∀ v ∈ s.members, v.root = v
  registered : ∀ s ∈ r.sets.map Prod.snd, ∀ v ∈ s.members, v ∈ r.vars.map Prod.snd
  set : ∃ s ∈ r.sets.map Prod.snd, s.members.map RV.name = (CorrSet.init names rho).names ∧ s.copula = copulaRows f

/-- No multinomial variable is anchored to the variable (see C22). -/
def Unshared (r : Registry ℝ) (v : RV ℝ) : Prop :=
  ∀ w ∈ r.vars.map Prod.snd, w.kind.isMultinomial = true → w.root.name = v.name → w = v

/-- Normal variables with means and standard deviations that have the given correlation. -/
noncomputable def jointNormal {c : Nat} (mean std : Fin c → ℝ) (R : Matrix (Fin c) (Fin c) ℝ) : Measure (EuclideanSpace ℝ (Fin c)) :=
  multivariateGaussian (toLp 2 mean) (Matrix.of fun j k => std j * std k * R j k)

end Verif.CorrSample
