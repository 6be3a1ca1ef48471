import Verif.Model.Fit
import Verif.Lemmas.FitLinAlg
import Mathlib.Probability.Distributions.Gaussian.Real
import Mathlib.Analysis.SpecialFunctions.Log.Basic

/-!
# C103: Distributions that are fitted to a sample

Specification: averages, spreads and correlations of the samples, in logarithms for lognormal variables, and the likelihood of a
sample under a distribution.
-/

namespace Verif.Fit

open Verif.UQ (Ext gaussCdf gaussian gaussCdf_strictMono gaussCdf_pos gaussCdf_lt_one)
open ProbabilityTheory

variable {d n : ℕ}

/-- Specification: the average. -/
noncomputable def average (x : Fin n → ℝ) : ℝ := (∑ j, x j) / n

/-- Specification: the spread, the root of the average squared deviation from the average. -/
noncomputable def spread (x : Fin n → ℝ) : ℝ := Real.sqrt (average fun j => (x j - average x) ^ 2)

/-- Specification: the correlation coefficient of two samples. -/
noncomputable def correlation (x y : Fin n → ℝ) : ℝ :=
  average (fun j => (x j - average x) * (y j - average y)) / (spread x * spread y)

/-- Specification: a lognormal variable is normal in logarithms. -/
noncomputable def inSpace (fam : Fam) (x : Fin n → ℝ) : Fin n → ℝ := fun j => if fam = .lognormal then Real.log (x j) else x j

/-- Specification: mean and standard deviation in the space of the normal distribution, from the parameters of the family: median
and logarithmic standard deviation; mean and coefficient of variation; mean and standard deviation. -/
noncomputable def meaning (fam : Fam) (p : ℝ × ℝ) : ℝ × ℝ :=
  match fam with
  | .lognormal => (Real.log p.1, p.2)
  | .normal | .normalCov => (p.1, p.2 * |p.1|)
  | .normalStd | .other => p

/-- Specification: the density of a normal or lognormal distribution. -/
noncomputable def density (fam : Fam) (μ σ x : ℝ) : ℝ :=
  if fam = .lognormal then gaussianPDFReal μ ⟨σ ^ 2, sq_nonneg σ⟩ (Real.log x) / x else gaussianPDFReal μ ⟨σ ^ 2, sq_nonneg σ⟩ x

/-- What is assumed of the singular value decomposition. -/
def IsSvd (svd : Matrix (Fin d) (Fin d) ℝ → Option (Matrix (Fin d) (Fin d) ℝ × (Fin d → ℝ))) : Prop :=
  ∀ ρ, ρ.transpose = ρ → ∃ (u v : Matrix (Fin d) (Fin d) ℝ) (s : Fin d → ℝ), svd ρ = some (u, s) ∧ u.transpose * u = 1 ∧ v.transpose * v = 1 ∧ (∀ i, 0 ≤ s i) ∧
    ρ = u * Matrix.diagonal s * v.transpose

/-- Such decompositions exist. -/
theorem isSvd_exists : ∃ svd, IsSvd (d := d) svd := by
  classical
  refine ⟨fun ρ => if h : ρ.transpose = ρ then some ((svd_exists h).choose, (svd_exists h).choose_spec.choose_spec.choose) else none, ?_⟩
  intro ρ h
  obtain ⟨h1, h2, h3, h4⟩ := (svd_exists h).choose_spec.choose_spec.choose_spec
  exact ⟨_, _, _, dif_pos h, h1, h2, h3, h4⟩

theorem mean_eq (x : Fin n → ℝ) : mean x = average x := rfl

theorem std_eq (x : Fin n → ℝ) : std x = spread x := rfl

theorem toLog_eq (fam : Fam) (x : Fin n → ℝ) : toLog fam x = inSpace fam x := by
  unfold toLog inSpace
  split <;> simp_all

theorem inSpace_log (x : Fin n → ℝ) : inSpace .lognormal x = fun j => Real.log (x j) := by
  funext j; simp [inSpace]

theorem inSpace_normal {fam : Fam} (h : fam ≠ .lognormal) (x : Fin n → ℝ) : inSpace fam x = x := by
  funext j; simp [inSpace, h]

theorem toLog_noLimits (fam : Fam) : toLogLimits fam noLimits = noLimits := by
  unfold toLogLimits
  split <;> rfl

theorem ppf_cdf (z : ℝ) : gaussian.ppf (gaussCdf z) = z := by
  have h := gaussian.cdf_ppf (p := gaussCdf z) (gaussCdf_pos z) (gaussCdf_lt_one z)
  exact gaussCdf_strictMono.injective h

theorem stdValue_noLimits (θ : ℝ × ℝ) (x : ℝ) : stdValue θ noLimits x = (x - θ.1) / θ.2 := by
  simp [stdValue, noLimits, limitProb, ppf_cdf]

theorem sum_deviation (hn : 0 < n) (x : Fin n → ℝ) : ∑ j, (x j - average x) = 0 := by
  have : (n : ℝ) ≠ 0 := by positivity
  rw [Finset.sum_sub_distrib, Finset.sum_const, Finset.card_univ, Fintype.card_fin, nsmul_eq_mul]
  unfold average
  field_simp
  ring

theorem spread_nonneg (x : Fin n → ℝ) : 0 ≤ spread x := Real.sqrt_nonneg _

theorem spread_sq (x : Fin n → ℝ) : spread x ^ 2 = (∑ j, (x j - average x) ^ 2) / n := by
  unfold spread
  rw [Real.sq_sqrt (by unfold average; positivity)]
  rfl

theorem spread_zero (hn : 0 < n) {x : Fin n → ℝ} (h : spread x = 0) (j : Fin n) : x j = average x := by
  have h2 := spread_sq x
  have hn' : (n : ℝ) ≠ 0 := by positivity
  rw [h] at h2
  have h3 : ∑ j, (x j - average x) ^ 2 = 0 := by
    field_simp at h2
    linarith
  have := (Finset.sum_eq_zero_iff_of_nonneg (fun j _ => sq_nonneg (x j - average x))).1 h3 j (Finset.mem_univ j)
  have h4 : x j - average x = 0 := by simpa using this
  linarith

theorem moments_fst (eps : ℝ) (x : Fin n → ℝ) : (moments eps x).1 = average x := rfl

theorem moments_snd (eps : ℝ) {x : Fin n → ℝ} (h : spread x ≠ 0) : (moments eps x).2 = spread x := by
  unfold moments
  rw [std_eq, if_neg h]

theorem moments_pos {eps : ℝ} (heps : 0 < eps) (x : Fin n → ℝ) : 0 < (moments eps x).2 := by
  unfold moments
  by_cases h : std x = 0
  · simp only [if_pos h]; positivity
  · simp only [if_neg h]
    exact lt_of_le_of_ne (spread_nonneg x) (Ne.symm h)

/-- The correlations of standardized values. -/
theorem corr_moments (hn : 0 < n) (eps : ℝ) (y : Fin d → Fin n → ℝ) (i j : Fin d) :
    corr (fun i k => (y i k - (moments eps (y i)).1) / (moments eps (y i)).2) i j =
      if i = j then 1 else if spread (y i) = 0 ∨ spread (y j) = 0 then 0 else correlation (y i) (y j) := by
  unfold corr
  split
  · rfl
  · simp only [moments_fst]
    split
    · rename_i h
      rcases h with h | h
      · have : ∀ k, (y i k - average (y i)) = 0 := fun k => by rw [spread_zero hn h k]; ring
        simp [this]
      · have : ∀ k, (y j k - average (y j)) = 0 := fun k => by rw [spread_zero hn h k]; ring
        simp [this]
    · rename_i h
      rw [not_or] at h
      rw [moments_snd eps h.1, moments_snd eps h.2]
      unfold correlation
      rw [show average (fun k => (y i k - average (y i)) * (y j k - average (y j))) = (∑ k, (y i k - average (y i)) * (y j k - average (y j))) / n from rfl]
      rw [div_right_comm, Finset.sum_div (s := Finset.univ) (a := spread (y i) * spread (y j))]
      refine congrArg (· / (n : ℝ)) (Finset.sum_congr rfl fun k _ => ?_)
      rw [div_mul_div_comm]

/-- This matrix is positive semidefinite. -/
theorem corr_posSemidef (hn : 0 < n) (eps : ℝ) (y : Fin d → Fin n → ℝ) :
    (corr (fun i k => (y i k - (moments eps (y i)).1) / (moments eps (y i)).2)).PosSemidef := by
  set z : Fin d → Fin n → ℝ := fun i k => (y i k - (moments eps (y i)).1) / (moments eps (y i)).2 with hz
  have hn' : (n : ℝ) ≠ 0 := by positivity
  have hdiag : ∀ i, (∑ k, z i k * z i k) / n = if spread (y i) = 0 then 0 else 1 := by
    intro i
    split
    · rename_i h
      have : ∀ k, z i k = 0 := fun k => by simp only [hz, moments_fst]; rw [spread_zero hn h k]; simp
      simp [this]
    · rename_i h
      have h1 : ∀ k, z i k * z i k = (y i k - average (y i)) ^ 2 / spread (y i) ^ 2 := by
        intro k
        simp only [hz]
        rw [moments_snd eps h, moments_fst]
        ring
      simp only [h1]
      rw [← Finset.sum_div, div_div, mul_comm, ← div_div, ← spread_sq]
      exact div_self (pow_ne_zero 2 h)
  have heq : corr z = (1 / (n : ℝ)) • (Matrix.of z * (Matrix.of z).transpose) + Matrix.diagonal fun i => if spread (y i) = 0 then (1 : ℝ) else 0 := by
    ext i j
    simp only [corr, Matrix.add_apply, Matrix.smul_apply, Matrix.mul_apply, Matrix.transpose_apply, Matrix.of_apply, Matrix.diagonal_apply, smul_eq_mul]
    by_cases h : i = j
    · subst h
      have := hdiag i
      simp only [if_true]
      rw [one_div, inv_mul_eq_div, this]
      split <;> simp
    · simp only [h, if_false]
      ring
  rw [heq]
  refine Matrix.PosSemidef.add (Matrix.PosSemidef.smul ?_ (by positivity)) (Matrix.PosSemidef.diagonal ?_)
  · have := Matrix.posSemidef_self_mul_conjTranspose (Matrix.of z)
    rwa [Matrix.conjTranspose_eq_transpose_of_trivial] at this
  · intro i
    simp only [Pi.zero_apply]
    split <;> norm_num

/-- Values that are at most 1 are left as they are. -/
theorem clip_bounded (r : Fin d → Fin d → ℝ) (hb : ∀ i j, |r i j| ≤ 1) : clip r = some r := by
  have hi : (⨆ p : Fin d × Fin d, r p.1 p.2) ≤ 1 := by
    rcases isEmpty_or_nonempty (Fin d × Fin d) with h | h
    · rw [Real.iSup_of_isEmpty]; norm_num
    · exact ciSup_le fun p => (abs_le.1 (hb p.1 p.2)).2
  have lo : -1 ≤ ⨅ p : Fin d × Fin d, r p.1 p.2 := by
    rcases isEmpty_or_nonempty (Fin d × Fin d) with h | h
    · rw [Real.iInf_of_isEmpty]; norm_num
    · exact le_ciInf fun p => (abs_le.1 (hb p.1 p.2)).1
  have e1 : ¬ ((⨆ p : Fin d × Fin d, r p.1 p.2) > 1) := not_lt.2 hi
  have e2 : ¬ ((⨅ p : Fin d × Fin d, r p.1 p.2) < -1) := not_lt.2 lo
  have e3 : ¬ ((⨆ p : Fin d × Fin d, r p.1 p.2) > 1.01 ∨ (⨅ p : Fin d × Fin d, r p.1 p.2) < -1.01) := by
    rw [not_or]; exact ⟨not_lt.2 (hi.trans (by norm_num)), not_lt.2 (le_trans (by norm_num) lo)⟩
  unfold clip
  simp only [if_neg e1, if_neg e2, if_neg e3]

/-- The repair of a correlation matrix leaves it as it is. -/
theorem repair_correlation {svd} (hsvd : IsSvd (d := d) svd) {ρ : Matrix (Fin d) (Fin d) ℝ} (hρ : ρ.PosSemidef) (h1 : ∀ i, ρ i i = 1) :
    repair svd ρ = some ρ := by
  unfold repair
  split
  · rfl
  · have hsym : ρ.transpose = ρ := by
      have := hρ.isHermitian
      rwa [Matrix.IsHermitian, Matrix.conjTranspose_eq_transpose_of_trivial] at this
    obtain ⟨u, v, s, h2, hu, hv, hs, h⟩ := hsvd ρ hsym
    have hr := svd_restores hρ hu hv hs h
    have hr' : (fun i j => if i = j then 1 else (u * Matrix.diagonal s * u.transpose) i j : Matrix (Fin d) (Fin d) ℝ) = ρ := by
      funext i j
      rw [hr]
      split
      · rename_i hij; subst hij; exact (h1 i).symm
      · rfl
    simp only [h2]
    rw [hr']
    exact clip_bounded _ fun i j => entry_bound hρ h1 i j

/-- The fit without limits, before the last conversion of the parameters. -/
theorem fit_noLimits (S : Solver d) (heps : 0 < S.eps) (hsvd : IsSvd S.svd) (hn : 0 < n) (fam : Fin d → Fam) (hfam : ∀ i, fam i ≠ .other)
    (x : Fin d → Fin n → ℝ) (hpos : ∀ i, fam i = .lognormal → ∀ j, 0 < x i j) (count : ℕ) (multi : Bool) :
    fit S fam (fun _ => noLimits) (fun _ => noLimits) count multi x =
      .ok (fun i => outTheta (fam i) (moments S.eps (inSpace (fam i) (x i))),
        fun i j => if i = j then 1 else if spread (inSpace (fam i) (x i)) = 0 ∨ spread (inSpace (fam j) (x j)) = 0 then 0
          else correlation (inSpace (fam i) (x i)) (inSpace (fam j) (x j))) := by
  unfold fit
  rw [if_neg (by
    rintro ⟨i, h | ⟨h, j, hj⟩⟩
    · exact hfam i h
    · exact absurd (hpos i h j) (by linarith))]
  simp only [toLog_noLimits, toLog_eq]
  unfold solve
  rw [if_pos (Or.inr ⟨fun _ => rfl, fun _ => rfl⟩)]
  simp only
  unfold finish
  rw [if_neg (by
    rintro ⟨i, j, h | h⟩
    · exact h ⟨⟨trivial, trivial⟩, by simp [noLimits], by simp [noLimits]⟩
    · exact absurd (moments_pos heps (inSpace (fam i) (x i))) (by linarith))]
  simp only [stdValue_noLimits]
  rw [repair_correlation hsvd (corr_posSemidef hn S.eps fun i => inSpace (fam i) (x i)) (fun i => by simp [corr])]
  simp only [Option.getD_some]
  congr 2
  funext i j
  exact corr_moments hn S.eps (fun i => inSpace (fam i) (x i)) i j

/-- The sum of squared deviations from any number. -/
theorem sum_sq (hn : 0 < n) (y : Fin n → ℝ) (μ : ℝ) : ∑ j, (y j - μ) ^ 2 = n * spread y ^ 2 + n * (average y - μ) ^ 2 := by
  have hn' : (n : ℝ) ≠ 0 := by positivity
  rw [spread_sq]
  have h0 := sum_deviation hn y
  have h1 : ∀ j, (y j - μ) ^ 2 = (y j - average y) ^ 2 + 2 * (average y - μ) * (y j - average y) + (average y - μ) ^ 2 := fun j => by ring
  simp only [h1]
  rw [Finset.sum_add_distrib, Finset.sum_add_distrib, ← Finset.mul_sum, h0, Finset.sum_const, Finset.card_univ, Fintype.card_fin, nsmul_eq_mul]
  field_simp
  ring

/-- The product of normal densities. -/
theorem prod_pdf (μ σ : ℝ) (y : Fin n → ℝ) : ∏ j, gaussianPDFReal μ ⟨σ ^ 2, sq_nonneg σ⟩ (y j) =
    ((Real.sqrt (2 * Real.pi * σ ^ 2))⁻¹) ^ n * Real.exp (-(∑ j, (y j - μ) ^ 2) / (2 * σ ^ 2)) := by
  have h : ∀ j, gaussianPDFReal μ ⟨σ ^ 2, sq_nonneg σ⟩ (y j) = (Real.sqrt (2 * Real.pi * σ ^ 2))⁻¹ * Real.exp (-(y j - μ) ^ 2 / (2 * σ ^ 2)) := fun j => rfl
  simp only [h]
  rw [Finset.prod_mul_distrib, Finset.prod_const, Finset.card_univ, Fintype.card_fin, ← Real.exp_sum]
  congr 2
  rw [neg_div, Finset.sum_div, ← Finset.sum_neg_distrib]
  exact Finset.sum_congr rfl fun j _ => by rw [neg_div]

/-- The normal distribution with the moments of the sample has the largest likelihood. -/
theorem likelihood_max (hn : 0 < n) (y : Fin n → ℝ) (hs : spread y ≠ 0) (μ σ : ℝ) (hσ : 0 < σ) :
    ∏ j, gaussianPDFReal μ ⟨σ ^ 2, sq_nonneg σ⟩ (y j) ≤ ∏ j, gaussianPDFReal (average y) ⟨spread y ^ 2, sq_nonneg _⟩ (y j) := by
  have hs' : 0 < spread y := lt_of_le_of_ne (spread_nonneg y) (Ne.symm hs)
  set s := spread y with hsdef
  rw [prod_pdf, prod_pdf, sum_sq hn y μ, sum_sq hn y (average y), ← hsdef]
  have hroot : ∀ t : ℝ, 0 < t → Real.sqrt (2 * Real.pi * t ^ 2) = Real.sqrt (2 * Real.pi) * t := fun t ht => by
    rw [Real.sqrt_mul (by positivity) (t ^ 2), Real.sqrt_sq ht.le]
  rw [hroot σ hσ, hroot s hs']
  have hc : 0 < Real.sqrt (2 * Real.pi) := Real.sqrt_pos.2 (by positivity)
  have hr : s / σ ≤ Real.exp (((s / σ) ^ 2 - 1) / 2) := by
    have h1 := Real.add_one_le_exp ((s / σ) ^ 2 - 1)
    have h2 : (s / σ) ^ 2 ≤ (Real.exp (((s / σ) ^ 2 - 1) / 2)) ^ 2 := by
      rw [← Real.exp_nat_mul]
      refine le_trans (by linarith) (h1.trans (le_of_eq ?_))
      congr 1
      push_cast
      ring
    exact (pow_le_pow_iff_left₀ (by positivity) (Real.exp_pos _).le two_ne_zero).1 h2
  have hpow : (s / σ) ^ n ≤ Real.exp ((n : ℝ) * (((s / σ) ^ 2 - 1) / 2)) := by
    rw [Real.exp_nat_mul]
    exact pow_le_pow_left₀ (by positivity) hr n
  have e1 : -(n * s ^ 2 + n * (average y - μ) ^ 2) / (2 * σ ^ 2) ≤ -((n : ℝ) * (((s / σ) ^ 2 - 1) / 2)) + -(n : ℝ) / 2 := by
    have : -(n * s ^ 2 + n * (average y - μ) ^ 2) / (2 * σ ^ 2) = -((n : ℝ) * (s / σ) ^ 2) / 2 - n * (average y - μ) ^ 2 / (2 * σ ^ 2) := by
      field_simp
      ring
    rw [this]
    have : 0 ≤ n * (average y - μ) ^ 2 / (2 * σ ^ 2) := by positivity
    linarith
  have e2 : -(n * s ^ 2 + n * (average y - average y) ^ 2) / (2 * s ^ 2) = -(n : ℝ) / 2 := by
    field_simp
    ring
  rw [e2]
  calc ((Real.sqrt (2 * Real.pi) * σ)⁻¹) ^ n * Real.exp (-(n * s ^ 2 + n * (average y - μ) ^ 2) / (2 * σ ^ 2))
      ≤ ((Real.sqrt (2 * Real.pi) * σ)⁻¹) ^ n * Real.exp (-((n : ℝ) * (((s / σ) ^ 2 - 1) / 2)) + -(n : ℝ) / 2) :=
        mul_le_mul_of_nonneg_left (Real.exp_le_exp.2 e1) (by positivity)
    _ = ((Real.sqrt (2 * Real.pi) * s)⁻¹) ^ n * (s / σ) ^ n * (Real.exp ((n : ℝ) * (((s / σ) ^ 2 - 1) / 2)))⁻¹ * Real.exp (-(n : ℝ) / 2) := by
        rw [Real.exp_add, Real.exp_neg, ← mul_pow, ← mul_assoc]
        congr 3
        field_simp
    _ ≤ ((Real.sqrt (2 * Real.pi) * s)⁻¹) ^ n * 1 * Real.exp (-(n : ℝ) / 2) := by
        refine mul_le_mul_of_nonneg_right ?_ (Real.exp_pos _).le
        rw [mul_assoc]
        refine mul_le_mul_of_nonneg_left ?_ (by positivity)
        rw [mul_inv_le_iff₀ (Real.exp_pos _), one_mul]
        exact hpow
    _ = _ := by rw [mul_one]

/-- **C103 (moments).**  Without limits, a fit to samples that are not all equal returns: the exponential of the average logarithm and
the spread of the logarithms of a lognormal variable; the average of a normal variable, with the spread (`normal_std`) or the
coefficient of variation, which is infinite for an average of zero. -/
theorem C103_moments (S : Solver d) (heps : 0 < S.eps) (hsvd : IsSvd S.svd) (hn : 0 < n) (fam : Fin d → Fam) (hfam : ∀ i, fam i ≠ .other)
    (x : Fin d → Fin n → ℝ) (hpos : ∀ i, fam i = .lognormal → ∀ j, 0 < x i j) (count : ℕ) (multi : Bool) :
    ∃ θ ρ, fit S fam (fun _ => noLimits) (fun _ => noLimits) count multi x = .ok (θ, ρ) ∧
      ∀ i, spread (inSpace (fam i) (x i)) ≠ 0 →
        (fam i = .lognormal → θ i = (Real.exp (average fun j => Real.log (x i j)), .fin (spread fun j => Real.log (x i j)))) ∧
        (fam i = .normalStd → θ i = (average (x i), .fin (spread (x i)))) ∧
        (fam i = .normal ∨ fam i = .normalCov → (θ i).1 = average (x i) ∧
          (1 / 10 ^ 40 ≤ |average (x i)| → (θ i).2 = .fin (spread (x i) / |average (x i)|)) ∧
          (|average (x i)| < 1 / 10 ^ 40 → (θ i).2 = .posInf)) := by
  refine ⟨_, _, fit_noLimits S heps hsvd hn fam hfam x hpos count multi, ?_⟩
  intro i hs
  have h2 := moments_snd S.eps hs
  have h1 := moments_fst S.eps (inSpace (fam i) (x i))
  refine ⟨?_, ?_, ?_⟩
  · intro h
    simp only [outTheta, h]
    rw [h] at h1 h2
    rw [h1, h2, inSpace_log]
  · intro h
    simp only [outTheta, h]
    rw [h] at h1 h2
    rw [h1, h2, inSpace_normal (by simp)]
  · intro h
    have hy : inSpace (fam i) (x i) = x i := by
      exact inSpace_normal (by rcases h with h | h <;> simp [h]) _
    rw [hy] at h1 h2 ⊢
    have ho : outTheta (fam i) (moments S.eps (x i)) = (average (x i), if |average (x i)| < 1 / 10 ^ 40 then .posInf else .fin (spread (x i) / |average (x i)|)) := by
      rcases h with h | h <;> simp only [outTheta, h, h1, h2]
    simp only [ho]
    refine ⟨trivial, ?_, ?_⟩
    · intro hle; rw [if_neg (by linarith)]
    · intro hlt; rw [if_pos hlt]

/-- **C103 (maximum likelihood).**  Without limits, no distribution of the family makes the samples more likely than the fitted one.
Missing: fits with limits, where the search has bounds that depend on the unit (`C103_bounded`) and detection limits are taken for truncation limits
(`C103_detection_changes_fit`). -/
theorem C103_likelihood_partial (S : Solver d) (heps : 0 < S.eps) (hsvd : IsSvd S.svd) (hn : 0 < n) (fam : Fin d → Fam) (hfam : ∀ i, fam i ≠ .other)
    (x : Fin d → Fin n → ℝ) (hpos : ∀ i, fam i = .lognormal → ∀ j, 0 < x i j) (count : ℕ) (multi : Bool) :
    ∃ θ ρ, fit S fam (fun _ => noLimits) (fun _ => noLimits) count multi x = .ok (θ, ρ) ∧
      ∀ i, spread (inSpace (fam i) (x i)) ≠ 0 → ∀ p, (θ i).2 = .fin p →
        0 < (meaning (fam i) ((θ i).1, p)).2 ∧
        ∀ μ σ, 0 < σ → ∏ j, density (fam i) μ σ (x i j) ≤
          ∏ j, density (fam i) (meaning (fam i) ((θ i).1, p)).1 (meaning (fam i) ((θ i).1, p)).2 (x i j) := by
  obtain ⟨θ, ρ, h, hθ⟩ := C103_moments S heps hsvd hn fam hfam x hpos count multi
  refine ⟨θ, ρ, h, ?_⟩
  intro i hs p hp
  obtain ⟨h1, h2, h3⟩ := hθ i hs
  have hm : meaning (fam i) ((θ i).1, p) = (average (inSpace (fam i) (x i)), spread (inSpace (fam i) (x i))) := by
    cases hf : fam i with
    | lognormal =>
      have h1 := h1 hf
      rw [h1] at hp ⊢
      simp only [Ext.fin.injEq] at hp
      simp [meaning, inSpace_log, inSpace_normal, ← hp]
    | normalStd =>
      have h2 := h2 hf
      rw [h2] at hp ⊢
      simp only [Ext.fin.injEq] at hp
      simp [meaning, inSpace_log, inSpace_normal, ← hp]
    | other => exact absurd hf (hfam i)
    | normal =>
      obtain ⟨h31, h32, h33⟩ := h3 (Or.inl hf)
      have ha : 1 / 10 ^ 40 ≤ |average (x i)| := by
        by_contra hc
        rw [h33 (not_le.1 hc)] at hp
        exact absurd hp (by simp)
      rw [h32 ha] at hp
      simp only [Ext.fin.injEq] at hp
      have h0 : |average (x i)| ≠ 0 := (lt_of_lt_of_le (by positivity) ha).ne'
      have hy : inSpace .normal (x i) = x i := inSpace_normal (by simp) _
      rw [hy]
      simp only [meaning, h31, ← hp]
      rw [div_mul_cancel₀ _ h0]
    | normalCov =>
      obtain ⟨h31, h32, h33⟩ := h3 (Or.inr hf)
      have ha : 1 / 10 ^ 40 ≤ |average (x i)| := by
        by_contra hc
        rw [h33 (not_le.1 hc)] at hp
        exact absurd hp (by simp)
      rw [h32 ha] at hp
      simp only [Ext.fin.injEq] at hp
      have h0 : |average (x i)| ≠ 0 := (lt_of_lt_of_le (by positivity) ha).ne'
      have hy : inSpace .normalCov (x i) = x i := inSpace_normal (by simp) _
      rw [hy]
      simp only [meaning, h31, ← hp]
      rw [div_mul_cancel₀ _ h0]
  rw [hm]
  refine ⟨lt_of_le_of_ne (spread_nonneg _) (Ne.symm hs), ?_⟩
  intro μ σ hσ
  have hmax := likelihood_max hn (inSpace (fam i) (x i)) hs μ σ hσ
  unfold density
  by_cases hf : fam i = .lognormal
  · simp only [hf, if_true] at hmax ⊢
    rw [Finset.prod_div_distrib, Finset.prod_div_distrib]
    refine div_le_div_of_nonneg_right ?_ (Finset.prod_nonneg fun j _ => (hpos i hf j).le)
    simpa only [inSpace_log] using hmax
  · simp only [hf, if_false]
    have hy : inSpace (fam i) (x i) = x i := inSpace_normal hf _
    rw [hy] at hmax ⊢
    exact hmax

/-- **C103 (correlations).**  Without limits, the correlations are the correlation coefficients of the samples (in logarithms for lognormal
variables); samples that are all equal are not correlated with others.  The matrix is symmetric and positive semidefinite, with ones in the
diagonal. -/
theorem C103_correlation (S : Solver d) (heps : 0 < S.eps) (hsvd : IsSvd S.svd) (hn : 0 < n) (fam : Fin d → Fam) (hfam : ∀ i, fam i ≠ .other)
    (x : Fin d → Fin n → ℝ) (hpos : ∀ i, fam i = .lognormal → ∀ j, 0 < x i j) (count : ℕ) (multi : Bool) :
    ∃ θ ρ, fit S fam (fun _ => noLimits) (fun _ => noLimits) count multi x = .ok (θ, ρ) ∧
      ρ.PosSemidef ∧ (∀ i, ρ i i = 1) ∧ (∀ i j, ρ i j = ρ j i ∧ |ρ i j| ≤ 1) ∧
      (∀ i j, spread (inSpace (fam i) (x i)) ≠ 0 → spread (inSpace (fam j) (x j)) ≠ 0 →
        ρ i j = correlation (inSpace (fam i) (x i)) (inSpace (fam j) (x j))) ∧
      (∀ i j, i ≠ j → spread (inSpace (fam i) (x i)) = 0 → ρ i j = 0) := by
  refine ⟨_, _, fit_noLimits S heps hsvd hn fam hfam x hpos count multi, ?_⟩
  have hpsd := corr_posSemidef hn S.eps fun i => inSpace (fam i) (x i)
  have heq : corr (fun i k => (inSpace (fam i) (x i) k - (moments S.eps (inSpace (fam i) (x i))).1) / (moments S.eps (inSpace (fam i) (x i))).2) =
      fun i j => if i = j then 1 else if spread (inSpace (fam i) (x i)) = 0 ∨ spread (inSpace (fam j) (x j)) = 0 then 0
          else correlation (inSpace (fam i) (x i)) (inSpace (fam j) (x j)) := by
    funext i j
    exact corr_moments hn S.eps (fun i => inSpace (fam i) (x i)) i j
  rw [heq] at hpsd
  refine ⟨hpsd, fun i => by simp, fun i j => ⟨?_, entry_bound hpsd (fun i => by simp) i j⟩, ?_, ?_⟩
  · have := hpsd.isHermitian.apply i j
    rw [star_trivial] at this
    exact this.symm
  · intro i j hi hj
    by_cases hij : i = j
    · subst hij
      simp only [if_true]
      unfold correlation
      rw [← pow_two, spread_sq]
      have h2 := pow_ne_zero 2 hi
      rw [spread_sq] at h2
      rw [show average (fun k => (inSpace (fam i) (x i) k - average (inSpace (fam i) (x i))) * (inSpace (fam i) (x i) k - average (inSpace (fam i) (x i)))) =
        (∑ k, (inSpace (fam i) (x i) k - average (inSpace (fam i) (x i))) ^ 2) / n from by
          unfold average; congr 1; exact Finset.sum_congr rfl fun k _ => by ring]
      exact (div_self h2).symm
    · simp [hij, hi, hj]
  · intro i j hij hi
    simp [hij, hi]

theorem average_scale (c : ℝ) (x : Fin n → ℝ) : average (fun j => c * x j) = c * average x := by
  unfold average
  rw [← Finset.mul_sum, mul_div_assoc]

theorem average_shift (hn : 0 < n) (c : ℝ) (x : Fin n → ℝ) : average (fun j => c + x j) = c + average x := by
  have : (n : ℝ) ≠ 0 := by positivity
  unfold average
  rw [Finset.sum_add_distrib, Finset.sum_const, Finset.card_univ, Fintype.card_fin, nsmul_eq_mul]
  field_simp

theorem spread_scale {c : ℝ} (hc : 0 < c) (x : Fin n → ℝ) : spread (fun j => c * x j) = c * spread x := by
  unfold spread
  rw [average_scale]
  have : (fun j => (c * x j - c * average x) ^ 2) = fun j => c ^ 2 * (x j - average x) ^ 2 := by funext j; ring
  rw [this, average_scale, Real.sqrt_mul (sq_nonneg c), Real.sqrt_sq hc.le]

theorem spread_shift (hn : 0 < n) (c : ℝ) (x : Fin n → ℝ) : spread (fun j => c + x j) = spread x := by
  unfold spread
  rw [average_shift hn]
  simp only [add_sub_add_left_eq_sub]

/-- Deviations from the average, relative to the spread. -/
theorem deviation_unit (hn : 0 < n) (fam : Fam) {c : ℝ} (hc : 0 < c) (x : Fin n → ℝ) (hpos : fam = .lognormal → ∀ j, 0 < x j) :
    ∃ k : ℝ, 0 < k ∧ spread (inSpace fam fun j => c * x j) = k * spread (inSpace fam x) ∧
      ∀ j, inSpace fam (fun j => c * x j) j - average (inSpace fam fun j => c * x j) = k * (inSpace fam x j - average (inSpace fam x)) := by
  by_cases hf : fam = .lognormal
  · subst hf
    have : (inSpace .lognormal fun j => c * x j) = fun j => Real.log c + Real.log (x j) := by
      rw [inSpace_log]
      funext j
      exact Real.log_mul hc.ne' (hpos rfl j).ne'
    refine ⟨1, one_pos, ?_, ?_⟩
    · rw [this, spread_shift hn, inSpace_log, one_mul]
    · intro j
      rw [this, average_shift hn, inSpace_log]
      ring
  · refine ⟨c, hc, ?_, ?_⟩
    · rw [inSpace_normal hf, inSpace_normal hf, spread_scale hc]
    · intro j
      rw [inSpace_normal hf, inSpace_normal hf, average_scale]
      ring

theorem correlation_unit {y z y' z' : Fin n → ℝ} {k l : ℝ} (hk : 0 < k) (hl : 0 < l) (hy : spread y' = k * spread y) (hz : spread z' = l * spread z)
    (dy : ∀ j, y' j - average y' = k * (y j - average y)) (dz : ∀ j, z' j - average z' = l * (z j - average z)) :
    correlation y' z' = correlation y z := by
  unfold correlation
  rw [hy, hz]
  simp only [dy, dz]
  have : (fun j => k * (y j - average y) * (l * (z j - average z))) = fun j => (k * l) * ((y j - average y) * (z j - average z)) := by
    funext j; ring
  rw [this, average_scale, show k * spread y * (l * spread z) = (k * l) * (spread y * spread z) by ring]
  exact mul_div_mul_left _ _ (mul_pos hk hl).ne'

/-- **C103 (units).**  Without limits, the fit is the same in every unit: means, medians and standard deviations change by the factor between
the units, logarithmic standard deviations, coefficients of variation and correlations not at all.  (Samples that are not all equal;
averages that count as zero in no unit.) -/
theorem C103_units (S : Solver d) (heps : 0 < S.eps) (hsvd : IsSvd S.svd) (hn : 0 < n) (fam : Fin d → Fam) (hfam : ∀ i, fam i ≠ .other)
    (x : Fin d → Fin n → ℝ) (hpos : ∀ i, fam i = .lognormal → ∀ j, 0 < x i j) (hs : ∀ i, spread (inSpace (fam i) (x i)) ≠ 0)
    (c : Fin d → ℝ) (hc : ∀ i, 0 < c i) (h0 : ∀ i, 1 / 10 ^ 40 ≤ |average (x i)| ∧ 1 / 10 ^ 40 ≤ c i * |average (x i)|)
    (count : ℕ) (multi : Bool) :
    ∃ θ θ' ρ, fit S fam (fun _ => noLimits) (fun _ => noLimits) count multi x = .ok (θ, ρ) ∧
      fit S fam (fun _ => noLimits) (fun _ => noLimits) count multi (fun i j => c i * x i j) = .ok (θ', ρ) ∧
      ∀ i, (θ' i).1 = c i * (θ i).1 ∧ (fam i ≠ .normalStd → (θ' i).2 = (θ i).2) ∧
        (fam i = .normalStd → ∃ s, (θ i).2 = .fin s ∧ (θ' i).2 = .fin (c i * s)) := by
  have hpos' : ∀ i, fam i = .lognormal → ∀ j, 0 < c i * x i j := fun i hi j => mul_pos (hc i) (hpos i hi j)
  have hu := fun i => deviation_unit hn (fam i) (hc i) (x i) (hpos i)
  have hs' : ∀ i, spread (inSpace (fam i) fun j => c i * x i j) ≠ 0 := by
    intro i
    obtain ⟨k, hk, h1, _⟩ := hu i
    rw [h1]
    exact mul_ne_zero hk.ne' (hs i)
  obtain ⟨θ, ρ, h, hθ⟩ := C103_moments S heps hsvd hn fam hfam x hpos count multi
  obtain ⟨θ', ρ', h', hθ'⟩ := C103_moments S heps hsvd hn fam hfam (fun i j => c i * x i j) hpos' count multi
  have hρ : ρ' = ρ := by
    have e1 := fit_noLimits S heps hsvd hn fam hfam x hpos count multi
    have e2 := fit_noLimits S heps hsvd hn fam hfam (fun i j => c i * x i j) hpos' count multi
    have e3 := congrArg Prod.snd (Except.ok.inj (h.symm.trans e1))
    have e4 := congrArg Prod.snd (Except.ok.inj (h'.symm.trans e2))
    simp only at e3 e4
    rw [e3, e4]
    funext i j
    obtain ⟨k, hk, h1, h2⟩ := hu i
    obtain ⟨l, hl, h3, h4⟩ := hu j
    have := correlation_unit hk hl h1 h3 h2 h4
    simp only [hs' i, hs' j, hs i, hs j, or_self, if_false, this]
  subst hρ
  refine ⟨θ, θ', ρ', h, h', ?_⟩
  intro i
  obtain ⟨a1, a2, a3⟩ := hθ i (hs i)
  obtain ⟨b1, b2, b3⟩ := hθ' i (hs' i)
  have hav : average (fun j => c i * x i j) = c i * average (x i) := average_scale _ _
  have hsp : spread (fun j => c i * x i j) = c i * spread (x i) := spread_scale (hc i) _
  have hlogav : fam i = .lognormal → (average fun j => Real.log (c i * x i j)) = Real.log (c i) + average fun j => Real.log (x i j) := by
    intro hf
    rw [← average_shift hn]
    congr 1
    funext j
    exact Real.log_mul (hc i).ne' (hpos i hf j).ne'
  have hlogsp : fam i = .lognormal → (spread fun j => Real.log (c i * x i j)) = spread fun j => Real.log (x i j) := by
    intro hf
    rw [← spread_shift hn (Real.log (c i)) fun j => Real.log (x i j)]
    congr 1
    funext j
    exact Real.log_mul (hc i).ne' (hpos i hf j).ne'
  cases hf : fam i with
  | other => exact absurd hf (hfam i)
  | lognormal =>
    rw [a1 hf, b1 hf]
    refine ⟨?_, fun _ => by rw [hlogsp hf], fun h => absurd h (by simp)⟩
    simp only
    rw [hlogav hf, Real.exp_add, Real.exp_log (hc i)]
  | normalStd =>
    rw [a2 hf, b2 hf]
    exact ⟨hav, fun h => absurd rfl h, fun _ => ⟨_, rfl, by rw [hsp]⟩⟩
  | normal =>
    obtain ⟨p1, p2, _⟩ := a3 (Or.inl hf)
    obtain ⟨q1, q2, _⟩ := b3 (Or.inl hf)
    refine ⟨by rw [q1, p1, hav], fun _ => ?_, fun h => absurd h (by simp)⟩
    rw [p2 (h0 i).1, q2 (by rw [hav, abs_mul, abs_of_pos (hc i)]; exact (h0 i).2), hav, hsp, abs_mul, abs_of_pos (hc i),
      mul_div_mul_left _ _ (hc i).ne']
  | normalCov =>
    obtain ⟨p1, p2, _⟩ := a3 (Or.inr hf)
    obtain ⟨q1, q2, _⟩ := b3 (Or.inr hf)
    refine ⟨by rw [q1, p1, hav], fun _ => ?_, fun h => absurd h (by simp)⟩
    rw [p2 (h0 i).1, q2 (by rw [hav, abs_mul, abs_of_pos (hc i)]; exact (h0 i).2), hav, hsp, abs_mul, abs_of_pos (hc i),
      mul_div_mul_left _ _ (hc i).ne']

theorem spread_ne_zero (hn : 0 < n) {x : Fin n → ℝ} {j k : Fin n} (h : x j ≠ x k) : spread x ≠ 0 := fun h0 =>
  h ((spread_zero hn h0 j).trans (spread_zero hn h0 k).symm)

-- a lognormal and a normal variable with three samples each, in inches for feet
example : ∃ (S : Solver 2) (x : Fin 2 → Fin 3 → ℝ) (fam : Fin 2 → Fam), 0 < S.eps ∧ IsSvd S.svd ∧ fam = ![.lognormal, .normal] ∧
    (∀ i, fam i ≠ .other) ∧ (∀ i, fam i = .lognormal → ∀ j, 0 < x i j) ∧ (∀ i, spread (inSpace (fam i) (x i)) ≠ 0) ∧
    (∀ i, 1 / 10 ^ 40 ≤ |average (x i)| ∧ 1 / 10 ^ 40 ≤ 12 * |average (x i)|) := by
  obtain ⟨svd, hsvd⟩ := isSvd_exists (d := 2)
  refine ⟨⟨1 / 10 ^ 300, fun _ => (0, 0), fun p => .ok p, svd⟩, ![![1, 2, 4], ![-1, 3, 1]], _, by norm_num, hsvd, rfl, ?_, ?_, ?_, ?_⟩
  · intro i; fin_cases i <;> simp
  · intro i
    fin_cases i
    · intro _ j; fin_cases j <;> simp
    · intro h; simp at h
  · intro i
    fin_cases i
    · refine spread_ne_zero (by norm_num) (j := 0) (k := 1) ?_
      have : Real.log 2 ≠ 0 := (Real.log_pos (by norm_num)).ne'
      simp [inSpace, this.symm]
    · refine spread_ne_zero (by norm_num) (j := 0) (k := 1) ?_
      simp [inSpace]
      norm_num
  · intro i
    fin_cases i <;> simp [average, Fin.sum_univ_three] <;> norm_num

/-- What is assumed of the minimization: it does not end at a point that is worse than its start. -/
def Descends (S : Solver d) : Prop := ∀ (f : ℝ × ℝ → Option ℝ) (v : ℝ), f (0, 0) = some v → ∃ w, w ≤ v ∧ f (S.minimize f) = some w

theorem getTheta_zero (fam : Fam) {init : ℝ × ℝ} (h : 0 < init.2) : getTheta fam (0, 0) init = init := by
  cases fam <;> simp [getTheta, Real.exp_log h]

/-- The parameters are those of the separate fits if no joint fit is made. -/
theorem fit_marginal {S : Solver d} {fam : Fin d → Fam} {tr det : Fin d → Limits} {x : Fin d → Fin n → ℝ}
    {θ : Fin d → ℝ × Ext ℝ} {ρ : Matrix (Fin d) (Fin d) ℝ} (h : fit S fam tr det 0 false x = .ok (θ, ρ)) :
    ∃ t : Fin d → ℝ × ℝ, θ = (fun i => outTheta (fam i) (t i)) ∧
      ((n < 3 ∨ ((∀ i, toLogLimits (fam i) (tr i) = noLimits) ∧ ∀ i, toLogLimits (fam i) (det i) = noLimits)) ∧
          t = (fun i => moments S.eps (inSpace (fam i) (x i))) ∨
        ¬ (n < 3 ∨ ((∀ i, toLogLimits (fam i) (tr i) = noLimits) ∧ ∀ i, toLogLimits (fam i) (det i) = noLimits)) ∧
          t = fun i => marginal S i (fam i) (toLogLimits (fam i) (tr i)) (toLogLimits (fam i) (det i)) (inSpace (fam i) (x i))) := by
  unfold fit at h
  split at h
  · exact absurd h (by simp)
  · simp only [toLog_eq] at h
    cases hs : solve S fam (fun i => toLogLimits (fam i) (tr i)) (fun i => toLogLimits (fam i) (det i)) 0 false (fun i => inSpace (fam i) (x i)) with
    | error e => rw [hs] at h; exact absurd h (by simp)
    | ok t =>
      rw [hs] at h
      simp only [finish] at h
      split at h
      · exact absurd h (by simp)
      · simp only [Except.ok.injEq, Prod.mk.injEq] at h
        refine ⟨t, h.1.symm, ?_⟩
        unfold solve at hs
        split at hs
        · rename_i hc
          exact Or.inl ⟨hc, by simpa using hs.symm⟩
        · rename_i hc
          split at hs
          · exact absurd hs (by simp)
          · simp only [Bool.false_eq_true, Nat.lt_irrefl, or_self, if_false, Except.ok.injEq] at hs
            exact Or.inr ⟨hc, hs.symm⟩

/-- **C103 fails with limits: the bounds.**  With at least three samples and a limit for a normal variable, the mean that is fitted is never 10 or
more away from the average of the samples (5 or more for every other variable), whatever the unit of the samples is. -/
theorem C103_bounded (S : Solver d) (heps : 0 < S.eps) (hS : Descends S) (hn : 3 ≤ n) (fam : Fin d → Fam) (tr det : Fin d → Limits)
    (x : Fin d → Fin n → ℝ) (θ : Fin d → ℝ × Ext ℝ) (ρ : Matrix (Fin d) (Fin d) ℝ) (h : fit S fam tr det 0 false x = .ok (θ, ρ))
    (i : Fin d) (hf : fam i = .normal ∨ fam i = .normalStd) (hlim : tr i ≠ noLimits ∨ det i ≠ noLimits)
    (hstart : negLogLikelihood S.eps (moments S.eps (x i)) (mergeLimits (tr i) (det i)) (x i) < 10 ^ 10) :
    |(θ i).1 - average (x i)| < if (i : ℕ) % 2 = 0 then 10 else 5 := by
  have hnl : fam i ≠ .lognormal := by rcases hf with h | h <;> simp [h]
  have htl : ∀ l, toLogLimits (fam i) l = l := fun l => by simp [toLogLimits, hnl]
  obtain ⟨t, rfl, ht⟩ := fit_marginal h
  rcases ht with ⟨hc, _⟩ | ⟨_, rfl⟩
  · exfalso
    rcases hc with hc | ⟨hc1, hc2⟩
    · omega
    · have h1 := hc1 i
      have h2 := hc2 i
      rw [htl] at h1 h2
      rcases hlim with h | h
      · exact h h1
      · exact h h2
  · simp only [htl, inSpace_normal hnl]
    set f := objective S.eps i (fam i) (moments S.eps (x i)) (mergeLimits (tr i) (det i)) (x i) with hfdef
    have hpos := moments_pos heps (x i)
    have hb : 0 < bound i := by unfold bound; split <;> norm_num
    have hf0 : f (0, 0) = some (negLogLikelihood S.eps (moments S.eps (x i)) (mergeLimits (tr i) (det i)) (x i)) := by
      simp only [hfdef, objective]
      rw [if_pos ⟨by linarith, hb, by linarith, hb⟩, getTheta_zero _ hpos, if_pos hpos]
    obtain ⟨w, hw, hmin⟩ := hS f _ hf0
    have hin : -bound i < (S.minimize f).1 ∧ (S.minimize f).1 < bound i := by
      rw [hfdef, objective] at hmin
      rw [← hfdef] at hmin
      split at hmin
      · rename_i hc; exact ⟨hc.1, hc.2.1⟩
      · simp only [Option.some.injEq] at hmin
        exfalso
        linarith
    have hθ : (outTheta (fam i) (marginal S i (fam i) (tr i) (det i) (x i))).1 = average (x i) + (S.minimize f).1 := by
      rcases hf with h | h <;> simp only [h, outTheta, marginal, getTheta] <;> simp only [moments_fst, hfdef, h]
    rw [hθ, add_sub_cancel_left, abs_lt]
    exact hin

/-- **C103 fails with limits: units.**  Let a normal variable (the first one) be fitted with limits, and let `c` be the factor to another unit
in which the difference of the fitted mean and the average is at least 10.  Then the fit in this unit is another one. -/
theorem C103_unit_dependent (S : Solver d) (heps : 0 < S.eps) (hS : Descends S) (hn : 3 ≤ n) (fam : Fin d → Fam) (tr det tr' det' : Fin d → Limits)
    (x : Fin d → Fin n → ℝ) (θ θ' : Fin d → ℝ × Ext ℝ) (ρ' : Matrix (Fin d) (Fin d) ℝ) (c : ℝ) (hc : 0 < c)
    (h' : fit S fam tr' det' 0 false (fun i j => c * x i j) = .ok (θ', ρ'))
    (i : Fin d) (hi : (i : ℕ) = 0) (hf : fam i = .normal ∨ fam i = .normalStd) (hlim : tr' i ≠ noLimits ∨ det' i ≠ noLimits)
    (hstart : negLogLikelihood S.eps (moments S.eps fun j => c * x i j) (mergeLimits (tr' i) (det' i)) (fun j => c * x i j) < 10 ^ 10)
    (hfar : 10 ≤ c * |(θ i).1 - average (x i)|) : (θ' i).1 ≠ c * (θ i).1 := by
  intro he
  have := C103_bounded S heps hS hn fam tr' det' _ θ' ρ' h' i hf hlim hstart
  rw [average_scale, he, ← mul_sub, abs_mul, abs_of_pos hc] at this
  simp only [hi, Nat.zero_mod, if_true] at this
  linarith

theorem merge_left (l : Limits) : mergeLimits noLimits l = l := by
  obtain ⟨a, b⟩ := l
  cases a <;> cases b <;> simp [mergeLimits, noLimits]

theorem merge_right (l : Limits) : mergeLimits l noLimits = l := by
  obtain ⟨a, b⟩ := l
  cases a <;> cases b <;> simp [mergeLimits, noLimits]

/-- **C103 fails for detection limits without censored samples.**  If no sample is censored, the distribution that is fitted with detection limits
is the one that is fitted with truncation limits at the same values. -/
theorem C103_detection_is_truncation (S : Solver d) (fam : Fin d → Fam) (lims : Fin d → Limits) (x : Fin d → Fin n → ℝ)
    (θ θ' : Fin d → ℝ × Ext ℝ) (ρ ρ' : Matrix (Fin d) (Fin d) ℝ)
    (h : fit S fam (fun _ => noLimits) lims 0 false x = .ok (θ, ρ)) (h' : fit S fam lims (fun _ => noLimits) 0 false x = .ok (θ', ρ')) : θ = θ' := by
  obtain ⟨t, rfl, ht⟩ := fit_marginal h
  obtain ⟨t', rfl, ht'⟩ := fit_marginal h'
  simp only [toLog_noLimits, implies_true, true_and, and_true] at ht ht'
  have : t = t' := by
    rcases ht with ⟨hc, rfl⟩ | ⟨hc, rfl⟩ <;> rcases ht' with ⟨hc', rfl⟩ | ⟨hc', rfl⟩
    · rfl
    · exact absurd hc hc'
    · exact absurd hc' hc
    · funext i
      simp only [marginal, merge_left, merge_right]
  rw [this]

/-- **C103 (overwritten samples).**  A fit replaces the samples of lognormal variables in the array of the caller by their logarithms; a second fit to
the same array fails if one of these samples was 1 or less. -/
theorem C103_overwritten (S : Solver d) (fam : Fin d → Fam) (tr det : Fin d → Limits) (count : ℕ) (multi : Bool) (x : Fin d → Fin n → ℝ)
    (i : Fin d) (j : Fin n) (hf : fam i = .lognormal) (h0 : 0 < x i j) (h1 : x i j ≤ 1) :
    samplesAfter fam x i j = Real.log (x i j) ∧ samplesAfter fam x i j ≠ x i j ∧
      fit S fam tr det count multi (samplesAfter fam x) = .error .valueError := by
  have hl : samplesAfter fam x i j = Real.log (x i j) := by simp [samplesAfter, toLog, hf]
  have hle : Real.log (x i j) ≤ 0 := Real.log_nonpos h0.le h1
  refine ⟨hl, by rw [hl]; linarith, ?_⟩
  unfold fit
  rw [if_pos ⟨i, Or.inr ⟨hf, j, by rw [hl]; exact hle⟩⟩]

-- a lognormal variable with the samples 1/2 and 3
example : (![![1 / 2, 3]] : Fin 1 → Fin 2 → ℝ) 0 0 ≤ 1 ∧ 0 < (![![1 / 2, 3]] : Fin 1 → Fin 2 → ℝ) 0 0 := by
  constructor <;> norm_num

/-- **C103 (refused).**  A family that is not supported and a lognormal variable with a sample that is not positive are refused. -/
theorem C103_refused (S : Solver d) (fam : Fin d → Fam) (tr det : Fin d → Limits) (count : ℕ) (multi : Bool) (x : Fin d → Fin n → ℝ)
    (i : Fin d) (h : fam i = .other ∨ fam i = .lognormal ∧ ∃ j, x i j ≤ 0) : fit S fam tr det count multi x = .error .valueError := by
  unfold fit
  rw [if_pos ⟨i, h⟩]

end Verif.Fit
