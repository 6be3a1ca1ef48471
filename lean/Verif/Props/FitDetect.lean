import Verif.Props.Fit
import Mathlib.Topology.Order.Basic
import Mathlib.Analysis.Complex.ExponentialBounds
import Mathlib.Analysis.Real.Pi.Bounds

/-!
# C103: Detection limits without censored samples

If no sample is beyond the detection limits, all samples are known and the best normal distribution is the one with their moments
(`C103_likelihood`).  The fit with a detection limit returns another one.
-/

namespace Verif.Fit

open Verif.UQ (Ext gaussCdf gaussian gaussCdf_strictMono gaussCdf_pos gaussCdf_lt_one gaussCdf_continuous)
open ProbabilityTheory MeasureTheory Set Filter Topology

variable {n : ℕ}

theorem normPdf_pos {σ : ℝ} (hσ : 0 < σ) (μ x : ℝ) : 0 < normPdf μ σ x := by
  unfold normPdf
  positivity

theorem normPdf_std (x : ℝ) : normPdf 0 1 x = gaussianPDFReal 0 1 x := by
  unfold normPdf gaussianPDFReal
  simp only [sub_zero, div_one, one_mul, NNReal.coe_one, mul_one]
  rw [div_eq_inv_mul]

/-- The distribution function increases at least in proportion to its argument near a point. -/
theorem cdf_increment (a h : ℝ) (h0 : 0 ≤ h) (h1 : h ≤ 1) : h * normPdf 0 1 (|a| + 1) ≤ gaussCdf a - gaussCdf (a - h) := by
  have hsub : Iic (a - h) ⊆ Iic a := Iic_subset_Iic.2 (by linarith)
  have hd : Iic a \ Iic (a - h) = Ioc (a - h) a := by ext z; simp [and_comm]
  have hdiff := measureReal_diff (μ := gaussianReal 0 1) hsub measurableSet_Iic
  rw [hd] at hdiff
  have hcdf : gaussCdf a - gaussCdf (a - h) = (gaussianReal 0 1).real (Ioc (a - h) a) := by
    unfold gaussCdf
    rw [cdf_eq_real, cdf_eq_real, hdiff]
  rw [hcdf, measureReal_def, gaussianReal_apply 0 one_ne_zero]
  have hle : ENNReal.ofReal (normPdf 0 1 (|a| + 1)) * volume (Ioc (a - h) a) ≤ ∫⁻ x in Ioc (a - h) a, gaussianPDF 0 1 x := by
    rw [← setLIntegral_const]
    refine setLIntegral_mono (measurable_gaussianPDF 0 1) fun x hx => ?_
    rw [gaussianPDF, normPdf_std]
    refine ENNReal.ofReal_le_ofReal ?_
    unfold gaussianPDFReal
    refine mul_le_mul_of_nonneg_left (Real.exp_le_exp.2 ?_) (by positivity)
    simp only [sub_zero, NNReal.coe_one, mul_one]
    rw [neg_div, neg_div, neg_le_neg_iff]
    refine div_le_div_of_nonneg_right ?_ (by norm_num)
    rw [← sq_abs x]
    refine pow_le_pow_left₀ (abs_nonneg _) ?_ 2
    rw [abs_le]
    constructor
    · have := neg_abs_le a; have := hx.1; linarith
    · have := le_abs_self a; have := hx.2; linarith
  rw [Real.volume_Ioc, ← ENNReal.ofReal_mul (normPdf_pos one_pos _ _).le] at hle
  have hfin : ∫⁻ x in Ioc (a - h) a, gaussianPDF 0 1 x ≠ ⊤ := by
    rw [← gaussianReal_apply 0 one_ne_zero]
    exact measure_ne_top _ _
  have := ENNReal.toReal_mono hfin hle
  rw [ENNReal.toReal_ofReal (by have := normPdf_pos one_pos 0 (|a| + 1); nlinarith)] at this
  calc h * normPdf 0 1 (|a| + 1) = normPdf 0 1 (|a| + 1) * (a - (a - h)) := by ring
    _ ≤ _ := this

/-- The quantile function is continuous. -/
theorem ppf_continuousAt (z : ℝ) : ContinuousAt gaussian.ppf (gaussCdf z) := by
  unfold ContinuousAt
  rw [ppf_cdf, Metric.tendsto_nhds]
  intro ε hε
  have h1 : ∀ᶠ p in 𝓝 (gaussCdf z), gaussCdf (z - ε) < p := lt_mem_nhds (gaussCdf_strictMono (by linarith))
  have h2 : ∀ᶠ p in 𝓝 (gaussCdf z), p < gaussCdf (z + ε) := gt_mem_nhds (gaussCdf_strictMono (by linarith))
  filter_upwards [h1, h2] with p hp1 hp2
  have hp : gaussCdf (gaussian.ppf p) = p := gaussian.cdf_ppf ((gaussCdf_pos _).trans hp1) (hp2.trans (gaussCdf_lt_one _))
  rw [← hp] at hp1 hp2
  rw [Real.dist_eq, abs_lt]
  constructor
  · have := gaussCdf_strictMono.lt_iff_lt.1 hp1; linarith
  · have := gaussCdf_strictMono.lt_iff_lt.1 hp2; linarith

/-- An upper limit. -/
def upTo (b : ℝ) : Limits := (.nan, .fin b)

theorem stdValue_upTo (θ : ℝ × ℝ) (b x : ℝ) : stdValue θ (upTo b) x = gaussian.ppf (gaussCdf ((x - θ.1) / θ.2) / gaussCdf ((b - θ.1) / θ.2)) := by
  simp [stdValue, upTo, limitProb]

theorem sum_log_pdf (hn : 0 < n) (y : Fin n → ℝ) {s : ℝ} (hs : 0 < s) (δ : ℝ) :
    ∑ j, Real.log (normPdf (average y + δ) s (y j)) = ∑ j, Real.log (normPdf (average y) s (y j)) - n * δ ^ 2 / (2 * s ^ 2) := by
  have h : ∀ μ x, Real.log (normPdf μ s x) = -(x - μ) ^ 2 / (2 * s ^ 2) - Real.log (s * Real.sqrt (2 * Real.pi)) := by
    intro μ x
    unfold normPdf
    rw [Real.log_div (Real.exp_pos _).ne' (by positivity), Real.log_exp]
    congr 1
    rw [div_pow]
    field_simp
  have e : ∀ μ, ∑ j, -(y j - μ) ^ 2 / (2 * s ^ 2) = -(∑ j, (y j - μ) ^ 2) / (2 * s ^ 2) := by
    intro μ
    rw [neg_div, Finset.sum_div, ← Finset.sum_neg_distrib]
    exact Finset.sum_congr rfl fun j _ => by rw [neg_div]
  simp only [h]
  rw [Finset.sum_sub_distrib, Finset.sum_sub_distrib, e, e, sum_sq hn, sum_sq hn]
  ring

/-- With an upper limit, the moments of the sample are not the best parameters. -/
theorem better_with_limit (hn : 0 < n) (eps : ℝ) (heps : 0 < eps) (y : Fin n → ℝ) (hs : spread y ≠ 0) (b : ℝ) (hb : ∀ j, y j < b)
    (hlik : ∀ j, eps ≤ normPdf (average y) (spread y) (y j) / gaussCdf ((b - average y) / spread y))
    (hstd : ∀ j, eps < normPdf 0 1 (stdValue (average y, spread y) (upTo b) (y j))) :
    ∃ δ : ℝ, 0 < δ ∧ δ < 5 ∧
      negLogLikelihood eps (average y + δ, spread y) (upTo b) y < negLogLikelihood eps (average y, spread y) (upTo b) y := by
  have hs' : 0 < spread y := lt_of_le_of_ne (spread_nonneg y) (Ne.symm hs)
  have hn' : (0 : ℝ) < n := by exact_mod_cast hn
  set s := spread y with hsdef
  set m := average y with hmdef
  set c := normPdf 0 1 (|(b - m) / s| + 1) with hc
  have hcpos : 0 < c := normPdf_pos one_pos _ _
  -- standardized values stay away from the rounding
  have hev : ∀ j, ∀ᶠ δ in 𝓝 (0 : ℝ), eps < normPdf 0 1 (stdValue (m + δ, s) (upTo b) (y j)) := by
    intro j
    have hw : ContinuousAt (fun δ : ℝ => gaussCdf ((y j - (m + δ)) / s) / gaussCdf ((b - (m + δ)) / s)) 0 := by
      refine ContinuousAt.div ?_ ?_ (gaussCdf_pos _).ne'
      · exact (gaussCdf_continuous.comp (by fun_prop : Continuous fun δ : ℝ => (y j - (m + δ)) / s)).continuousAt
      · exact (gaussCdf_continuous.comp (by fun_prop : Continuous fun δ : ℝ => (b - (m + δ)) / s)).continuousAt
    have h01 : 0 < gaussCdf ((y j - m) / s) / gaussCdf ((b - m) / s) := div_pos (gaussCdf_pos _) (gaussCdf_pos _)
    have h02 : gaussCdf ((y j - m) / s) / gaussCdf ((b - m) / s) < 1 := by
      rw [div_lt_one (gaussCdf_pos _)]
      refine gaussCdf_strictMono ?_
      have := hb j
      gcongr
    have hz := gaussian.cdf_ppf h01 h02
    have hp : ContinuousAt gaussian.ppf (gaussCdf ((y j - (m + 0)) / s) / gaussCdf ((b - (m + 0)) / s)) := by
      have := ppf_continuousAt (gaussian.ppf (gaussCdf ((y j - m) / s) / gaussCdf ((b - m) / s)))
      have e : gaussCdf (gaussian.ppf (gaussCdf ((y j - m) / s) / gaussCdf ((b - m) / s))) = gaussCdf ((y j - m) / s) / gaussCdf ((b - m) / s) := hz
      rw [e] at this
      simpa only [add_zero] using this
    have hφ : Continuous (normPdf 0 1) := by
      unfold normPdf
      fun_prop
    have hcomp : ContinuousAt (fun δ : ℝ => normPdf 0 1 (stdValue (m + δ, s) (upTo b) (y j))) 0 := by
      simp only [stdValue_upTo]
      exact hφ.continuousAt.comp (ContinuousAt.comp (f := fun δ : ℝ => gaussCdf ((y j - (m + δ)) / s) / gaussCdf ((b - (m + δ)) / s)) (g := gaussian.ppf) hp hw)
    have h0 : eps < (fun δ : ℝ => normPdf 0 1 (stdValue (m + δ, s) (upTo b) (y j))) 0 := by
      simp only [add_zero]
      exact hstd j
    exact hcomp.eventually (lt_mem_nhds h0)
  have hall : ∀ᶠ δ in 𝓝[>] (0 : ℝ), ∀ j, eps < normPdf 0 1 (stdValue (m + δ, s) (upTo b) (y j)) :=
    (eventually_all.2 hev).filter_mono nhdsWithin_le_nhds
  have hsmall : ∀ᶠ δ in 𝓝[>] (0 : ℝ), δ ∈ Ioo (0 : ℝ) (min (min 5 s) (2 * s * c)) :=
    Ioo_mem_nhdsGT (by positivity)
  obtain ⟨δ, hδ1, hδ2, hδ3⟩ := (hall.and hsmall).exists
  rw [lt_min_iff, lt_min_iff] at hδ3
  obtain ⟨⟨hδ5, hδs⟩, hδc⟩ := hδ3
  refine ⟨δ, hδ2, hδ5, ?_⟩
  have hα0 := gaussCdf_pos ((b - m) / s)
  have hαδ := gaussCdf_pos ((b - (m + δ)) / s)
  have hlow : ∑ j, Real.log (max (normPdf m s (y j) / (limitProb 1 (m, s) (upTo b).2 - limitProb 0 (m, s) (upTo b).1) *
      (normPdf 0 1 (stdValue (m, s) (upTo b) (y j)) / max (normPdf 0 1 (stdValue (m, s) (upTo b) (y j))) eps)) eps) ≤
      ∑ j, Real.log (normPdf m s (y j)) - n * Real.log (gaussCdf ((b - m) / s)) := by
    have : ∀ j, Real.log (max (normPdf m s (y j) / (limitProb 1 (m, s) (upTo b).2 - limitProb 0 (m, s) (upTo b).1) *
      (normPdf 0 1 (stdValue (m, s) (upTo b) (y j)) / max (normPdf 0 1 (stdValue (m, s) (upTo b) (y j))) eps)) eps) ≤
        Real.log (normPdf m s (y j)) - Real.log (gaussCdf ((b - m) / s)) := by
      intro j
      rw [← Real.log_div (normPdf_pos hs' _ _).ne' hα0.ne']
      refine Real.log_le_log (lt_of_lt_of_le heps (le_max_right _ _)) (max_le ?_ (hlik j))
      simp only [limitProb, upTo, sub_zero]
      refine mul_le_of_le_one_right (div_pos (normPdf_pos hs' _ _) hα0).le ?_
      rw [div_le_one (lt_of_lt_of_le heps (le_max_right _ _))]
      exact le_max_left _ _
    refine (Finset.sum_le_sum fun j _ => this j).trans (le_of_eq ?_)
    rw [Finset.sum_sub_distrib, Finset.sum_const, Finset.card_univ, Fintype.card_fin, nsmul_eq_mul]
  have hhigh : ∑ j, Real.log (normPdf (m + δ) s (y j)) - n * Real.log (gaussCdf ((b - (m + δ)) / s)) ≤
      ∑ j, Real.log (max (normPdf (m + δ) s (y j) / (limitProb 1 (m + δ, s) (upTo b).2 - limitProb 0 (m + δ, s) (upTo b).1) *
      (normPdf 0 1 (stdValue (m + δ, s) (upTo b) (y j)) / max (normPdf 0 1 (stdValue (m + δ, s) (upTo b) (y j))) eps)) eps) := by
    have : ∀ j, Real.log (normPdf (m + δ) s (y j)) - Real.log (gaussCdf ((b - (m + δ)) / s)) ≤ Real.log (max (normPdf (m + δ) s (y j) / (limitProb 1 (m + δ, s) (upTo b).2 - limitProb 0 (m + δ, s) (upTo b).1) *
      (normPdf 0 1 (stdValue (m + δ, s) (upTo b) (y j)) / max (normPdf 0 1 (stdValue (m + δ, s) (upTo b) (y j))) eps)) eps) := by
      intro j
      rw [← Real.log_div (normPdf_pos hs' _ _).ne' hαδ.ne']
      refine Real.log_le_log (div_pos (normPdf_pos hs' _ _) hαδ) (le_trans (le_of_eq ?_) (le_max_left _ _))
      rw [max_eq_left (hδ1 j).le, div_self (heps.trans (hδ1 j)).ne', mul_one]
      simp only [limitProb, upTo, sub_zero]
    refine le_trans (le_of_eq ?_) (Finset.sum_le_sum fun j _ => this j)
    rw [Finset.sum_sub_distrib, Finset.sum_const, Finset.card_univ, Fintype.card_fin, nsmul_eq_mul]
  have hsum := sum_log_pdf hn y hs' δ
  rw [← hmdef] at hsum
  rw [hsum] at hhigh
  -- the limit makes a larger mean more likely
  have hlog : δ ^ 2 / (2 * s ^ 2) < Real.log (gaussCdf ((b - m) / s)) - Real.log (gaussCdf ((b - (m + δ)) / s)) := by
    have hinc := cdf_increment ((b - m) / s) (δ / s) (by positivity) (by rw [div_le_one hs']; exact hδs.le)
    have e : (b - m) / s - δ / s = (b - (m + δ)) / s := by ring
    rw [e, ← hc] at hinc
    have h1 : Real.log (gaussCdf ((b - (m + δ)) / s) / gaussCdf ((b - m) / s)) ≤ gaussCdf ((b - (m + δ)) / s) / gaussCdf ((b - m) / s) - 1 :=
      Real.log_le_sub_one_of_pos (div_pos hαδ hα0)
    rw [Real.log_div hαδ.ne' hα0.ne'] at h1
    have h2 : δ / s * c ≤ 1 - gaussCdf ((b - (m + δ)) / s) / gaussCdf ((b - m) / s) := by
      rw [one_sub_div hα0.ne', le_div_iff₀ hα0]
      have : δ / s * c * gaussCdf ((b - m) / s) ≤ δ / s * c * 1 :=
        mul_le_mul_of_nonneg_left (gaussCdf_lt_one _).le (by positivity)
      linarith
    have h3 : δ ^ 2 / (2 * s ^ 2) < δ / s * c := by
      rw [div_lt_iff₀ (by positivity)]
      have : δ / s * c * (2 * s ^ 2) = δ * (2 * s * c) := by field_simp
      rw [this, pow_two]
      exact mul_lt_mul_of_pos_left hδc hδ2
    linarith
  unfold negLogLikelihood
  rw [neg_div, neg_div, neg_lt_neg_iff]
  refine div_lt_div_of_pos_right ?_ hn'
  refine lt_of_le_of_lt hlow (lt_of_lt_of_le ?_ hhigh)
  have : (n : ℝ) * (δ ^ 2 / (2 * s ^ 2)) < n * (Real.log (gaussCdf ((b - m) / s)) - Real.log (gaussCdf ((b - (m + δ)) / s))) :=
    mul_lt_mul_of_pos_left hlog hn'
  have e : (n : ℝ) * δ ^ 2 / (2 * s ^ 2) = n * (δ ^ 2 / (2 * s ^ 2)) := by ring
  rw [e]
  linarith

/-- What is assumed of the minimization: it finds a better point than its start if there is one. -/
def Improves {d : ℕ} (S : Solver d) : Prop := ∀ (f : ℝ × ℝ → Option ℝ) (v : ℝ), f (0, 0) = some v → (∃ p w, f p = some w ∧ w < v) →
  ∃ w, w < v ∧ f (S.minimize f) = some w

/-- **C103 fails for detection limits without censored samples.**  Let all samples of a normal variable be below an upper detection limit.  No sample is
censored, so the fit should be the one without limits, the distribution with the moments of the samples; but a minimization that can improve
its start returns another one.  (`hlik`, `hstd`: densities are not so small that they are rounded up to the smallest number.) -/
theorem C103_detection_changes_fit (S : Solver 1) (heps : 0 < S.eps) (hS : Improves S) (hn : 3 ≤ n) (x : Fin 1 → Fin n → ℝ)
    (hs : spread (x 0) ≠ 0) (b : ℝ) (hb : ∀ j, x 0 j < b)
    (hlik : ∀ j, S.eps ≤ normPdf (average (x 0)) (spread (x 0)) (x 0 j) / gaussCdf ((b - average (x 0)) / spread (x 0)))
    (hstd : ∀ j, S.eps < normPdf 0 1 (stdValue (average (x 0), spread (x 0)) (upTo b) (x 0 j)))
    (θ : Fin 1 → ℝ × Ext ℝ) (ρ : Matrix (Fin 1) (Fin 1) ℝ)
    (h : fit S (fun _ => .normalStd) (fun _ => noLimits) (fun _ => (.nan, .fin b)) 0 false x = .ok (θ, ρ)) :
    θ 0 ≠ (average (x 0), .fin (spread (x 0))) := by
  obtain ⟨t, rfl, ht⟩ := fit_marginal h
  have htl : ∀ l, toLogLimits .normalStd l = l := fun l => by simp [toLogLimits]
  rcases ht with ⟨hc, _⟩ | ⟨_, rfl⟩
  · exfalso
    rcases hc with hc | ⟨_, hc2⟩
    · omega
    · have := hc2 0
      rw [htl] at this
      simp [noLimits] at this
  · simp only [htl, inSpace_normal (show Fam.normalStd ≠ .lognormal by simp), outTheta, marginal, merge_left]
    have hm : moments S.eps (x 0) = (average (x 0), spread (x 0)) := Prod.ext (moments_fst _ _) (moments_snd _ hs)
    have hs' : 0 < spread (x 0) := lt_of_le_of_ne (spread_nonneg _) (Ne.symm hs)
    set f := objective S.eps ((0 : Fin 1) : ℕ) .normalStd (moments S.eps (x 0)) (.nan, .fin b) (x 0) with hf
    have hobj : ∀ δ : ℝ, -10 < δ → δ < 10 → f (δ, 0) = some (negLogLikelihood S.eps (average (x 0) + δ, spread (x 0)) (upTo b) (x 0)) := by
      intro δ h1 h2
      have hbd : bound ((0 : Fin 1) : ℕ) = 10 := by simp [bound]
      rw [hf, hm]
      unfold objective
      rw [if_pos (by rw [hbd]; exact ⟨h1, h2, by norm_num, by norm_num⟩)]
      rw [if_pos (show 0 < (getTheta .normalStd (δ, 0) (average (x 0), spread (x 0))).2 by simpa [getTheta] using hs')]
      simp only [getTheta, add_zero]
      rfl
    obtain ⟨δ, hδ0, hδ5, hlt⟩ := better_with_limit (by omega) S.eps heps (x 0) hs b hb hlik hstd
    have h0 := hobj 0 (by norm_num) (by norm_num)
    rw [add_zero] at h0
    obtain ⟨w, hw, hmin⟩ := hS f _ h0 ⟨(δ, 0), _, hobj δ (by linarith) (by linarith), hlt⟩
    intro he
    simp only [getTheta, hm, Prod.mk.injEq, Ext.fin.injEq, add_eq_left] at he
    have hz : S.minimize f = (0, 0) := Prod.ext he.1 he.2
    rw [hz, h0, Option.some.injEq] at hmin
    linarith

/-! ## A concrete case

The samples -1, 0 and 1 with an upper detection limit. -/

noncomputable def sample : Fin 3 → ℝ := ![-1, 0, 1]

theorem sample_average : average sample = 0 := by
  simp [average, sample, Fin.sum_univ_three]

theorem sample_spread : spread sample ^ 2 = 2 / 3 := by
  rw [spread_sq, sample_average]
  simp [sample, Fin.sum_univ_three]
  norm_num

theorem sample_spread_bounds : 4 / 5 < spread sample ∧ spread sample < 1 := by
  have h := sample_spread
  have h0 := spread_nonneg sample
  constructor <;> nlinarith

theorem exp_lower : (1 : ℝ) / 250 < Real.exp (-(9 / 2)) := by
  rw [Real.exp_neg, one_div, inv_lt_inv₀ (by norm_num) (Real.exp_pos _)]
  have h1 : Real.exp (9 / 2) ≤ Real.exp 1 ^ 5 := by
    rw [← Real.exp_nat_mul]
    exact Real.exp_le_exp.2 (by norm_num)
  have h2 : Real.exp 1 ^ 5 ≤ (2.72 : ℝ) ^ 5 := pow_le_pow_left₀ (Real.exp_pos _).le (by have := Real.exp_one_lt_d9; linarith) 5
  have h3 : (2.72 : ℝ) ^ 5 < 250 := by norm_num
  linarith

theorem sqrt_two_pi : Real.sqrt (2 * Real.pi) < 3 := by
  rw [Real.sqrt_lt' (by norm_num)]
  have := Real.pi_lt_d2
  linarith

theorem pdf_lower {σ z : ℝ} (h0 : 0 < σ) (h1 : σ ≤ 1) {μ : ℝ} (hz : |(z - μ) / σ| ≤ 3) : 1 / 1000 < normPdf μ σ z := by
  unfold normPdf
  have hsq : 0 < Real.sqrt (2 * Real.pi) := by positivity
  rw [lt_div_iff₀ (by positivity)]
  have he : Real.exp (-(9 / 2)) ≤ Real.exp (-((z - μ) / σ) ^ 2 / 2) := by
    refine Real.exp_le_exp.2 ?_
    have : ((z - μ) / σ) ^ 2 ≤ 3 ^ 2 := by
      rw [← sq_abs]
      exact pow_le_pow_left₀ (abs_nonneg _) hz 2
    linarith
  have : σ * Real.sqrt (2 * Real.pi) ≤ 3 := by
    have := sqrt_two_pi
    nlinarith
  have := exp_lower
  linarith

/-- A limit above the samples that keeps densities away from the smallest number. -/
theorem sample_limit : ∃ b : ℝ, (∀ j, sample j < b) ∧
    (∀ j, 1 / 1000 ≤ normPdf (average sample) (spread sample) (sample j) / gaussCdf ((b - average sample) / spread sample)) ∧
    (∀ j, 1 / 1000 < normPdf 0 1 (stdValue (average sample, spread sample) (upTo b) (sample j))) := by
  obtain ⟨hs1, hs2⟩ := sample_spread_bounds
  have hs0 : 0 < spread sample := by linarith
  have hr : gaussCdf (5 / 4) / gaussCdf 3 < 1 := by
    rw [div_lt_one (gaussCdf_pos _)]
    exact gaussCdf_strictMono (by norm_num)
  have htop : Tendsto gaussCdf atTop (𝓝 1) := tendsto_cdf_atTop _
  obtain ⟨t, ht1, ht2⟩ := ((htop.eventually (lt_mem_nhds hr)).and (eventually_ge_atTop (2 : ℝ))).exists
  have hb : (spread sample * t - 0) / spread sample = t := by rw [sub_zero, mul_div_cancel_left₀ _ hs0.ne']
  have hz : ∀ j, |sample j / spread sample| ≤ 5 / 4 := by
    intro j
    rw [abs_div, abs_of_pos hs0, div_le_iff₀ hs0]
    have : |sample j| ≤ 1 := by fin_cases j <;> simp [sample]
    linarith
  refine ⟨spread sample * t, ?_, ?_, ?_⟩
  · intro j
    have : sample j ≤ 1 := by fin_cases j <;> simp [sample]
    nlinarith
  · intro j
    rw [sample_average, hb]
    have h1 : 1 / 1000 < normPdf 0 (spread sample) (sample j) := pdf_lower hs0 hs2.le (by rw [sub_zero]; linarith [hz j])
    rw [le_div_iff₀ (gaussCdf_pos _)]
    have := gaussCdf_lt_one t
    linarith
  · intro j
    refine pdf_lower one_pos le_rfl ?_
    rw [stdValue_upTo, sample_average]
    simp only [hb]
    simp only [sub_zero, div_one]
    obtain ⟨hz1, hz2⟩ := abs_le.1 (hz j)
    have h1 : gaussCdf (-3) < gaussCdf (sample j / spread sample) / gaussCdf t := by
      rw [lt_div_iff₀ (gaussCdf_pos _)]
      have a : gaussCdf (-3) < gaussCdf (sample j / spread sample) := gaussCdf_strictMono (by linarith)
      have b := gaussCdf_pos (-3)
      have c := gaussCdf_lt_one t
      nlinarith
    have h2 : gaussCdf (sample j / spread sample) / gaussCdf t < gaussCdf 3 := by
      have a : gaussCdf (sample j / spread sample) ≤ gaussCdf (5 / 4) := gaussCdf_strictMono.monotone hz2
      rw [div_lt_iff₀ (gaussCdf_pos _)] at ht1 ⊢
      linarith
    have hp : gaussCdf (gaussian.ppf (gaussCdf (sample j / spread sample) / gaussCdf t)) = gaussCdf (sample j / spread sample) / gaussCdf t :=
      gaussian.cdf_ppf ((gaussCdf_pos _).trans h1) (h2.trans (gaussCdf_lt_one _))
    rw [← hp] at h1 h2
    rw [abs_le]
    exact ⟨(gaussCdf_strictMono.lt_iff_lt.1 h1).le, (gaussCdf_strictMono.lt_iff_lt.1 h2).le⟩

/-- A minimization that compares its start with one point. -/
noncomputable def tryPoint (p : ℝ × ℝ) (f : ℝ × ℝ → Option ℝ) : ℝ × ℝ :=
  open Classical in if ∃ v w, f (0, 0) = some v ∧ f p = some w ∧ w < v then p else (0, 0)

theorem tryPoint_descends (p : ℝ × ℝ) (f : ℝ × ℝ → Option ℝ) (v : ℝ) (h : f (0, 0) = some v) : ∃ w, w ≤ v ∧ f (tryPoint p f) = some w := by
  unfold tryPoint
  split
  · rename_i hc
    obtain ⟨v', w, h1, h2, h3⟩ := hc
    rw [h, Option.some.injEq] at h1
    exact ⟨w, by linarith, h2⟩
  · exact ⟨v, le_rfl, h⟩

/-- A fit of one variable with an upper detection limit succeeds. -/
theorem fit_upTo (S : Solver 1) (heps : 0 < S.eps) (hS : ∀ f, (S.minimize f).2 = 0) (hn : 3 ≤ n) (x : Fin 1 → Fin n → ℝ) (b : ℝ)
    (hb : ∀ j, x 0 j < b) :
    ∃ ρ, fit S (fun _ => .normalStd) (fun _ => noLimits) (fun _ => (.nan, .fin b)) 0 false x =
      .ok (fun _ => (average (x 0) + (S.minimize (objective S.eps 0 .normalStd (moments S.eps (x 0)) (.nan, .fin b) (x 0))).1,
        .fin (moments S.eps (x 0)).2), ρ) := by
  have htl : ∀ l, toLogLimits .normalStd l = l := fun l => by simp [toLogLimits]
  have hx : ∀ i : Fin 1, toLog .normalStd (x i) = x i := fun i => by simp [toLog]
  unfold fit
  rw [if_neg (by simp)]
  simp only [htl, hx]
  unfold solve
  rw [if_neg (by
    rintro (h | ⟨_, h⟩)
    · omega
    · have := h 0; simp [noLimits] at this)]
  rw [if_neg (by
    push Not
    intro i j
    obtain rfl : i = 0 := Subsingleton.elim _ _
    rw [merge_left]
    exact ⟨trivial, (hb j).le⟩)]
  rw [if_neg (by simp)]
  simp only
  unfold finish
  have hpos := moments_pos heps (x 0)
  rw [if_neg (by
    push Not
    intro i j
    obtain rfl : i = 0 := Subsingleton.elim _ _
    refine ⟨⟨⟨trivial, trivial⟩, by simp [noLimits], by simp [noLimits]⟩, ?_⟩
    simp only [marginal, getTheta, hS, add_zero]
    exact hpos)]
  refine ⟨_, congrArg Except.ok (Prod.ext ?_ rfl)⟩
  funext i
  obtain rfl : i = 0 := Subsingleton.elim _ _
  simp only [outTheta, marginal, getTheta, hS, add_zero, merge_left, moments_fst]
  rfl

theorem nll_le (eps : ℝ) (heps : 0 < eps) (hn : 0 < n) (θ : ℝ × ℝ) (l : Limits) (x : Fin n → ℝ) : negLogLikelihood eps θ l x ≤ -Real.log eps := by
  have hn' : (0 : ℝ) < n := by exact_mod_cast hn
  unfold negLogLikelihood
  rw [neg_div, neg_le_neg_iff, le_div_iff₀ hn']
  calc Real.log eps * n = ∑ _j : Fin n, Real.log eps := by
        rw [Finset.sum_const, Finset.card_univ, Fintype.card_fin, nsmul_eq_mul, mul_comm]
    _ ≤ _ := Finset.sum_le_sum fun j _ => Real.log_le_log heps (le_max_right _ _)

-- the samples -1, 0 and 1: the hypotheses of `C103_bounded` and `C103_unit_dependent` are met, with a mean that is not the average
example : ∃ (S : Solver 1) (b c : ℝ) (θ θ' : Fin 1 → ℝ × Ext ℝ) (ρ ρ' : Matrix (Fin 1) (Fin 1) ℝ), S.eps = 1 / 1000 ∧ Descends S ∧ 0 < c ∧
    fit S (fun _ => .normalStd) (fun _ => noLimits) (fun _ => (.nan, .fin b)) 0 false (fun _ => sample) = .ok (θ, ρ) ∧
    fit S (fun _ => .normalStd) (fun _ => noLimits) (fun _ => (.nan, .fin (c * b))) 0 false (fun _ j => c * sample j) = .ok (θ', ρ') ∧
    negLogLikelihood S.eps (moments S.eps fun j => c * sample j) (mergeLimits noLimits (.nan, .fin (c * b))) (fun j => c * sample j) < 10 ^ 10 ∧
    10 ≤ c * |(θ 0).1 - average sample| := by
  obtain ⟨b, hb, hlik, hstd⟩ := sample_limit
  have hs' : 0 < spread sample := by linarith [sample_spread_bounds.1]
  obtain ⟨δ, hδ0, hδ5, hlt⟩ := better_with_limit (by norm_num) (1 / 1000) (by norm_num) sample hs'.ne' b hb hlik hstd
  let S : Solver 1 := ⟨1 / 1000, tryPoint (δ, 0), fun p => .ok p, fun _ => none⟩
  have hc : 0 < 10 / δ := by positivity
  have h2 : ∀ f, (S.minimize f).2 = 0 := by
    intro f
    simp only [S, tryPoint]
    split <;> rfl
  obtain ⟨ρ, h⟩ := fit_upTo S (by norm_num [S]) h2 le_rfl (fun _ => sample) b hb
  obtain ⟨ρ', h'⟩ := fit_upTo S (by norm_num [S]) h2 le_rfl (fun _ j => 10 / δ * sample j) (10 / δ * b) fun j => mul_lt_mul_of_pos_left (hb j) hc
  refine ⟨S, b, 10 / δ, _, _, ρ, ρ', rfl, fun f v hf => tryPoint_descends _ f v hf, hc, h, h', ?_, ?_⟩
  · refine lt_of_le_of_lt (nll_le _ (by norm_num [S]) (by norm_num) _ _ _) ?_
    have := Real.log_le_sub_one_of_pos (show (0 : ℝ) < 1000 by norm_num)
    simp only [S, one_div, Real.log_inv]
    linarith
  · have hm : moments (1 / 1000) sample = (average sample, spread sample) := Prod.ext (moments_fst _ _) (moments_snd _ hs'.ne')
    have hbd : bound 0 = 10 := by simp [bound]
    have hobj : ∀ e : ℝ, -10 < e → e < 10 → objective (1 / 1000) 0 .normalStd (moments (1 / 1000) sample) (.nan, .fin b) sample (e, 0) =
        some (negLogLikelihood (1 / 1000) (average sample + e, spread sample) (upTo b) sample) := by
      intro e h1 h2
      rw [hm]
      unfold objective
      rw [if_pos (by rw [hbd]; exact ⟨h1, h2, by norm_num, by norm_num⟩)]
      rw [if_pos (show 0 < (getTheta .normalStd (e, 0) (average sample, spread sample)).2 by simpa [getTheta] using hs')]
      simp only [getTheta, add_zero]
      rfl
    have h0 := hobj 0 (by norm_num) (by norm_num)
    rw [add_zero] at h0
    have hmin : tryPoint (δ, 0) (objective (1 / 1000) 0 .normalStd (moments (1 / 1000) sample) (.nan, .fin b) sample) = (δ, 0) := by
      unfold tryPoint
      rw [if_pos ⟨_, _, h0, hobj δ (by linarith) (by linarith), hlt⟩]
    simp only [S, hmin, add_sub_cancel_left, abs_of_pos hδ0]
    rw [div_mul_cancel₀ _ hδ0.ne']

/-- Minimizations that improve exist. -/
theorem improves_exists : ∃ min : (ℝ × ℝ → Option ℝ) → ℝ × ℝ, ∀ (f : ℝ × ℝ → Option ℝ) (v : ℝ), f (0, 0) = some v → (∃ p w, f p = some w ∧ w < v) →
    ∃ w, w < v ∧ f (min f) = some w := by
  classical
  refine ⟨fun f => if h : ∃ p v w, f (0, 0) = some v ∧ f p = some w ∧ w < v then h.choose else (0, 0), ?_⟩
  intro f v hv ⟨p, w, hp, hw⟩
  have h : ∃ p v w, f (0, 0) = some v ∧ f p = some w ∧ w < v := ⟨p, v, w, hv, hp, hw⟩
  obtain ⟨v', w', h1, h2, h3⟩ := h.choose_spec
  rw [hv, Option.some.injEq] at h1
  refine ⟨w', by linarith, ?_⟩
  simp only [dif_pos h]
  exact h2

-- the same samples meet the hypotheses of `C103_detection_changes_fit`
example : ∃ (S : Solver 1) (b : ℝ), S.eps = 1 / 1000 ∧ Improves S ∧ spread sample ≠ 0 ∧ (∀ j, sample j < b) ∧
    (∀ j, S.eps ≤ normPdf (average sample) (spread sample) (sample j) / gaussCdf ((b - average sample) / spread sample)) ∧
    (∀ j, S.eps < normPdf 0 1 (stdValue (average sample, spread sample) (upTo b) (sample j))) := by
  obtain ⟨b, hb, hlik, hstd⟩ := sample_limit
  obtain ⟨min, hmin⟩ := improves_exists
  exact ⟨⟨1 / 1000, min, fun p => .ok p, fun _ => none⟩, b, rfl, hmin, by have := sample_spread_bounds.1; linarith, hb, hlik, hstd⟩

end Verif.Fit
