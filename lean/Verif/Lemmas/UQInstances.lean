import Mathlib.Probability.Distributions.Gaussian.Real
import Mathlib.Probability.CDF
import Mathlib.Topology.Order.IntermediateValue
import Mathlib.Analysis.SpecialFunctions.Log.Basic
import Verif.Lemmas.UQDist
import Verif.Model.UQRegistry

/-!
# Structures that meet the assumptions of the distribution model

* `gaussian`: the standard normal distribution function of Mathlib, over the reals, with the
  real exponential and logarithm (`realExp`).  These are the functions scipy and numpy
  approximate.
* `ratDist`: a rational distribution function, so that concrete cases can be computed.
* `expDist`: the exponential distribution (a Weibull distribution with shape one), rational
  variant `ratPos`.
-/

namespace Verif.UQ

section
variable {F : Type} [Field F] [LinearOrder F] [IsStrictOrderedRing F]

/-- `½ (1 + x / (1 + |x|))` written by cases. -/
def ratCdf (x : F) : F := if 0 ≤ x then 1 - 1 / (2 * (1 + x)) else 1 / (2 * (1 - x))

def ratPpf (p : F) : F := if 1 / 2 ≤ p then 1 / (2 * (1 - p)) - 1 else 1 - 1 / (2 * p)

/-- A rational stand-in for the normal distribution. -/
def ratDist : StdDist F where
  cdf := ratCdf
  ppf := ratPpf
  cdf_strictMono := by
    intro x y h
    unfold ratCdf
    by_cases hx : 0 ≤ x
    · have hy : 0 ≤ y := by linarith
      rw [if_pos hx, if_pos hy]
      have : 1 / (2 * (1 + y)) < 1 / (2 * (1 + x)) :=
        one_div_lt_one_div_of_lt (by linarith) (by linarith)
      linarith
    · rw [if_neg hx]
      have hx := not_le.1 hx
      by_cases hy : 0 ≤ y
      · rw [if_pos hy]
        have h1 : 1 / (2 * (1 - x)) < 1 / 2 :=
          one_div_lt_one_div_of_lt (by linarith) (by linarith)
        have h2 : 1 / (2 * (1 + y)) ≤ 1 / 2 :=
          one_div_le_one_div_of_le (by linarith) (by linarith)
        have h3 : (1 : F) / 2 + 1 / 2 = 1 := by norm_num
        linarith
      · rw [if_neg hy]
        have hy := not_le.1 hy
        exact one_div_lt_one_div_of_lt (by linarith) (by linarith)
  cdf_pos := by
    intro x
    unfold ratCdf
    split
    · rename_i hx
      have h2 : 1 / (2 * (1 + x)) ≤ 1 / 2 :=
        one_div_le_one_div_of_le (by linarith) (by linarith)
      have h3 : (1 : F) / 2 + 1 / 2 = 1 := by norm_num
      linarith
    · rename_i hx
      have hx := not_le.1 hx
      have : 0 < 2 * (1 - x) := by linarith
      positivity
  cdf_lt_one := by
    intro x
    unfold ratCdf
    split
    · rename_i hx
      have : 0 < 1 / (2 * (1 + x)) := by
        have : 0 < 2 * (1 + x) := by linarith
        positivity
      linarith
    · rename_i hx
      have hx := not_le.1 hx
      have h1 : 1 / (2 * (1 - x)) < 1 / 2 :=
          one_div_lt_one_div_of_lt (by linarith) (by linarith)
      have h3 : (1 : F) / 2 < 1 := by norm_num
      linarith
  cdf_ppf := by
    intro p h0 h1
    unfold ratCdf ratPpf
    by_cases hp : 1 / 2 ≤ p
    · rw [if_pos hp]
      have hq : 0 < 1 - p := by linarith
      have hge : 0 ≤ 1 / (2 * (1 - p)) - 1 := by
        rw [sub_nonneg, le_div_iff₀ (by linarith)]
        have h3 : (1 : F) / 2 + 1 / 2 = 1 := by norm_num
        linarith
      rw [if_pos hge]
      field_simp
      ring
    · rw [if_neg hp]
      have hp := not_le.1 hp
      have hlt : ¬ 0 ≤ 1 - 1 / (2 * p) := by
        rw [not_le, sub_neg, lt_div_iff₀ (by linarith)]
        have h3 : (1 : F) / 2 + 1 / 2 = 1 := by norm_num
        linarith
      rw [if_neg hlt]
      field_simp
      ring

/-- A rational stand-in for a Weibull distribution: `x / (1 + x)` for positive `x`. -/
def ratPos : PosDist F where
  cdf x := if 0 ≤ x then 1 - 1 / (1 + x) else 0
  ppf p := 1 / (1 - p) - 1
  cdf_nonpos := by
    intro x hx
    split
    · rename_i h; have : x = 0 := le_antisymm hx h; subst this; simp
    · rfl
  cdf_strictMono := by
    intro x y hx h
    rw [if_pos hx, if_pos (by linarith)]
    have : 1 / (1 + y) < 1 / (1 + x) := one_div_lt_one_div_of_lt (by linarith) (by linarith)
    linarith
  cdf_lt_one := by
    intro x
    split
    · have : 0 < 1 / (1 + x) := by
        have : 0 < 1 + x := by linarith
        positivity
      linarith
    · norm_num
  ppf_nonneg := by
    intro p h0 h1
    have : 0 < 1 - p := by linarith
    rw [sub_nonneg, le_div_iff₀ this]; linarith
  cdf_ppf := by
    intro p h0 h1
    have hq : 0 < 1 - p := by linarith
    have : 0 ≤ 1 / (1 - p) - 1 := by rw [sub_nonneg, le_div_iff₀ hq]; linarith
    simp only [if_pos this]
    field_simp
    ring

/-- A rational stand-in for the exponential and logarithm (not additive). -/
def ratExp : ExpLog F where
  exp x := if 0 ≤ x then 1 + x else 1 / (1 - x)
  log x := if 1 ≤ x then x - 1 else 1 - 1 / x
  exp_pos := by
    intro x
    split
    · linarith
    · have : 0 < 1 - x := by linarith
      positivity
  exp_strictMono := by
    intro x y h
    split
    · rw [if_pos (by linarith)]; linarith
    · have hx : 0 < 1 - x := by linarith
      split
      · have : 1 / (1 - x) < 1 := by rw [div_lt_one hx]; linarith
        linarith
      · exact one_div_lt_one_div_of_lt (by linarith) (by linarith)
  exp_log := by
    intro x hx
    by_cases h : 1 ≤ x
    · rw [if_pos h, if_pos (by linarith)]; ring
    · rw [if_neg h, if_neg (by
        have : 1 < 1 / x := by rw [lt_div_iff₀ hx]; linarith
        linarith)]
      field_simp
      ring

/-- Functions that can be computed with. -/
def ratNum : Num F := ⟨ratDist, ratExp, 1 / 10 ^ 300⟩

end

open MeasureTheory ProbabilityTheory Set Filter

/-- The standard normal distribution function. -/
noncomputable def gaussCdf (x : ℝ) : ℝ := cdf (gaussianReal 0 1) x

theorem gaussCdf_strictMono : StrictMono gaussCdf := by
  intro x y h
  unfold gaussCdf
  rw [cdf_eq_real, cdf_eq_real]
  have hsub : Iic x ⊆ Iic y := Iic_subset_Iic.2 h.le
  have hd : Iic y \ Iic x = Ioc x y := by ext z; simp [and_comm]
  have hpos : (gaussianReal 0 1) (Ioc x y) ≠ 0 := by
    intro h0
    have := (gaussianReal_absolutelyContinuous' 0 (v := 1) (by norm_num)) h0
    rw [Real.volume_Ioc] at this
    simp only [ENNReal.ofReal_eq_zero] at this
    linarith
  have hdiff := measureReal_diff (μ := gaussianReal 0 1) hsub measurableSet_Iic
  rw [hd] at hdiff
  have : 0 < (gaussianReal 0 1).real (Ioc x y) := by
    rw [measureReal_def]
    exact ENNReal.toReal_pos hpos (measure_ne_top _ _)
  linarith

theorem gaussCdf_continuous : Continuous gaussCdf := by
  rw [continuous_iff_continuousAt]
  intro x
  have hmono : Monotone gaussCdf := gaussCdf_strictMono.monotone
  have hm : (cdf (gaussianReal 0 1)).measure {x} = 0 := by
    rw [measure_cdf]
    haveI := nullSingletonClass_gaussianReal (μ := 0) (v := 1) one_ne_zero
    exact measure_singleton x
  rw [StieltjesFunction.measure_singleton, ENNReal.ofReal_eq_zero] at hm
  rw [hmono.continuousAt_iff_leftLim_eq_rightLim]
  have h1 : Function.leftLim gaussCdf x = Function.leftLim (cdf (gaussianReal 0 1)) x := rfl
  have h2 : Function.rightLim gaussCdf x = cdf (gaussianReal 0 1) x :=
    (cdf (gaussianReal 0 1)).rightLim_eq x
  rw [h1, h2]
  apply le_antisymm
  · exact (cdf (gaussianReal 0 1)).mono.leftLim_le (le_refl x)
  · linarith

theorem gaussCdf_pos (x : ℝ) : 0 < gaussCdf x :=
  lt_of_le_of_lt (cdf_nonneg _ (x - 1)) (gaussCdf_strictMono (by linarith : x - 1 < x))

theorem gaussCdf_lt_one (x : ℝ) : gaussCdf x < 1 :=
  lt_of_lt_of_le (gaussCdf_strictMono (by linarith : x < x + 1)) (cdf_le_one _ (x + 1))

theorem gaussCdf_surj {p : ℝ} (h0 : 0 < p) (h1 : p < 1) : ∃ x, gaussCdf x = p := by
  have hb : Tendsto gaussCdf atBot (nhds 0) := tendsto_cdf_atBot _
  have ht : Tendsto gaussCdf atTop (nhds 1) := tendsto_cdf_atTop _
  obtain ⟨a, ha⟩ := (hb.eventually (gt_mem_nhds h0)).exists
  obtain ⟨b, hb⟩ := (ht.eventually (lt_mem_nhds h1)).exists
  have := mem_range_of_exists_le_of_exists_ge gaussCdf_continuous ⟨a, ha.le⟩ ⟨b, hb.le⟩
  exact this

open Classical in
/-- The standard normal distribution meets the assumptions. -/
noncomputable def gaussian : StdDist ℝ where
  cdf := gaussCdf
  ppf p := if h : ∃ x, gaussCdf x = p then h.choose else 0
  cdf_strictMono := fun h => gaussCdf_strictMono h
  cdf_pos := gaussCdf_pos
  cdf_lt_one := gaussCdf_lt_one
  cdf_ppf := by
    intro p h0 h1
    have h := gaussCdf_surj h0 h1
    rw [dif_pos h]
    exact h.choose_spec

/-- The real exponential and logarithm meet the assumptions. -/
noncomputable def realExp : ExpLog ℝ where
  exp := Real.exp
  log := Real.log
  exp_pos := Real.exp_pos
  exp_strictMono := fun h => Real.exp_lt_exp.2 h
  exp_log := fun h => Real.exp_log h

theorem realExp_additive : realExp.Additive := Real.exp_add

/-- The real numbers with the normal distribution, exponential and logarithm. -/
noncomputable def realNum (eps : ℝ) : Num ℝ := ⟨gaussian, realExp, eps⟩

end Verif.UQ
