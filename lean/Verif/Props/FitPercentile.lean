import Verif.Model.FitPercentile
import Mathlib.Analysis.SpecialFunctions.Log.Basic

/-!
# C105: Distributions fitted to percentiles

A fit to values that a distribution of the family has at the given percentiles returns a distribution with these values.  This is proved if one of the
percentiles is 1/2 and another one is larger, and refuted without a larger one.
-/

namespace Verif.FitPercentile

open Verif.UQ (gaussian gaussCdf gaussCdf_strictMono gaussCdf_pos gaussCdf_lt_one)
open ProbabilityTheory MeasureTheory Set

variable {n : ℕ}

/-! ## Specification -/

/-- The distribution with these parameters (mean and standard deviation, or median and logarithmic standard deviation) has the value `v` at the percentile `p`: the probability
of values up to `v` is `p`. -/
def HasValue (fam : Fam) (θ : ℝ × ℝ) (p v : ℝ) : Prop :=
  match fam with
  | .normal => gaussCdf ((v - θ.1) / θ.2) = p
  | .lognormal => 0 < θ.1 ∧ 0 < v ∧ gaussCdf ((Real.log v - Real.log θ.1) / θ.2) = p
  | .other => False

/-- What is assumed of the minimization: it does not end at a point that is worse than its start. -/
def Descends (minimize : (ℝ × ℝ → ℝ) → ℝ × ℝ → ℝ × ℝ) : Prop := ∀ (f : ℝ × ℝ → ℝ) x, f (minimize f x) ≤ f x

/-- The first position of a percentile next to 1/2. -/
def NextToHalf (p : Fin n → ℝ) (i : Fin n) : Prop := IsArgmin (fun j => |p j - 1 / 2|) i

/-- The first position of the largest percentile. -/
def Largest (p : Fin n → ℝ) (i : Fin n) : Prop := IsArgmin (fun j => -(p j - 1 / 2)) i

/-! ## The normal distribution -/

theorem ppf_cdf (z : ℝ) : gaussian.ppf (gaussCdf z) = z := by
  have h : gaussCdf (gaussian.ppf (gaussCdf z)) = gaussCdf z := gaussian.cdf_ppf (gaussCdf_pos z) (gaussCdf_lt_one z)
  exact gaussCdf_strictMono.injective h

theorem cdf_zero : gaussCdf 0 = 1 / 2 := by
  have hmap : (gaussianReal 0 1).map (fun x => -x) = gaussianReal 0 1 := by
    rw [gaussianReal_map_neg, neg_zero]
  have h1 : gaussianReal 0 1 (Iic 0) = gaussianReal 0 1 (Ici 0) := by
    conv_lhs => rw [← hmap]
    rw [Measure.map_apply measurable_neg measurableSet_Iic]
    congr 1
    ext x
    simp
  have hna : NullSingletonClass (gaussianReal 0 1) := nullSingletonClass_gaussianReal one_ne_zero
  have h2 : (gaussianReal 0 1).real (Ici 0) = (gaussianReal 0 1).real (Ioi 0) := by
    rw [measureReal_def, measureReal_def, measure_congr Ioi_ae_eq_Ici]
  have h3 : (gaussianReal 0 1).real (Iic 0) + (gaussianReal 0 1).real (Ioi 0) = 1 := by
    have := probReal_add_probReal_compl (μ := gaussianReal 0 1) (measurableSet_Iic (a := (0 : ℝ)))
    rwa [compl_Iic] at this
  have h4 : (gaussianReal 0 1).real (Iic 0) = (gaussianReal 0 1).real (Ici 0) := by
    rw [measureReal_def, measureReal_def, h1]
  unfold gaussCdf
  rw [cdf_eq_real]
  linarith

theorem ppf_half : gaussian.ppf (1 / 2) = 0 := by
  rw [← cdf_zero, ppf_cdf]

theorem ppf_pos {p : ℝ} (h0 : 1 / 2 < p) (h1 : p < 1) : 0 < gaussian.ppf p := by
  have h : gaussCdf (gaussian.ppf p) = p := gaussian.cdf_ppf (by linarith) h1
  rw [← gaussCdf_strictMono.lt_iff_lt, h, cdf_zero]
  exact h0

/-- The value at a percentile is the one of the model. -/
theorem hasValue_iff {fam : Fam} (hfam : fam ≠ .other) {θ : ℝ × ℝ} (hσ : 0 < θ.2) (hm : fam = .lognormal → 0 < θ.1) {p v : ℝ} (h0 : 0 < p) (h1 : p < 1) :
    HasValue fam θ p v ↔ quantile fam θ p = v := by
  have hp : gaussCdf (gaussian.ppf p) = p := gaussian.cdf_ppf h0 h1
  have key : ∀ a b : ℝ, gaussCdf ((a - b) / θ.2) = p ↔ b + θ.2 * gaussian.ppf p = a := by
    intro a b
    constructor
    · intro h
      have : (a - b) / θ.2 = gaussian.ppf p := gaussCdf_strictMono.injective (h.trans hp.symm)
      rw [← this]
      field_simp
      ring
    · intro h
      rw [← h, add_sub_cancel_left, mul_div_cancel_left₀ _ hσ.ne', hp]
  cases fam with
  | other => exact absurd rfl hfam
  | normal => exact key v θ.1
  | lognormal =>
    simp only [HasValue, quantile]
    constructor
    · rintro ⟨-, hv, h⟩
      rw [(key _ _).1 h, Real.exp_log hv]
    · intro h
      have hv : 0 < v := h ▸ Real.exp_pos _
      exact ⟨hm rfl, hv, (key _ _).2 (by rw [← h, Real.log_exp])⟩

theorem squaredError_nonneg (fam : Fam) (v p : Fin n → ℝ) (θ : ℝ × ℝ) : 0 ≤ squaredError fam v p θ := by
  unfold squaredError
  split
  · norm_num
  · exact Finset.sum_nonneg fun j _ => sq_nonneg _

theorem squaredError_zero {fam : Fam} {v p : Fin n → ℝ} {θ : ℝ × ℝ} :
    squaredError fam v p θ ≤ 0 ↔ 0 < θ.2 ∧ (fam = .lognormal → 0 < θ.1) ∧ ∀ j, quantile fam θ (p j) = v j := by
  unfold squaredError
  split
  · rename_i h
    constructor
    · intro h'; norm_num at h'
    · rintro ⟨h1, h2, -⟩
      rcases h with ⟨h3, h4⟩ | h
      · exact absurd (h2 h3) (by linarith)
      · exact absurd h1 (by linarith)
  · rename_i h
    push Not at h
    constructor
    · intro h0
      refine ⟨h.2, h.1, fun j => ?_⟩
      have hz : ∑ j, (quantile fam θ (p j) - v j) ^ 2 = 0 := le_antisymm h0 (Finset.sum_nonneg fun j _ => sq_nonneg _)
      have := (Finset.sum_eq_zero_iff_of_nonneg fun j _ => sq_nonneg _).1 hz j (Finset.mem_univ j)
      have := pow_eq_zero_iff (by norm_num : (2 : ℕ) ≠ 0) |>.1 this
      linarith
    · rintro ⟨-, -, h3⟩
      refine le_of_eq (Finset.sum_eq_zero fun j _ => ?_)
      rw [h3 j]
      ring

/-- The start of the minimization is exact. -/
theorem inits_exact {fam : Fam} (hfam : fam ≠ .other) {θ : ℝ × ℝ} (hσ : 0 < θ.2) (hm : fam = .lognormal → 0 < θ.1) {v p : Fin n → ℝ} {med ext : Fin n}
    (hv : ∀ j, quantile fam θ (p j) = v j) (hmed : p med = 1 / 2) (h1 : 1 / 2 < p ext) (h2 : p ext < 1) :
    inits fam v p med ext = some θ := by
  have hz := ppf_pos h1 h2
  have e1 := hv med
  have e2 := hv ext
  rw [hmed] at e1
  unfold inits
  cases fam with
  | other => exact absurd rfl hfam
  | normal =>
    simp only [quantile, ppf_half, mul_zero, add_zero] at e1
    simp only [quantile] at e2
    simp only [distance]
    rw [if_neg hz.ne', ← e1, ← e2, add_sub_cancel_left, abs_mul, mul_div_cancel_right₀ _ (abs_pos.2 hz.ne').ne', abs_of_pos hσ]
  | lognormal =>
    have hm' := hm rfl
    simp only [quantile, ppf_half, mul_zero, add_zero, Real.exp_log hm'] at e1
    simp only [quantile] at e2
    have hve : 0 < v ext := e2 ▸ Real.exp_pos _
    have hpos : 0 < v ext / v med := by rw [← e1]; exact div_pos hve hm'
    simp only [distance]
    rw [if_pos hpos]
    simp only
    rw [if_neg hz.ne', Real.log_div hve.ne' (e1 ▸ hm').ne', ← e1, ← e2, Real.log_exp, add_sub_cancel_left, abs_mul,
      mul_div_cancel_right₀ _ (abs_pos.2 hz.ne').ne', abs_of_pos hσ]

/-- The best result is one of the results, and is not worse than the others. -/
theorem best_spec : ∀ {rs : List (Fam × Option ((ℝ × ℝ) × ℝ))} {b}, best rs = some b → b ∈ rs ∧ ∀ r ∈ rs, b.2 = none ∨ ∃ x y, b.2 = some x ∧ r.2 = some y ∧ x.2 ≤ y.2
  | [], b, h => by simp [best] at h
  | r :: rest, b, h => by
    unfold best at h
    cases hb : best rest with
    | none =>
      rw [hb] at h
      have hrest : rest = [] := by
        cases rest with
        | nil => rfl
        | cons r' rest' =>
          exfalso
          unfold best at hb
          split at hb
          · simp at hb
          · split at hb
            · simp at hb
            · simp at hb
            · split at hb <;> simp at hb
      simp only [Option.some.injEq] at h
      subst h hrest
      refine ⟨List.mem_singleton.2 rfl, ?_⟩
      intro r' hr'
      rw [List.mem_singleton.1 hr']
      cases r.2 with
      | none => exact Or.inl rfl
      | some x => exact Or.inr ⟨x, x, rfl, rfl, le_rfl⟩
    | some c =>
      rw [hb] at h
      obtain ⟨hc1, hc2⟩ := best_spec hb
      simp only at h
      split at h
      · rename_i hr
        simp only [Option.some.injEq] at h
        subst h
        exact ⟨List.mem_cons_self, fun _ _ => Or.inl hr⟩
      · rename_i hcn
        simp only [Option.some.injEq] at h
        subst h
        exact ⟨List.mem_cons_of_mem _ hc1, fun _ _ => Or.inl hcn⟩
      · rename_i x y hx hy
        split at h
        · rename_i hle
          simp only [Option.some.injEq] at h
          subst h
          refine ⟨List.mem_cons_self, ?_⟩
          intro r' hr'
          refine Or.inr ?_
          rcases List.mem_cons.1 hr' with rfl | hr'
          · exact ⟨x, x, hx, hx, le_rfl⟩
          · rcases hc2 r' hr' with h | ⟨x', y', h1, h2, h3⟩
            · rw [hy] at h; cases h
            · rw [hy, Option.some.injEq] at h1
              subst h1
              exact ⟨x, y', hx, h2, hle.trans h3⟩
        · rename_i hle
          simp only [Option.some.injEq] at h
          subst h
          refine ⟨List.mem_cons_of_mem _ hc1, ?_⟩
          intro r' hr'
          rcases List.mem_cons.1 hr' with rfl | hr'
          · exact Or.inr ⟨y, x, hy, hx, (not_le.1 hle).le⟩
          · exact hc2 r' hr'

theorem best_exists {rs : List (Fam × Option ((ℝ × ℝ) × ℝ))} (h : rs ≠ []) : ∃ b, best rs = some b := by
  cases rs with
  | nil => exact absurd rfl h
  | cons r rest =>
    unfold best
    split
    · exact ⟨_, rfl⟩
    · split
      · exact ⟨_, rfl⟩
      · exact ⟨_, rfl⟩
      · split <;> exact ⟨_, rfl⟩

/-- A result that is not a number is preferred. -/
theorem best_none : ∀ {rs : List (Fam × Option ((ℝ × ℝ) × ℝ))}, (∃ r ∈ rs, r.2 = none) → ∃ b, best rs = some b ∧ b.2 = none
  | [], h => by simp at h
  | r :: rest, ⟨r', hr', hn⟩ => by
    cases hr : r.2 with
    | none =>
      unfold best
      cases best rest with
      | none => exact ⟨r, rfl, hr⟩
      | some c => exact ⟨r, by simp only [hr], hr⟩
    | some x =>
      have : r' ∈ rest := by
        rcases List.mem_cons.1 hr' with rfl | h
        · rw [hr] at hn; cases hn
        · exact h
      obtain ⟨b, hb, hbn⟩ := best_none ⟨r', this, hn⟩
      exact ⟨b, by unfold best; simp only [hb, hr, hbn], hbn⟩

/-! ## C105 -/

/-- **C105 (exact values).**  Let the values be those of a normal or lognormal distribution at the percentiles, with 1/2 among the percentiles and at least one larger
percentile.  If its family is among the candidates (and all values are positive if the lognormal family is), the result is a distribution with the same values
at all percentiles.  Missing: the largest percentile is 1/2 or less, or 1/2 is missing (see `C105_lower_half`). -/
theorem C105_exact_partial (minimize : (ℝ × ℝ → ℝ) → ℝ × ℝ → ℝ × ℝ) (hmin : Descends minimize) (v p : Fin n → ℝ) (hp : ∀ j, 0 < p j ∧ p j < 1)
    (fams : List Fam) (hother : Fam.other ∉ fams) (hposv : Fam.lognormal ∈ fams → ∀ j, 0 < v j) (fam : Fam) (hfam : fam ∈ fams) (θ : ℝ × ℝ) (hσ : 0 < θ.2) (hv : ∀ j, HasValue fam θ (p j) (v j))
    (med ext : Fin n) (hmed : NextToHalf p med) (hext : Largest p ext) (hhalf : ∃ j, p j = 1 / 2) (hlarger : ∃ j, 1 / 2 < p j) :
    ∃ fam' θ', fit minimize v p fams med ext = .ok (fam', some θ') ∧ fam' ∈ fams ∧ 0 < θ'.2 ∧ ∀ j, HasValue fam' θ' (p j) (v j) := by
  have hne : fam ≠ .other := fun h => hother (h ▸ hfam)
  have hpm : p med = 1 / 2 := by
    obtain ⟨j, hj⟩ := hhalf
    have := hmed.1 j
    simp only [hj, sub_self, abs_zero] at this
    have := abs_eq_zero.1 (le_antisymm this (abs_nonneg _))
    linarith
  have hpe : 1 / 2 < p ext := by
    obtain ⟨j, hj⟩ := hlarger
    have := hext.1 j
    simp only at this
    linarith
  have hm : fam = .lognormal → 0 < θ.1 := by
    rintro rfl
    exact (hv med).1
  have hq : ∀ j, quantile fam θ (p j) = v j := fun j => (hasValue_iff hne hσ hm (hp j).1 (hp j).2).1 (hv j)
  have hinit := inits_exact hne hσ hm hq hpm hpe (hp ext).2
  have hfin : ∀ f ∈ fams, ∃ x, inits f v p med ext = some x := by
    intro f hf
    have hz := ppf_pos hpe (hp ext).2
    unfold inits
    cases f with
    | other => exact absurd hf hother
    | normal =>
      simp only [distance]
      rw [if_neg hz.ne']
      exact ⟨_, rfl⟩
    | lognormal =>
      have hpos : 0 < v ext / v med := div_pos (hposv hf ext) (hposv hf med)
      simp only [distance]
      rw [if_pos hpos]
      simp only
      rw [if_neg hz.ne']
      exact ⟨_, rfl⟩
  unfold fit
  rw [if_neg hother]
  obtain ⟨b, hb⟩ := best_exists (rs := fams.map fun f => (f, run minimize (squaredError f v p) (inits f v p med ext)))
    (by intro h; rw [List.map_eq_nil_iff] at h; rw [h] at hfam; simp at hfam)
  rw [hb]
  obtain ⟨hb1, hb2⟩ := best_spec hb
  obtain ⟨f, hf, rfl⟩ := List.mem_map.1 hb1
  obtain ⟨x, hx⟩ := hfin f hf
  have hbest : squaredError f v p (minimize (squaredError f v p) x) ≤ 0 := by
    have := hb2 _ (List.mem_map.2 ⟨fam, hfam, rfl⟩)
    simp only [hx, hinit, run] at this
    rcases this with h | ⟨_, _, h1, h2, h3⟩
    · cases h
    · simp only [Option.some.injEq] at h1 h2
      subst h1 h2
      refine h3.trans ((hmin (squaredError fam v p) θ).trans ?_)
      exact squaredError_zero.2 ⟨hσ, hm, hq⟩
  obtain ⟨h1, h2, h3⟩ := squaredError_zero.1 hbest
  refine ⟨f, minimize (squaredError f v p) x, ?_, hf, h1, ?_⟩
  · simp only [hx, run, Option.map_some]
  · intro j
    exact (hasValue_iff (fun h => hother (h ▸ hf)) h1 h2 (hp j).1 (hp j).2).2 (h3 j)

/-- **C105 (parameters).**  With one candidate family, the parameters of the distribution are returned. -/
theorem C105_parameters (minimize : (ℝ × ℝ → ℝ) → ℝ × ℝ → ℝ × ℝ) (hmin : Descends minimize) (v p : Fin n → ℝ) (hp : ∀ j, 0 < p j ∧ p j < 1)
    (fam : Fam) (hother : fam ≠ .other) (θ : ℝ × ℝ) (hσ : 0 < θ.2) (hv : ∀ j, HasValue fam θ (p j) (v j))
    (med ext : Fin n) (hmed : NextToHalf p med) (hext : Largest p ext) (hhalf : ∃ j, p j = 1 / 2) (hlarger : ∃ j, 1 / 2 < p j) :
    fit minimize v p [fam] med ext = .ok (fam, some θ) := by
  obtain ⟨fam', θ', h, hf, hσ', hv'⟩ := C105_exact_partial minimize hmin v p hp [fam] (by simpa using Ne.symm hother)
    (by
      intro hf j
      rw [List.mem_singleton] at hf
      subst hf
      exact (hv j).2.1) fam (List.mem_singleton.2 rfl) θ hσ hv med ext hmed hext hhalf hlarger
  rw [List.mem_singleton] at hf
  subst hf
  rw [h]
  obtain ⟨j, hj⟩ := hhalf
  obtain ⟨k, hk⟩ := hlarger
  have hz := ppf_pos hk (hp k).2
  have hm : fam' = .lognormal → 0 < θ.1 := by rintro rfl; exact (hv j).1
  have hm' : fam' = .lognormal → 0 < θ'.1 := by rintro rfl; exact (hv' j).1
  have q : ∀ i, quantile fam' θ' (p i) = quantile fam' θ (p i) := fun i =>
    ((hasValue_iff hother hσ' hm' (hp i).1 (hp i).2).1 (hv' i)).trans ((hasValue_iff hother hσ hm (hp i).1 (hp i).2).1 (hv i)).symm
  have hq1 := q j
  have hq2 := q k
  rw [hj] at hq1
  have : θ' = θ := by
    cases fam' with
    | other => exact absurd rfl hother
    | normal =>
      simp only [quantile, ppf_half, mul_zero, add_zero] at hq1 hq2
      rw [hq1] at hq2
      exact Prod.ext hq1 (mul_right_cancel₀ hz.ne' (add_left_cancel hq2))
    | lognormal =>
      simp only [quantile, ppf_half, mul_zero, add_zero, Real.exp_log (hm rfl), Real.exp_log (hm' rfl)] at hq1 hq2
      rw [hq1] at hq2
      exact Prod.ext hq1 (mul_right_cancel₀ hz.ne' (add_left_cancel (Real.exp_injective hq2)))
  rw [this]

/-- **C105 (choice).**  Of the candidate families, one with the smallest squared error is returned, if all searches end. -/
theorem C105_choice (minimize : (ℝ × ℝ → ℝ) → ℝ × ℝ → ℝ × ℝ) (v p : Fin n → ℝ) (fams : List Fam) (med ext : Fin n) (fam : Fam) (θ : ℝ × ℝ)
    (h : fit minimize v p fams med ext = .ok (fam, some θ)) :
    fam ∈ fams ∧ ∀ f ∈ fams, ∃ x, inits f v p med ext = some x ∧ squaredError fam v p θ ≤ squaredError f v p (minimize (squaredError f v p) x) := by
  unfold fit at h
  split at h
  · cases h
  · cases hb : best (fams.map fun f => (f, run minimize (squaredError f v p) (inits f v p med ext))) with
    | none => rw [hb] at h; cases h
    | some b =>
      rw [hb] at h
      simp only [Except.ok.injEq, Prod.mk.injEq] at h
      obtain ⟨h1, h2⟩ := h
      obtain ⟨hb1, hb2⟩ := best_spec hb
      obtain ⟨f, hf, rfl⟩ := List.mem_map.1 hb1
      simp only at h1 h2
      subst h1
      refine ⟨hf, ?_⟩
      intro f' hf'
      cases hx : inits f v p med ext with
      | none => rw [hx] at h2; simp [run] at h2
      | some x =>
        rw [hx] at h2
        simp only [run, Option.map_some, Option.some.injEq] at h2
        have := hb2 _ (List.mem_map.2 ⟨f', hf', rfl⟩)
        simp only [hx, run] at this
        rcases this with h | ⟨_, y, h3, h4, h5⟩
        · cases h
        · simp only [Option.some.injEq] at h3
          subst h3
          cases hx' : inits f' v p med ext with
          | none => rw [hx'] at h4; cases h4
          | some x' =>
            rw [hx'] at h4
            simp only [Option.some.injEq] at h4
            subst h4
            exact ⟨x', rfl, h2 ▸ h5⟩

/-- **C105 fails for the lower half of a distribution.**  If the largest percentile is 1/2, the result is not a number, also for exact values of a distribution (the extreme
percentile is sought above 1/2 only). -/
theorem C105_lower_half (minimize : (ℝ × ℝ → ℝ) → ℝ × ℝ → ℝ × ℝ) (v p : Fin n → ℝ) (fams : List Fam) (hother : Fam.other ∉ fams) (hne : fams ≠ [])
    (med ext : Fin n) (hext : Largest p ext) (hhalf : ∃ j, p j = 1 / 2) (hle : ∀ j, p j ≤ 1 / 2) :
    ∃ fam, fit minimize v p fams med ext = .ok (fam, none) := by
  have hpe : p ext = 1 / 2 := by
    obtain ⟨j, hj⟩ := hhalf
    have := hext.1 j
    simp only at this
    linarith [hle ext]
  have hno : ∀ f, inits f v p med ext = none := by
    intro f
    unfold inits
    cases distance f (v ext) (v med) with
    | none => rfl
    | some a =>
      simp only
      rw [if_pos (by rw [hpe, ppf_half])]
  obtain ⟨f, hf⟩ := List.exists_mem_of_ne_nil _ hne
  obtain ⟨b, hb, hbn⟩ := best_none (rs := fams.map fun f => (f, run minimize (squaredError f v p) (inits f v p med ext)))
    ⟨_, List.mem_map.2 ⟨f, hf, rfl⟩, by simp only [hno]; rfl⟩
  refine ⟨b.1, ?_⟩
  unfold fit
  rw [if_neg hother, hb]
  simp only [hbn, Option.map_none]

/-- **C105 fails for values of both signs.**  With the lognormal family among the candidates, the result is not a number if the values at the percentiles next to 1/2 and at the
largest percentile have different signs, whatever the other candidates are. -/
theorem C105_signs (minimize : (ℝ × ℝ → ℝ) → ℝ × ℝ → ℝ × ℝ) (v p : Fin n → ℝ) (fams : List Fam) (hother : Fam.other ∉ fams) (hln : Fam.lognormal ∈ fams)
    (med ext : Fin n) (hs : v med < 0 ∧ 0 < v ext) : ∃ fam, fit minimize v p fams med ext = .ok (fam, none) := by
  have hno : inits .lognormal v p med ext = none := by
    unfold inits
    simp only [distance]
    rw [if_neg (by have := div_neg_of_pos_of_neg hs.2 hs.1; linarith)]
  obtain ⟨b, hb, hbn⟩ := best_none (rs := fams.map fun f => (f, run minimize (squaredError f v p) (inits f v p med ext)))
    ⟨_, List.mem_map.2 ⟨_, hln, rfl⟩, by simp only [hno]; rfl⟩
  refine ⟨b.1, ?_⟩
  unfold fit
  rw [if_neg hother, hb]
  simp only [hbn, Option.map_none]

/-! ## Concrete cases

Values at 10, 50 and 90 percent. -/

noncomputable def perc : Fin 3 → ℝ := ![1 / 10, 1 / 2, 9 / 10]

theorem perc_two : perc 2 = 9 / 10 := rfl

theorem perc_range (j : Fin 3) : 0 < perc j ∧ perc j < 1 := by
  fin_cases j <;> norm_num [perc]

theorem perc_med : NextToHalf perc 1 := by
  constructor
  · intro j
    have : perc 1 - 1 / 2 = 0 := by norm_num [perc]
    simp only [this, abs_zero]
    exact abs_nonneg _
  · intro j hj
    have hj0 : j = 0 := by omega
    subst hj0
    norm_num [perc]

theorem perc_ext : Largest perc 2 := by
  constructor
  · intro j
    simp only [perc_two]
    fin_cases j <;> norm_num [perc]
  · intro j hj
    simp only [perc_two]
    fin_cases j
    · norm_num [perc]
    · norm_num [perc]
    · exact absurd hj (lt_irrefl _)

-- a lognormal distribution with median 3 and logarithmic standard deviation 1/2 (`C105_exact_partial`, `C105_parameters`)
example : Descends (fun _ x => x) ∧ (∀ j, HasValue .lognormal (3, 1 / 2) (perc j) (quantile .lognormal (3, 1 / 2) (perc j))) ∧
    (∀ j, 0 < quantile .lognormal (3, 1 / 2) (perc j)) ∧ (∃ j, perc j = 1 / 2) ∧ ∃ j, 1 / 2 < perc j :=
  ⟨fun _ _ => le_rfl, fun j => (hasValue_iff (by simp) (by norm_num) (by norm_num) (perc_range j).1 (perc_range j).2).2 rfl, fun _ => Real.exp_pos _,
    ⟨1, by norm_num [perc, perc_two]⟩, ⟨2, by rw [perc_two]; norm_num⟩⟩

-- a normal distribution with mean 3 and standard deviation 1 at 50 and 10 percent (`C105_lower_half`)
example : Largest (![1 / 2, 1 / 10] : Fin 2 → ℝ) 0 ∧ (∀ j, (![1 / 2, 1 / 10] : Fin 2 → ℝ) j ≤ 1 / 2) ∧
    ∃ v : Fin 2 → ℝ, ∀ j, HasValue .normal (3, 1) ((![1 / 2, 1 / 10] : Fin 2 → ℝ) j) (v j) := by
  refine ⟨⟨?_, ?_⟩, ?_, fun j => quantile .normal (3, 1) ((![1 / 2, 1 / 10] : Fin 2 → ℝ) j), ?_⟩
  · intro j
    fin_cases j <;> norm_num
  · intro j hj
    exact absurd hj (by simp)
  · intro j
    fin_cases j <;> norm_num
  · intro j
    refine (hasValue_iff (by simp) (by norm_num) (by simp) ?_ ?_).2 rfl <;> fin_cases j <;> norm_num

-- a normal distribution with mean -1 and a large standard deviation at 10, 50 and 90 percent (`C105_signs`)
example : ∃ σ : ℝ, 0 < σ ∧ quantile .normal (-1, σ) (perc 1) < 0 ∧ 0 < quantile .normal (-1, σ) (perc 2) := by
  have hz : 0 < gaussian.ppf (perc 2) := ppf_pos (by rw [perc_two]; norm_num) (by rw [perc_two]; norm_num)
  have h1 : perc 1 = 1 / 2 := by norm_num [perc, perc_two]
  refine ⟨2 / gaussian.ppf (perc 2), by positivity, ?_, ?_⟩
  · rw [h1]
    simp only [quantile, ppf_half, mul_zero]
    norm_num
  · simp only [quantile]
    rw [div_mul_cancel₀ _ hz.ne']
    norm_num

end Verif.FitPercentile
