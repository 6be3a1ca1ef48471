import Verif.Model.Weibull
import Verif.Lemmas.UQInstances
import Mathlib.Tactic.Linarith
import Mathlib.Tactic.FieldSimp
import Mathlib.Tactic.Positivity
import Mathlib.Tactic.Ring

/-! # C18 for Weibull variables -/

namespace Verif.Weibull

open UQ

section
variable {F : Type} [Field F] [LinearOrder F] [IsStrictOrderedRing F]

theorem cdf_nonneg (W : PosDist F) (x : F) : 0 ≤ W.cdf x := by
  rcases le_total x 0 with hx | hx
  · rw [W.cdf_nonpos hx]
  · rcases lt_or_eq_of_le hx with hx | hx
    · have := W.cdf_strictMono (le_refl 0) hx
      rw [W.cdf_nonpos (le_refl 0)] at this; exact this.le
    · rw [W.cdf_nonpos hx.ge]

theorem cdf_mono (W : PosDist F) {x y : F} (h : x ≤ y) : W.cdf x ≤ W.cdf y := by
  rcases le_total x 0 with hx | hx
  · rw [W.cdf_nonpos hx]; exact cdf_nonneg W y
  · rcases lt_or_eq_of_le h with h | h
    · exact (W.cdf_strictMono hx h).le
    · rw [h]

theorem cdf_lower (W : PosDist F) (a : Option F) : W.cdf (weibullLower a) = W.cdf (cdfLower a) := by
  match a with
  | none => rfl
  | some a =>
    simp only [weibullLower, cdfLower]
    split
    · rfl
    · rename_i h
      rw [W.cdf_nonpos (le_refl 0), W.cdf_nonpos (not_le.1 h).le]

theorem pb_le_one (W : PosDist F) (b : Option F) : weibullPb W b ≤ 1 := by
  cases b
  · exact le_refl _
  · exact (W.cdf_lt_one _).le

/-- C18: `cdf(inverse_transform(u)) = u` for Weibull variables, with or without limits. -/
theorem C18_weibull (W : PosDist F) {eps u : F} {a b : Option F} {v : Ext F} (he : 0 < eps) (h0 : 0 < u) (h1 : u < 1)
    (h : weibullInverse W eps a b u = .ok v) : ∃ x, v = .fin x ∧ weibullCdf W eps a b x = .ok u := by
  unfold weibullInverse at h
  unfold weibullCdf
  by_cases ht : truncated a b = true
  · rw [if_pos ht] at h
    simp only [if_pos ht]
    simp only [cdf_lower] at h
    by_cases hd : weibullPb W b - W.cdf (cdfLower a) < eps
    · rw [if_pos hd] at h; cases h
    · rw [if_neg hd] at h
      simp only [if_neg hd]
      cases h
      set pa := W.cdf (cdfLower a) with hpa
      set pb := weibullPb W b with hpb
      have hlt : 0 < pb - pa := lt_of_lt_of_le he (not_lt.1 hd)
      have hpa0 : 0 ≤ pa := cdf_nonneg W _
      have hpb1 : pb ≤ 1 := pb_le_one W b
      have hm : 0 < u * (pb - pa) := mul_pos h0 hlt
      have hm' : u * (pb - pa) < pb - pa := by
        have := mul_lt_mul_of_pos_right h1 hlt
        rwa [one_mul] at this
      have hq0 : 0 ≤ u * (pb - pa) + pa := by linarith
      have hq1 : u * (pb - pa) + pa < 1 := by linarith
      refine ⟨W.ppf (u * (pb - pa) + pa), by rw [weibullPpf, if_neg (not_lt.2 hq0), if_pos hq1], ?_⟩
      have hc := W.cdf_ppf hq0 hq1
      have hl : cdfLower a ≤ W.ppf (u * (pb - pa) + pa) := by
        by_contra hn
        have := cdf_mono W (not_le.1 hn).le
        rw [hc, ← hpa] at this
        linarith
      have hcap : cap (cdfLower a) b (W.ppf (u * (pb - pa) + pa)) = W.ppf (u * (pb - pa) + pa) := by
        unfold cap
        match b, hpb with
        | none, _ => exact max_eq_left hl
        | some b, hpb =>
          simp only [max_eq_left hl]
          refine min_eq_left ?_
          by_contra hn
          have := cdf_mono W (not_le.1 hn).le
          rw [hc, show W.cdf b = pb from hpb.symm] at this
          linarith
      rw [hcap, hc]
      congr 1
      field_simp
      ring
  · rw [if_neg ht] at h
    simp only [if_neg ht]
    cases h
    refine ⟨W.ppf u, by rw [weibullPpf, if_neg (not_lt.2 h0.le), if_pos h1], ?_⟩
    rw [max_eq_left (W.ppf_nonneg h0.le h1), W.cdf_ppf h0.le h1]

/-- C18: the distribution function of a Weibull variable is zero up to the lower limit and one from the upper limit on, and it never
decreases. -/
theorem C18_weibull_cdf (W : PosDist F) {eps : F} {a b : Option F} (he : 0 < eps) {x y p q : F} (hxy : x ≤ y)
    (hp : weibullCdf W eps a b x = .ok p) (hq : weibullCdf W eps a b y = .ok q) :
    0 ≤ p ∧ p ≤ q ∧ q ≤ 1 ∧ ((∃ l, a = some l ∧ x ≤ l) ∨ x ≤ 0 → p = 0) ∧ (∀ l, b = some l → l ≤ x → p = 1) := by
  unfold weibullCdf at hp hq
  by_cases ht : truncated a b = true
  · rw [if_pos ht] at hp hq
    by_cases hd : weibullPb W b - W.cdf (cdfLower a) < eps
    · simp only [if_pos hd] at hp; cases hp
    · simp only [if_neg hd] at hp hq
      cases hp; cases hq
      set pa := W.cdf (cdfLower a) with hpa
      set pb := weibullPb W b with hpb
      have hlt : 0 < pb - pa := lt_of_lt_of_le he (not_lt.1 hd)
      have hab : ∀ l, b = some l → cdfLower a ≤ l := by
        rintro l rfl
        by_contra hn
        have := cdf_mono W (not_le.1 hn).le
        have e : pb = W.cdf l := hpb
        rw [← hpa] at this
        linarith
      have hcl : ∀ z, cdfLower a ≤ cap (cdfLower a) b z := by
        intro z
        unfold cap
        match b, hab with
        | none, _ => exact le_max_right _ _
        | some l, hab => exact le_min (le_max_right _ _) (hab l rfl)
      have hcu : ∀ z, W.cdf (cap (cdfLower a) b z) ≤ pb := by
        intro z
        unfold cap
        match b, hpb with
        | none, hpb => rw [hpb]; exact (W.cdf_lt_one _).le
        | some l, hpb => rw [hpb]; exact cdf_mono W (min_le_right _ _)
      have hmono : cap (cdfLower a) b x ≤ cap (cdfLower a) b y := by
        unfold cap
        match b with
        | none => exact max_le_max hxy (le_refl _)
        | some l => exact min_le_min (max_le_max hxy (le_refl _)) (le_refl _)
      refine ⟨?_, ?_, ?_, ?_, ?_⟩
      · apply div_nonneg _ hlt.le
        have := cdf_mono W (hcl x)
        linarith
      · apply div_le_div_of_nonneg_right _ hlt.le
        have := cdf_mono W hmono
        linarith
      · rw [div_le_one hlt]
        have := hcu y
        linarith
      · intro h
        have hz : W.cdf (cap (cdfLower a) b x) ≤ pa := by
          rcases h with ⟨l, rfl, hl⟩ | hx
          · refine cdf_mono W ?_
            have : cap (cdfLower (some l)) b x ≤ max x l := by
              unfold cap
              match b with
              | none => exact le_refl _
              | some m => exact min_le_left _ _
            exact this.trans (max_le hl (le_refl _))
          · have h1 : cap (cdfLower a) b x ≤ max x (cdfLower a) := by
              unfold cap
              match b with
              | none => exact le_refl _
              | some m => exact min_le_left _ _
            rcases le_total x (cdfLower a) with h2 | h2
            · exact cdf_mono W (h1.trans (max_le h2 (le_refl _)))
            · have h3 : cap (cdfLower a) b x ≤ 0 := h1.trans (max_le hx (h2.trans hx))
              rw [W.cdf_nonpos h3]
              exact cdf_nonneg W _
        have hz' : pa ≤ W.cdf (cap (cdfLower a) b x) := cdf_mono W (hcl x)
        rw [le_antisymm hz hz', sub_self, zero_div]
      · rintro l rfl hl
        have hc : cap (cdfLower a) (some l) x = l := by
          simp only [cap]
          exact min_eq_right (hl.trans (le_max_left _ _))
        rw [hc]
        have e : W.cdf l = pb := hpb.symm
        rw [e, div_self hlt.ne']
  · rw [if_neg ht] at hp hq
    cases hp; cases hq
    have ha : a = none := by cases a <;> simp_all [truncated]
    have hb : b = none := by cases b <;> simp_all [truncated]
    subst ha hb
    refine ⟨cdf_nonneg W _, cdf_mono W (max_le_max hxy (le_refl _)), (W.cdf_lt_one _).le, ?_, by simp⟩
    rintro (⟨l, hl, _⟩ | hx)
    · cases hl
    · rw [max_eq_right hx, W.cdf_nonpos (le_refl 0)]

end

/-! ## The Weibull distribution -/

theorem rpow_neg_log {lam kappa p : ℝ} (hl : 0 < lam) (hk : 0 < kappa) (h0 : 0 ≤ p) (h1 : p < 1) :
    (realPpf lam kappa p / lam) ^ kappa = -Real.log (1 - p) := by
  have hn : 0 ≤ -Real.log (1 - p) := by
    have := Real.log_nonpos (by linarith : (0 : ℝ) ≤ 1 - p) (by linarith)
    linarith
  rw [realPpf, mul_div_cancel_left₀ _ hl.ne', ← Real.rpow_mul hn, one_div, inv_mul_cancel₀ hk.ne', Real.rpow_one]

/-- The functions of scipy are as assumed. -/
noncomputable def real (lam kappa : ℝ) (hl : 0 < lam) (hk : 0 < kappa) : PosDist ℝ where
  cdf := realCdf lam kappa
  ppf := realPpf lam kappa
  cdf_nonpos := by
    intro x hx
    simp [realCdf, hx]
  cdf_strictMono := by
    intro x y hx hxy
    have hy : 0 < y := lt_of_le_of_lt hx hxy
    have key : (x / lam) ^ kappa < (y / lam) ^ kappa :=
      Real.rpow_lt_rpow (div_nonneg hx hl.le) (div_lt_div_of_pos_right hxy hl) hk
    have h2 := Real.exp_lt_exp.2 (neg_lt_neg key)
    simp only [realCdf, if_neg (not_le.2 hy)]
    split
    · have : 0 < (y / lam) ^ kappa := Real.rpow_pos_of_pos (div_pos hy hl) _
      have : Real.exp (-(y / lam) ^ kappa) < 1 := Real.exp_lt_one_iff.2 (by linarith)
      linarith
    · linarith
  cdf_lt_one := by
    intro x
    simp only [realCdf]
    split
    · norm_num
    · have := Real.exp_pos (-(x / lam) ^ kappa)
      linarith
  ppf_nonneg := by
    intro p h0 h1
    have hn : 0 ≤ -Real.log (1 - p) := by
      have := Real.log_nonpos (by linarith : (0 : ℝ) ≤ 1 - p) (by linarith)
      linarith
    exact mul_nonneg hl.le (Real.rpow_nonneg hn _)
  cdf_ppf := by
    intro p h0 h1
    have hr := rpow_neg_log hl hk h0 h1
    simp only [realCdf]
    split
    · rename_i h
      rcases lt_or_eq_of_le h0 with h0 | h0
      · exfalso
        have hp : 0 < -Real.log (1 - p) := by
          have := Real.log_neg (by linarith : (0 : ℝ) < 1 - p) (by linarith)
          linarith
        have : 0 < realPpf lam kappa p := mul_pos hl (Real.rpow_pos_of_pos hp _)
        linarith
      · exact h0
    · rw [hr, neg_neg, Real.exp_log (by linarith)]
      ring

/-- C18: what the parameters of a Weibull variable mean: a value exceeds `x` with probability `exp(-(x / lambda) ** kappa)`, so that the
first parameter is the scale: it is exceeded with probability `1 / e` whatever the shape.  With limits, the probability is that given that
the value is between them. -/
theorem C18_weibull_parameters (lam kappa : ℝ) (hl : 0 < lam) (hk : 0 < kappa) (eps : ℝ) (he : 0 < eps) :
    (∀ x, 0 < x → weibullCdf (real lam kappa hl hk) eps none none x = .ok (1 - Real.exp (-(x / lam) ^ kappa))) ∧
      weibullCdf (real lam kappa hl hk) eps none none lam = .ok (1 - Real.exp (-1)) ∧
      (∀ u, 0 < u → u < 1 → weibullInverse (real lam kappa hl hk) eps none none u = .ok (.fin (lam * (-Real.log (1 - u)) ^ (1 / kappa)))) ∧
      (∀ a b x, 0 < a → a ≤ x → x ≤ b → eps ≤ Real.exp (-(a / lam) ^ kappa) - Real.exp (-(b / lam) ^ kappa) →
        weibullCdf (real lam kappa hl hk) eps (some a) (some b) x =
          .ok ((Real.exp (-(a / lam) ^ kappa) - Real.exp (-(x / lam) ^ kappa)) /
            (Real.exp (-(a / lam) ^ kappa) - Real.exp (-(b / lam) ^ kappa)))) := by
  have h1 : ∀ x, 0 < x → weibullCdf (real lam kappa hl hk) eps none none x = .ok (1 - Real.exp (-(x / lam) ^ kappa)) := by
    intro x hx
    simp only [weibullCdf, truncated, Option.isSome_none, Bool.or_self, Bool.false_eq_true, if_false, max_eq_left hx.le, real, realCdf,
      if_neg (not_le.2 hx)]
  refine ⟨h1, ?_, ?_, ?_⟩
  · rw [h1 lam hl, div_self hl.ne', Real.one_rpow]
  · intro u hu0 hu1
    simp only [weibullInverse, truncated, Option.isSome_none, Bool.or_self, Bool.false_eq_true, if_false, weibullPpf,
      if_neg (not_lt.2 hu0.le), if_pos hu1]
    rfl
  · intro a b x ha hax hxb hd
    have hx : 0 < x := lt_of_lt_of_le ha hax
    have hb : 0 < b := lt_of_lt_of_le hx hxb
    have e : ∀ z, 0 < z → (real lam kappa hl hk).cdf z = 1 - Real.exp (-(z / lam) ^ kappa) := by
      intro z hz
      simp only [real, realCdf, if_neg (not_le.2 hz)]
    have hdiff : (1 - Real.exp (-(b / lam) ^ kappa)) - (1 - Real.exp (-(a / lam) ^ kappa)) =
        Real.exp (-(a / lam) ^ kappa) - Real.exp (-(b / lam) ^ kappa) := by ring
    simp only [weibullCdf, truncated, Option.isSome_some, Bool.or_self, if_true, cdfLower, weibullPb, cap, max_eq_left hax, min_eq_left hxb,
      e a ha, e b hb, e x hx, hdiff, if_neg (not_lt.2 hd)]
    congr 2
    ring

/-- `C18_weibull`, `C18_weibull_cdf`: a Weibull variable with limits on both sides (rational stand-in). -/
example : weibullInverse (ratPos (F := ℚ)) (1 / 1000) (some (-1)) (some 3) (1 / 3) = .ok (.fin (1 / 3)) ∧
    weibullCdf (ratPos (F := ℚ)) (1 / 1000) (some (-1)) (some 3) (1 / 3) = .ok (1 / 3) ∧
    weibullCdf (ratPos (F := ℚ)) (1 / 1000) (some (-1)) (some 3) 5 = .ok 1 := by
  decide +kernel

end Verif.Weibull
