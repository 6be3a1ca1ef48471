import Verif.Lemmas.UQDist
import Verif.Lemmas.UQInstances
import Verif.Lemmas.Interp

/-! # Properties C17–C24: distributions -/

namespace Verif.UQ

section
variable {F : Type} [Field F] [LinearOrder F] [IsStrictOrderedRing F]

/-! ### C17 -/

/-- C17, normal family: for a positive standard deviation every uniform value in `[0, 1]`
is mapped to a number between the limits that are set. -/
theorem C17_normal_within (D : StdDist F) {eps mu sig u : F} {a b : Option F} {v : Ext F}
    (he : 0 < eps) (hs : 0 < sig) (h0 : 0 ≤ u) (h1 : u ≤ 1)
    (h : normalInverse D eps mu sig a b u = .ok v) : Within a b v := by
  rw [normalInverse_eq D hs] at h
  split at h
  · split at h
    · simp at h
    · rename_i hd
      cases h
      have hle : pLow D mu sig a ≤ pHigh D mu sig b := by
        have := not_lt.1 hd; linarith
      obtain ⟨x, y⟩ := rescale_bounds h0 h1 hle
      exact normPpf_within D hs x y
  · rename_i ht
    cases h
    have ha : a = none := by cases a <;> simp_all [truncated]
    have hb : b = none := by cases b <;> simp_all [truncated]
    subst ha hb
    exact normPpf_within D hs h0 h1

/-- C17, normal family: order is preserved. -/
theorem C17_normal_monotone (D : StdDist F) {eps mu sig u u' : F} {a b : Option F} {v v' : Ext F}
    (he : 0 < eps) (hs : 0 < sig) (h0 : 0 ≤ u) (hu : u ≤ u') (h1 : u' ≤ 1)
    (h : normalInverse D eps mu sig a b u = .ok v)
    (h' : normalInverse D eps mu sig a b u' = .ok v') : Ext.Le v v' := by
  rw [normalInverse_eq D hs] at h h'
  split at h
  · rename_i ht
    rw [if_pos ht] at h'
    split at h
    · simp at h
    · rename_i hd
      rw [if_neg hd] at h'
      cases h; cases h'
      have hle : pLow D mu sig a ≤ pHigh D mu sig b := by
        have := not_lt.1 hd; linarith
      obtain ⟨x, _⟩ := rescale_bounds h0 (le_trans hu h1) hle
      obtain ⟨_, yb⟩ := rescale_bounds (le_trans h0 hu) h1 hle
      exact normPpf_mono D hs (le_trans (pLow_nonneg D mu sig a) x) (rescale_mono hu hle)
        (le_trans yb (pHigh_le_one D mu sig b))
  · rename_i ht
    rw [if_neg ht] at h'
    cases h; cases h'
    exact normPpf_mono D hs h0 hu h1

/-- C17, normal family: the sampling is refused exactly when the limits leave less than the
smallest positive probability between them; it never fails without limits. -/
theorem C17_normal_refused (D : StdDist F) {eps mu sig u : F} {a b : Option F} (hs : 0 < sig) :
    (∃ e, normalInverse D eps mu sig a b u = .error e) ↔
      truncated a b = true ∧
        (match b with | some y => D.cdf ((y - mu) / sig) | none => 1) -
        (match a with | some x => D.cdf ((x - mu) / sig) | none => 0) < eps := by
  rw [normalInverse_eq D hs]
  have e1 : (match b with | some y => D.cdf ((y - mu) / sig) | none => 1) = pHigh D mu sig b := by
    cases b <;> rfl
  have e2 : (match a with | some x => D.cdf ((x - mu) / sig) | none => 0) = pLow D mu sig a := by
    cases a <;> rfl
  rw [e1, e2]
  constructor
  · rintro ⟨e, h⟩
    split at h
    · rename_i ht
      split at h
      · exact ⟨ht, by assumption⟩
      · simp at h
    · simp at h
  · rintro ⟨h1, h2⟩
    exact ⟨_, by rw [if_pos h1, if_pos h2]⟩

/-- C17, lognormal family (median and dispersion positive), provided the upper limit is not
negative.  The excluded case is `C17_lognormal_negative_upper`. -/
theorem C17_lognormal_partial (D : StdDist F) (E : ExpLog F) {eps theta beta u u' : F}
    {a b : Option F} {v v' : Ext F} (he : 0 < eps) (ht : 0 < theta) (hb : 0 < beta)
    (hbn : ∀ y, b = some y → 0 ≤ y) (h0 : 0 ≤ u) (hu : u ≤ u') (h1 : u' ≤ 1)
    (h : lognormalInverse D E eps theta beta a b u = .ok v)
    (h' : lognormalInverse D E eps theta beta a b u' = .ok v') :
    Within a b v ∧ Ext.Le v v' := by
  rw [lognormalInverse_eq D E he ht hb a b hbn] at h h'
  split at h
  · rename_i htr
    rw [if_pos htr] at h'
    simp only at h h'
    split at h
    · simp at h
    · rename_i hd
      rw [if_neg hd] at h'
      cases h; cases h'
      set pa := D.cdf ((E.log (lowerPos eps a) - E.log theta) / beta) with hpa
      set pb := pHighL D E theta beta b with hpb
      have hlt : 0 < pb - pa := lt_of_lt_of_le he (not_lt.1 hd)
      have hle : pa ≤ pb := by linarith
      have hpb1 : pb ≤ 1 := by
        rw [hpb]
        cases b with
        | none => exact le_refl _
        | some y =>
          simp only [pHighL]; split
          · exact zero_le_one
          · exact (D.cdf_lt_one _).le
      obtain ⟨x1, x2⟩ := rescale_bounds h0 (le_trans hu h1) hle
      obtain ⟨_, yb⟩ := rescale_bounds (le_trans h0 hu) h1 hle
      have hpa0 : 0 ≤ pa := (D.cdf_pos _).le
      refine ⟨⟨?_, ?_, ?_⟩, ?_⟩
      · have := normPpf_ne_nan D (m := E.log theta) hb (le_trans hpa0 x1) (le_trans x2 hpb1)
        revert this
        cases normPpf D (some (u * (pb - pa) + pa)) (Ext.fin (E.log theta)) beta <;>
          simp [Ext.exp]
      · rintro x rfl
        have hl := normPpf_ge D (mu := E.log theta) (x := E.log (lowerPos eps (some x))) hb x1
          (le_trans x2 hpb1)
        have hl2 := Ext.exp_mono E hl
        simp only [Ext.exp] at hl2
        rw [E.exp_log (lowerPos_pos he _)] at hl2
        have hx : x ≤ lowerPos eps (some x) := by
          simp only [lowerPos]; split
          · rename_i hx; exact le_trans hx he.le
          · exact le_refl _
        revert hl2
        cases normPpf D (some (u * (pb - pa) + pa)) (Ext.fin (E.log theta)) beta with
        | negInf =>
          intro hl2; exact .fin (le_trans hx (Ext.Le.fin_iff.1 hl2))
        | fin z =>
          intro hl2; exact .fin (le_trans hx (Ext.Le.fin_iff.1 hl2))
        | posInf => intro _; exact .pos (by simp)
        | nan => intro hl2; cases hl2
      · rintro y rfl
        have hy := hbn y rfl
        by_cases hy0 : y = 0
        · exfalso
          have : pb = 0 := by rw [hpb]; simp [pHighL, hy0]
          have := D.cdf_pos ((E.log (lowerPos eps a) - E.log theta) / beta)
          rw [← hpa] at this
          linarith
        · have hyp : 0 < y := lt_of_le_of_ne hy (Ne.symm hy0)
          have x2' : u * (pb - pa) + pa ≤ D.cdf ((E.log y - E.log theta) / beta) := by
            have : pb = D.cdf ((E.log y - E.log theta) / beta) := by rw [hpb]; simp [pHighL, hy0]
            rw [← this]; exact x2
          have := Ext.exp_mono E (normPpf_le D hb x2' (le_trans hpa0 x1))
          simp only [Ext.exp] at this ⊢
          rw [E.exp_log hyp] at this
          exact this
      · exact Ext.exp_mono E (normPpf_mono D hb (le_trans hpa0 x1) (rescale_mono hu hle)
          (le_trans yb hpb1))
  · rename_i htr
    rw [if_neg htr] at h'
    cases h; cases h'
    have ha : a = none := by cases a <;> simp_all [truncated]
    have hbb : b = none := by cases b <;> simp_all [truncated]
    subst ha hbb
    refine ⟨⟨?_, by simp, by simp⟩, Ext.exp_mono E (normPpf_mono D hb h0 hu h1)⟩
    have := normPpf_ne_nan D (m := E.log theta) hb h0 (le_trans hu h1)
    revert this
    cases normPpf D (some u) (Ext.fin (E.log theta)) beta <;> simp [Ext.exp]

/-- Violation of C17: a lognormal variable with a negative upper limit is not refused; every
sample is `nan`. -/
theorem C17_lognormal_negative_upper (D : StdDist F) (E : ExpLog F) {eps theta beta : F} (u : F)
    (a : Option F) {y : F} (ht : 0 < theta) (hy : y < 0) :
    lognormalInverse D E eps theta beta a (some y) u = .ok .nan := by
  have hlt : (Ext.fin theta).log E = .fin (E.log theta) := by simp [Ext.log, ht]
  have hly : (Ext.fin y).log E = .nan := by simp [Ext.log, hy.le, hy.ne]
  unfold lognormalInverse
  have htr : truncated a (some y) = true := by simp [truncated]
  simp only [hlt, htr, if_true, upperInf, hly, Ext.sub, Ext.divF, stdCdf, ensurePositive, osub,
    rescale]
  cases stdCdf D ((((Ext.fin (lowerPos eps a)).log E).sub (.fin (E.log theta))).divF beta) <;>
    simp [normPpf, Ext.exp]

/-- C17, uniform family with both limits set (`lower < upper`).  The excluded cases are
`C17_uniform_one_sided` and `C17_uniform_leaves_support`. -/
theorem C17_uniform_partial {t0 t1 : Option F} {a b u u' : F} (hab : a < b) (h0 : 0 ≤ u)
    (hu : u ≤ u') (h1 : u' ≤ 1) :
    Within (some a) (some b) (uniformInverse t0 t1 (some a) (some b) u) ∧
      Ext.Le (uniformInverse t0 t1 (some a) (some b) u)
        (uniformInverse t0 t1 (some a) (some b) u') := by
  have h0' := le_trans h0 hu
  have h1' := le_trans hu h1
  have hd : 0 ≤ b - a := by linarith
  have e1 : uniformInverse t0 t1 (some a) (some b) u = .fin (a + u * (b - a)) := by
    simp [uniformInverse, uniformBounds, truncated, hab, h0, h1']
  have e2 : uniformInverse t0 t1 (some a) (some b) u' = .fin (a + u' * (b - a)) := by
    simp [uniformInverse, uniformBounds, truncated, hab, h0', h1]
  have m1 := mul_nonneg h0 hd
  have m2 := mul_le_mul_of_nonneg_right h1' hd
  have m3 := mul_le_mul_of_nonneg_right hu hd
  rw [e1, e2]
  refine ⟨⟨by simp, ?_, ?_⟩, .fin (by linarith)⟩
  · rintro x hx; cases hx; exact .fin (by linarith)
  · rintro x hx; cases hx; exact .fin (by linarith)

/-- Violation of C17: with only one limit set, a uniform variable produces `nan`. -/
theorem C17_uniform_one_sided (t0 t1 : Option F) (x u : F) :
    uniformInverse t0 t1 (some x) none u = .nan ∧ uniformInverse t0 t1 none (some x) u = .nan := by
  constructor <;> simp [uniformInverse, uniformBounds, truncated]

/-- The limits of a uniform variable replace its support: limits that reach beyond the support
`[0, 1]` give values outside the support. -/
theorem C17_uniform_leaves_support :
    uniformInverse (some (0 : F)) (some 1) (some 0) (some 2) 1 = .fin 2 := by
  have h : (0 : F) < 2 := by norm_num
  simp [uniformInverse, uniformBounds, truncated]

/-- C17, Weibull family (positive parameters). -/
theorem C17_weibull (W : PosDist F) {eps u u' : F} {a b : Option F} {v v' : Ext F}
    (he : 0 < eps) (h0 : 0 ≤ u) (hu : u ≤ u') (h1 : u' ≤ 1)
    (h : weibullInverse W eps a b u = .ok v) (h' : weibullInverse W eps a b u' = .ok v') :
    Within a b v ∧ Ext.Le v v' := by
  have key : ∀ q q' : F, 0 ≤ q → q ≤ q' → q' ≤ 1 →
      Ext.Le (weibullPpf W q) (weibullPpf W q') := by
    intro q q' hq hqq hq'
    unfold weibullPpf
    rw [if_neg (not_lt.2 hq), if_neg (not_lt.2 (le_trans hq hqq))]
    by_cases e : q' < 1
    · rw [if_pos e, if_pos (lt_of_le_of_lt hqq e)]
      refine .fin ?_
      by_contra hn
      have hlt := W.cdf_strictMono (W.ppf_nonneg (le_trans hq hqq) e) (not_le.1 hn)
      rw [W.cdf_ppf (le_trans hq hqq) e, W.cdf_ppf hq (lt_of_le_of_lt hqq e)] at hlt
      exact absurd hqq (not_le.2 hlt)
    · have : q' = 1 := le_antisymm hq' (not_lt.1 e)
      rw [if_neg e, if_pos this]
      refine .pos ?_
      split
      · simp
      · rename_i e2
        rw [if_pos (le_antisymm (le_trans hqq hq') (not_lt.1 e2))]; simp
  have hcdf0 : ∀ x, 0 ≤ W.cdf x := by
    intro x
    rcases le_total x 0 with hx | hx
    · rw [W.cdf_nonpos hx]
    · rcases lt_or_eq_of_le hx with hx | hx
      · have := W.cdf_strictMono (le_refl 0) hx
        rw [W.cdf_nonpos (le_refl 0)] at this; exact this.le
      · rw [W.cdf_nonpos hx.ge]
  have hinj : ∀ x, 0 ≤ x → weibullPpf W (W.cdf x) = .fin x := by
    intro x hx
    unfold weibullPpf
    rw [if_neg (not_lt.2 (hcdf0 x)), if_pos (W.cdf_lt_one x)]
    congr 1
    have hp := W.ppf_nonneg (hcdf0 x) (W.cdf_lt_one x)
    have hc := W.cdf_ppf (hcdf0 x) (W.cdf_lt_one x)
    rcases lt_trichotomy (W.ppf (W.cdf x)) x with h | h | h
    · have := W.cdf_strictMono hp h; rw [hc] at this; exact absurd this (lt_irrefl _)
    · exact h
    · have := W.cdf_strictMono hx h; rw [hc] at this; exact absurd this (lt_irrefl _)
  unfold weibullInverse at h h'
  split at h
  · rename_i htr
    rw [if_pos htr] at h'
    simp only at h h'
    split at h
    · simp at h
    · rename_i hd
      rw [if_neg hd] at h'
      cases h; cases h'
      set pa := W.cdf (weibullLower a) with hpa
      set pb := weibullPb W b with hpb
      have hlt : 0 < pb - pa := lt_of_lt_of_le he (not_lt.1 hd)
      have hle : pa ≤ pb := by linarith
      have hpa0 : 0 ≤ pa := hcdf0 _
      have hpb1 : pb ≤ 1 := by
        rw [hpb]; cases b
        · exact le_refl _
        · exact (W.cdf_lt_one _).le
      obtain ⟨x1, x2⟩ := rescale_bounds h0 (le_trans hu h1) hle
      obtain ⟨_, yb⟩ := rescale_bounds (le_trans h0 hu) h1 hle
      have hmono := key _ _ (le_trans hpa0 x1) (rescale_mono hu hle) (le_trans yb hpb1)
      refine ⟨⟨hmono.ne_nan_left, ?_, ?_⟩, hmono⟩
      · rintro x rfl
        have hwl : 0 ≤ weibullLower (some x) := by simp only [weibullLower]; split <;> simp_all
        have hxl : x ≤ weibullLower (some x) := by
          simp only [weibullLower]; split
          · exact le_refl _
          · rename_i hh; exact (not_le.1 hh).le
        have := key pa _ hpa0 x1 (le_trans x2 hpb1)
        rw [hpa, hinj _ hwl, ← hpa] at this
        revert this
        cases weibullPpf W (u * (pb - pa) + pa) with
        | negInf => intro h; cases h
        | fin z => intro h; exact .fin (le_trans hxl (Ext.Le.fin_iff.1 h))
        | posInf => intro _; exact .pos (by simp)
        | nan => intro h; cases h
      · rintro y rfl
        have hpby : pb = W.cdf y := rfl
        have hy0 : 0 ≤ y := by
          by_contra hn
          rw [W.cdf_nonpos (not_le.1 hn).le] at hpby
          linarith
        have := key _ pb (le_trans hpa0 x1) x2 hpb1
        rw [hpby, hinj _ hy0, ← hpby] at this
        exact this
  · rename_i htr
    rw [if_neg htr] at h'
    cases h; cases h'
    have ha : a = none := by cases a <;> simp_all [truncated]
    have hbb : b = none := by cases b <;> simp_all [truncated]
    subst ha hbb
    have hmono := key _ _ h0 hu h1
    exact ⟨⟨hmono.ne_nan_left, by simp, by simp⟩, hmono⟩

/-! ### C18 -/

/-- C18: `cdf(inverse_transform(u)) = u` for normal variables, with or without limits. -/
theorem C18_normal (D : StdDist F) {eps mu sig u : F} {a b : Option F} {v : Ext F}
    (he : 0 < eps) (hs : 0 < sig) (h0 : 0 < u) (h1 : u < 1)
    (h : normalInverse D eps mu sig a b u = .ok v) :
    normalCdf D eps mu sig a b v = .ok (some u) := by
  have hw := C17_normal_within D he hs h0.le h1.le h
  rw [normalInverse_eq D hs] at h
  unfold normalCdf
  split at h
  · rename_i htr
    rw [if_pos htr]
    split at h
    · simp at h
    · rename_i hd
      cases h
      simp only [stdCdf_lower D hs, stdCdf_upper D hs, ensurePositive, osub, if_neg hd]
      set pa := pLow D mu sig a with hpa
      set pb := pHigh D mu sig b with hpb
      have hlt : 0 < pb - pa := lt_of_lt_of_le he (not_lt.1 hd)
      obtain ⟨x1, x2⟩ := rescale_bounds h0.le h1.le (by linarith : pa ≤ pb)
      rw [cap_within hw, normCdf_normPpf D hs (le_trans (pLow_nonneg D mu sig a) x1)
        (le_trans x2 (pHigh_le_one D mu sig b))]
      simp only [unscale]
      congr 2
      field_simp
      ring
  · rename_i htr
    rw [if_neg htr]
    cases h
    rw [normCdf_normPpf D hs h0.le h1.le]

/-- C18: `cdf(inverse_transform(u)) = u` for uniform variables: `[t0, t1]` without limits,
the interval between the limits otherwise. -/
theorem C18_uniform {t0 t1 : F} {lim : Option (F × F)} {u : F} (h0 : 0 < u) (h1 : u < 1)
    (ht : t0 < t1) (hl : ∀ p, lim = some p → p.1 < p.2) :
    ∃ x, uniformInverse (some t0) (some t1) (lim.map Prod.fst) (lim.map Prod.snd) u = .fin x ∧
      uniformCdf (some t0) (some t1) (lim.map Prod.fst) (lim.map Prod.snd) x = some u := by
  have key : ∀ x y : F, x < y →
      (if x + u * (y - x) ≤ x then some (0 : F) else if y ≤ x + u * (y - x) then some 1
        else some ((x + u * (y - x) - x) / (y - x))) = some u := by
    intro x y hxy
    have hd : 0 < y - x := by linarith
    have m1 := mul_pos h0 hd
    have m2 : u * (y - x) < 1 * (y - x) := mul_lt_mul_of_pos_right h1 hd
    rw [if_neg (by linarith), if_neg (by linarith)]
    congr 1
    field_simp
    ring
  cases lim with
  | none =>
    refine ⟨t0 + u * (t1 - t0), ?_, ?_⟩
    · simp [uniformInverse, uniformBounds, truncated, lowerInf, upperInf, ht, h0.le, h1.le]
    · simp only [uniformCdf, uniformBounds, truncated, Option.map_none, Option.isSome_none,
        Bool.or_self, Bool.false_eq_true, if_false, lowerInf, upperInf, if_pos ht]
      exact key t0 t1 ht
  | some p =>
    have hp := hl p rfl
    refine ⟨p.1 + u * (p.2 - p.1), ?_, ?_⟩
    · simp [uniformInverse, uniformBounds, truncated, hp, h0.le, h1.le]
    · simp only [uniformCdf, uniformBounds, truncated, Option.map_some, Option.isSome_some,
        Bool.or_self, if_true, if_pos hp]
      exact key p.1 p.2 hp

/-- C18: `cdf(inverse_transform(u)) = u` for lognormal variables (positive median and
dispersion, lower limit missing or positive, upper limit not negative).  Without limits the
sampled value must not be below the smallest positive number `eps`, at which `cdf` cuts off.
A lower limit that is zero or negative is accepted by `inverse_transform` but not by `cdf`, see
`C18_lognormal_nonpositive_lower`. -/
theorem C18_lognormal_partial (D : StdDist F) (E : ExpLog F) {eps theta beta u : F}
    {a b : Option F} {v : Ext F} (he : 0 < eps) (ht : 0 < theta) (hb : 0 < beta)
    (ha : ∀ x, a = some x → 0 < x) (hbn : ∀ y, b = some y → 0 ≤ y) (h0 : 0 < u) (h1 : u < 1)
    (hv : Ext.Le (.fin eps) v ∨ ∃ x, a = some x)
    (h : lognormalInverse D E eps theta beta a b u = .ok v) :
    lognormalCdf D E eps theta beta a b v = .ok (some u) := by
  have hlow : lowerPosCdf eps a = lowerPos eps a := by
    cases a with
    | none => rfl
    | some x => simp [lowerPosCdf, lowerPos, not_le.2 (ha x rfl)]
  have hlp := lowerPos_pos he a
  have hlt : (Ext.fin theta).log E = .fin (E.log theta) := by simp [Ext.log, ht]
  have hll : (Ext.fin (lowerPos eps a)).log E = .fin (E.log (lowerPos eps a)) := by
    simp [Ext.log, hlp]
  have logexp : ∀ (w : Ext F) (x : F), 0 < x → Ext.Le (.fin x) (w.exp E) → (w.exp E).log E = w := by
    intro w x hx hw
    cases w with
    | negInf => simp only [Ext.exp] at hw; exact absurd (Ext.Le.fin_iff.1 hw) (not_le.2 hx)
    | fin z => simp [Ext.exp, Ext.log, E.exp_pos, E.log_exp]
    | posInf => rfl
    | nan => rfl
  have hinv := h
  rw [lognormalInverse_eq D E he ht hb a b hbn] at h
  unfold lognormalCdf
  by_cases htr : truncated a b = true
  · rw [if_pos htr] at h
    rw [if_pos htr]
    simp only at h
    split at h
    · simp at h
    · rename_i hd
      -- same sample with the effective lower limit
      have hinv' : lognormalInverse D E eps theta beta (some (lowerPos eps a)) b u = .ok v := by
        rw [← hinv]
        have e : lowerPos eps (some (lowerPos eps a)) = lowerPos eps a := by
          show (if lowerPos eps a ≤ 0 then eps else lowerPos eps a) = _
          rw [if_neg (not_le.2 hlp)]
        have e2 : truncated (some (lowerPos eps a)) b = true := by simp [truncated]
        unfold lognormalInverse
        simp only [e, e2, htr]
      have hw := (C17_lognormal_partial D E he ht hb hbn h0.le (le_refl u) h1.le hinv' hinv').1
      have hcap := cap_within hw
      simp only [lowerInf] at hcap
      have hge := hw.2.1 _ rfl
      cases h
      set pa := D.cdf ((E.log (lowerPos eps a) - E.log theta) / beta) with hpa
      set pb := pHighL D E theta beta b with hpb
      have hlt' : 0 < pb - pa := lt_of_lt_of_le he (not_lt.1 hd)
      have hpb1 : pb ≤ 1 := by
        rw [hpb]
        cases b with
        | none => exact le_refl _
        | some y =>
          simp only [pHighL]; split
          · exact zero_le_one
          · exact (D.cdf_lt_one _).le
      obtain ⟨x1, x2⟩ := rescale_bounds h0.le h1.le (by linarith : pa ≤ pb)
      have hpa' : stdCdf D ((((Ext.fin (lowerPos eps a)).log E).sub (.fin (E.log theta))).divF beta)
          = some pa := by
        rw [hll]; simp [Ext.sub, Ext.divF, hb.ne', stdCdf, hpa]
      have hpb' : stdCdf D ((((upperInf b).log E).sub (.fin (E.log theta))).divF beta) = some pb := by
        cases b with
        | none => simp [upperInf, Ext.log, Ext.sub, Ext.divF, stdCdf, not_lt.2 hb.le, hpb, pHighL]
        | some y =>
          have hy := hbn y rfl
          by_cases hy0 : y = 0
          · subst hy0
            simp [upperInf, Ext.log, Ext.sub, Ext.divF, stdCdf, not_lt.2 hb.le, hpb, pHighL]
          · have hyp : 0 < y := lt_of_le_of_ne hy (Ne.symm hy0)
            simp [upperInf, Ext.log, hyp, Ext.sub, Ext.divF, hb.ne', stdCdf, hpb, pHighL, hy0]
      simp only [hlow, hlt, hpa', hpb', ensurePositive, osub, if_neg hd]
      rw [hcap, logexp _ _ hlp hge, normCdf_normPpf D hb (le_trans (D.cdf_pos _).le x1)
        (le_trans x2 hpb1)]
      simp only [unscale]
      congr 2
      field_simp
      ring
  · rw [if_neg htr] at h
    rw [if_neg htr]
    have han : a = none := by cases a <;> simp_all [truncated]
    rcases hv with hv | ⟨x, hx⟩
    · cases h
      have hmax : ((normPpf D (some u) (.fin (E.log theta)) beta).exp E).max (.fin eps) =
          (normPpf D (some u) (.fin (E.log theta)) beta).exp E := by
        revert hv
        cases normPpf D (some u) (.fin (E.log theta)) beta with
        | negInf => intro hv; exact absurd (Ext.Le.fin_iff.1 hv) (not_le.2 he)
        | fin z =>
          intro hv
          have := Ext.Le.fin_iff.1 hv
          simp only [Ext.exp, Ext.max]
          split
          · rename_i h'; rw [le_antisymm h' this]
          · rfl
        | posInf => intro _; rfl
        | nan => intro _; rfl
      simp only [hlt]
      rw [hmax, logexp _ _ he hv, normCdf_normPpf D hb h0.le h1.le]
    · rw [han] at hx; cases hx

/-- Violation of C18: with a negative lower limit `cdf` returns `nan` everywhere, while
sampling accepts the limit. -/
theorem C18_lognormal_nonpositive_lower (D : StdDist F) (E : ExpLog F) {eps theta beta : F}
    (b : Option F) {x : F} (v : Ext F) (ht : 0 < theta) (hx : x < 0) :
    lognormalCdf D E eps theta beta (some x) b v = .ok none := by
  have hlt : (Ext.fin theta).log E = .fin (E.log theta) := by simp [Ext.log, ht]
  have hly : (Ext.fin x).log E = .nan := by simp [Ext.log, hx.le, hx.ne, not_lt.2 hx.le]
  unfold lognormalCdf
  have htr : truncated (some x) b = true := by simp [truncated]
  simp only [htr, if_true, lowerPosCdf, hly, hlt, Ext.sub, Ext.divF, stdCdf]
  have : ∀ p : Option F, osub p none = none := by intro p; cases p <;> rfl
  simp only [ensurePositive, this]
  have : ∀ p q : Option F, unscale p none q = none := by intro p q; cases p <;> rfl
  rw [this]

/-- C18: what the parameters mean.  Without limits the `u`-quantile is `mean + std * z` for the normal
family, `mean + mean * cov * z` when the coefficient of variation is given, `median * exp(beta * z)` for
the lognormal family, where `z` is the standard normal `u`-quantile, and `low + u * (high - low)` for the
uniform family. -/
theorem C18_parameters (D : StdDist F) (E : ExpLog F) (hE : E.Additive) (eps : F) {u : F} (h0 : 0 < u) (h1 : u < 1) :
    (∀ mu sig : F, 0 < sig → normalInverse D eps mu sig none none u = .ok (.fin (mu + sig * D.ppf u))) ∧
    (∀ m c : F, 1 / 10 ^ 40 ≤ m → 0 < c → covInverse D eps m c none none u = .ok (.fin (m + m * c * D.ppf u))) ∧
    (∀ theta beta : F, 0 < theta → 0 < beta →
      lognormalInverse D E eps theta beta none none u = .ok (.fin (theta * E.exp (beta * D.ppf u)))) ∧
    (∀ low high : F, low < high → uniformInverse (some low) (some high) none none u = .fin (low + u * (high - low))) := by
  have hn : ∀ mu sig : F, 0 < sig → normalInverse D eps mu sig none none u = .ok (.fin (mu + sig * D.ppf u)) := by
    intro mu sig hs
    simp [normalInverse, truncated, normPpf, hs, not_lt.2 h0.le, h0.ne', h1]
  refine ⟨hn, ?_, ?_, ?_⟩
  · intro m c hm hc
    have hpos : (0 : F) < 1 / 10 ^ 40 := by positivity
    have hm0 : 0 < m := lt_of_lt_of_le hpos hm
    unfold covInverse covStd
    rw [abs_of_pos hm0, if_neg (not_lt.2 hm)]
    exact hn m (m * c) (mul_pos hm0 hc)
  · intro theta beta ht hb
    simp [lognormalInverse, truncated, normPpf, hb, not_lt.2 h0.le, h0.ne', h1, Ext.log, ht, Ext.exp, hE _ _, E.exp_log ht]
  · intro low high hlh
    simp [uniformInverse, uniformBounds, truncated, lowerInf, upperInf, hlh, h0.le, h1.le]

end

/-! Concrete cases: a truncated standard normal and a truncated lognormal variable, with the
rational distribution `ratDist` and with the Gaussian distribution function of Mathlib. -/

/-- A truncated normal variable on `[-1, 1]`, sampled at `u = 1/4` (hypotheses of C17, C18). -/
example : normalInverse (ratDist (F := ℚ)) (1/1000) 0 1 (some (-1)) (some 1) (1/4) =
    .ok (.fin (-1/3)) := by
  decide +kernel

/-- Limits that leave no probability are refused. -/
example : normalInverse (ratDist (F := ℚ)) (1/1000) 0 1 (some 1) (some 1) (1/4) =
    .error .valueError := by
  decide +kernel

/-- The same with the true Gaussian: sampling between finite limits `-1 < 1` succeeds for a
small enough `eps`. -/
example : ∃ eps : ℝ, 0 < eps ∧ ∃ v, normalInverse gaussian eps 0 1 (some (-1)) (some 1) (1/4) = .ok v := by
  refine ⟨gaussian.cdf 1 - gaussian.cdf (-1), sub_pos.2 (gaussian.cdf_strictMono (by norm_num)), ?_⟩
  rw [normalInverse_eq gaussian one_pos]
  refine ⟨_, by
    rw [if_pos (by simp [truncated]), if_neg (by simp [pHigh, pLow])]⟩

/-- A lognormal variable of median 1 with limits `[1/2, 2]` and the real functions. -/
example : ∃ eps : ℝ, 0 < eps ∧
    ∃ v, lognormalInverse gaussian realExp eps 1 1 (some (1/2)) (some 2) (1/4) = .ok v := by
  have hlog : ∀ x : ℝ, realExp.log x = Real.log x := fun x => rfl
  have hpos : 0 < gaussian.cdf (Real.log 2) - gaussian.cdf (Real.log (1/2)) :=
    sub_pos.2 (gaussian.cdf_strictMono (Real.log_lt_log (by norm_num) (by norm_num)))
  refine ⟨_, hpos, ?_⟩
  rw [lognormalInverse_eq gaussian realExp hpos one_pos one_pos _ _ (by
    rintro y h; cases h; norm_num)]
  have h1 : ¬ ((1:ℝ)/2 ≤ 0) := by norm_num
  refine ⟨_, by
    rw [if_pos (by simp [truncated])]
    simp only [lowerPos, if_neg h1, pHighL, hlog, Real.log_one, sub_zero, div_one]
    rw [if_neg (by simp)]⟩

example : weibullInverse (ratPos (F := ℚ)) (1/1000) (some 1) (some 3) (1/2) = .ok (.fin (5/3)) := by
  decide +kernel

example : uniformInverse (some 0) (some (10 : ℚ)) (some 2) (some 4) (1/4) = .fin (5/2) := by
  decide +kernel

end Verif.UQ
