import Verif.Spec.UQ

/-! # Lemmas about the modelled distributions -/

namespace Verif.UQ

section
variable {F : Type} [Field F] [LinearOrder F] [IsStrictOrderedRing F]

theorem StdDist.cdf_mono (D : StdDist F) {x y : F} (h : x ≤ y) : D.cdf x ≤ D.cdf y := by
  rcases lt_or_eq_of_le h with h | h
  · exact (D.cdf_strictMono h).le
  · rw [h]

theorem StdDist.le_of_cdf_le (D : StdDist F) {x y : F} (h : D.cdf x ≤ D.cdf y) : x ≤ y := by
  by_contra hn
  exact absurd h (not_le.2 (D.cdf_strictMono (not_le.1 hn)))

theorem StdDist.cdf_inj (D : StdDist F) {x y : F} (h : D.cdf x = D.cdf y) : x = y :=
  le_antisymm (D.le_of_cdf_le h.le) (D.le_of_cdf_le h.ge)

theorem StdDist.ppf_cdf (D : StdDist F) (z : F) : D.ppf (D.cdf z) = z :=
  D.cdf_inj (D.cdf_ppf (D.cdf_pos z) (D.cdf_lt_one z))

theorem StdDist.ppf_mono (D : StdDist F) {p q : F} (hp : 0 < p) (hq : q < 1) (h : p ≤ q) :
    D.ppf p ≤ D.ppf q := by
  apply D.le_of_cdf_le
  rw [D.cdf_ppf hp (lt_of_le_of_lt h hq), D.cdf_ppf (lt_of_lt_of_le hp h) hq]
  exact h

theorem ExpLog.exp_mono (E : ExpLog F) {x y : F} (h : x ≤ y) : E.exp x ≤ E.exp y := by
  rcases lt_or_eq_of_le h with h | h
  · exact (E.exp_strictMono h).le
  · rw [h]

theorem ExpLog.exp_inj (E : ExpLog F) {x y : F} (h : E.exp x = E.exp y) : x = y := by
  rcases lt_trichotomy x y with h' | h' | h'
  · exact absurd h (E.exp_strictMono h').ne
  · exact h'
  · exact absurd h (E.exp_strictMono h').ne'

theorem ExpLog.log_exp (E : ExpLog F) (x : F) : E.log (E.exp x) = x :=
  E.exp_inj (E.exp_log (E.exp_pos x))

theorem ExpLog.log_mul (E : ExpLog F) (hE : E.Additive) {x y : F} (hx : 0 < x) (hy : 0 < y) :
    E.log (x * y) = E.log x + E.log y := by
  apply E.exp_inj
  rw [hE, E.exp_log hx, E.exp_log hy, E.exp_log (mul_pos hx hy)]

theorem Ext.Le.fin_iff {x y : F} : Ext.Le (.fin x) (.fin y) ↔ x ≤ y :=
  ⟨fun h => by cases h; assumption, .fin⟩

theorem Ext.Le.ne_nan_left {x y : Ext F} (h : Ext.Le x y) : x ≠ .nan := by
  cases h <;> simp_all

theorem Ext.Le.ne_nan_right {x y : Ext F} (h : Ext.Le x y) : y ≠ .nan := by
  cases h <;> simp_all

/-- `norm.ppf` for a finite location and positive scale. -/
theorem normPpf_eq (D : StdDist F) {m s q : F} (hs : 0 < s) (h0 : 0 ≤ q) (h1 : q ≤ 1) :
    normPpf D (some q) (.fin m) s =
      if q = 0 then .negInf else if q < 1 then .fin (m + s * D.ppf q) else .posInf := by
  simp only [normPpf, if_pos hs, if_neg (not_lt.2 h0)]
  split
  · rfl
  · split
    · rfl
    · rename_i h
      have : q = 1 := le_antisymm h1 (not_lt.1 h)
      rw [if_pos this]

theorem normPpf_ne_nan (D : StdDist F) {m s q : F} (hs : 0 < s) (h0 : 0 ≤ q) (h1 : q ≤ 1) :
    normPpf D (some q) (.fin m) s ≠ .nan := by
  rw [normPpf_eq D hs h0 h1]; split_ifs <;> simp

theorem normPpf_mono (D : StdDist F) {m s q q' : F} (hs : 0 < s) (h0 : 0 ≤ q) (h : q ≤ q')
    (h1 : q' ≤ 1) :
    Ext.Le (normPpf D (some q) (.fin m) s) (normPpf D (some q') (.fin m) s) := by
  have hn := normPpf_ne_nan D (m := m) hs (le_trans h0 h) h1
  have hn' := normPpf_ne_nan D (m := m) hs h0 (le_trans h h1)
  rw [normPpf_eq D hs h0 (le_trans h h1)] at hn' ⊢
  rw [normPpf_eq D hs (le_trans h0 h) h1] at hn ⊢
  by_cases e0 : q = 0
  · rw [if_pos e0]; exact .neg hn
  · rw [if_neg e0] at hn' ⊢
    have hq : 0 < q := lt_of_le_of_ne h0 (Ne.symm e0)
    have hq' : q' ≠ 0 := (lt_of_lt_of_le hq h).ne'
    rw [if_neg hq']
    by_cases e1 : q' < 1
    · rw [if_pos e1, if_pos (lt_of_le_of_lt h e1)]
      refine .fin ?_
      have := mul_le_mul_of_nonneg_left (D.ppf_mono hq e1 h) hs.le
      linarith
    · rw [if_neg e1]; exact .pos hn'

theorem normPpf_cdf (D : StdDist F) {m s z : F} (hs : 0 < s) :
    normPpf D (some (D.cdf z)) (.fin m) s = .fin (m + s * z) := by
  rw [normPpf_eq D hs (D.cdf_pos z).le (D.cdf_lt_one z).le, if_neg (D.cdf_pos z).ne',
    if_pos (D.cdf_lt_one z), D.ppf_cdf]

/-- `norm.cdf` undoes `norm.ppf`. -/
theorem normCdf_normPpf (D : StdDist F) {m s q : F} (hs : 0 < s) (h0 : 0 ≤ q) (h1 : q ≤ 1) :
    normCdf D (normPpf D (some q) (.fin m) s) (.fin m) s = some q := by
  rw [normPpf_eq D hs h0 h1]
  have hs' : ¬ s < 0 := not_lt.2 hs.le
  split
  · rename_i h; simp [normCdf, hs, Ext.sub, Ext.divF, hs', stdCdf, h]
  · rename_i h
    split
    · rename_i h'
      have e : (m + s * D.ppf q - m) / s = D.ppf q := by field_simp; ring
      simp only [normCdf, if_pos hs, Ext.sub, Ext.divF, if_neg hs.ne', stdCdf, e]
      rw [D.cdf_ppf (lt_of_le_of_ne h0 (Ne.symm h)) h']
    · rename_i h'
      have : q = 1 := le_antisymm h1 (not_lt.1 h')
      simp [normCdf, hs, Ext.sub, Ext.divF, hs', stdCdf, this]

/-- Probability of the lower limit in standard coordinates. -/
def pLow (D : StdDist F) (mu sig : F) : Option F → F
  | none => 0
  | some a => D.cdf ((a - mu) / sig)

/-- Probability of the upper limit in standard coordinates. -/
def pHigh (D : StdDist F) (mu sig : F) : Option F → F
  | none => 1
  | some b => D.cdf ((b - mu) / sig)

theorem stdCdf_lower (D : StdDist F) {mu sig : F} (hs : 0 < sig) (a : Option F) :
    stdCdf D (((lowerInf a).sub (.fin mu)).divF sig) = some (pLow D mu sig a) := by
  cases a <;> simp [lowerInf, Ext.sub, Ext.divF, stdCdf, pLow, hs.ne', not_lt.2 hs.le]

theorem stdCdf_upper (D : StdDist F) {mu sig : F} (hs : 0 < sig) (b : Option F) :
    stdCdf D (((upperInf b).sub (.fin mu)).divF sig) = some (pHigh D mu sig b) := by
  cases b <;> simp [upperInf, Ext.sub, Ext.divF, stdCdf, pHigh, hs.ne', not_lt.2 hs.le]

theorem pLow_nonneg (D : StdDist F) (mu sig : F) (a : Option F) : 0 ≤ pLow D mu sig a := by
  cases a
  · exact le_refl _
  · exact (D.cdf_pos _).le

theorem pHigh_le_one (D : StdDist F) (mu sig : F) (b : Option F) : pHigh D mu sig b ≤ 1 := by
  cases b
  · exact le_refl _
  · exact (D.cdf_lt_one _).le

theorem normalInverse_eq (D : StdDist F) {eps mu sig : F} (hs : 0 < sig) (a b : Option F) (u : F) :
    normalInverse D eps mu sig a b u =
      if truncated a b then
        (if pHigh D mu sig b - pLow D mu sig a < eps then .error .valueError
         else .ok (normPpf D (some (u * (pHigh D mu sig b - pLow D mu sig a) + pLow D mu sig a))
           (.fin mu) sig))
      else .ok (normPpf D (some u) (.fin mu) sig) := by
  unfold normalInverse
  split
  · simp only [stdCdf_lower D hs, stdCdf_upper D hs, ensurePositive, osub, rescale]
    split <;> rename_i h <;> split at h <;> simp_all
  · rfl

/-- `q = u * (p_b - p_a) + p_a` lies between the two probabilities. -/
theorem rescale_bounds {u pa pb : F} (h0 : 0 ≤ u) (h1 : u ≤ 1) (h : pa ≤ pb) :
    pa ≤ u * (pb - pa) + pa ∧ u * (pb - pa) + pa ≤ pb := by
  have hd : 0 ≤ pb - pa := by linarith
  have h2 := mul_nonneg h0 hd
  have h3 := mul_le_mul_of_nonneg_right h1 hd
  constructor <;> linarith

theorem rescale_mono {u u' pa pb : F} (h : u ≤ u') (hp : pa ≤ pb) :
    u * (pb - pa) + pa ≤ u' * (pb - pa) + pa := by
  have hd : 0 ≤ pb - pa := by linarith
  have := mul_le_mul_of_nonneg_right h hd
  linarith

/-- A probability at least that of the lower limit gives a value above the limit. -/
theorem normPpf_ge (D : StdDist F) {mu sig q x : F} (hs : 0 < sig)
    (h : D.cdf ((x - mu) / sig) ≤ q) (h1 : q ≤ 1) :
    Ext.Le (.fin x) (normPpf D (some q) (.fin mu) sig) := by
  have e : (.fin x : Ext F) = normPpf D (some (D.cdf ((x - mu) / sig))) (.fin mu) sig := by
    rw [normPpf_cdf D hs]; congr 1; field_simp; ring
  rw [e]
  exact normPpf_mono D hs (D.cdf_pos _).le h h1

theorem normPpf_le (D : StdDist F) {mu sig q x : F} (hs : 0 < sig)
    (h : q ≤ D.cdf ((x - mu) / sig)) (h0 : 0 ≤ q) :
    Ext.Le (normPpf D (some q) (.fin mu) sig) (.fin x) := by
  have e : (.fin x : Ext F) = normPpf D (some (D.cdf ((x - mu) / sig))) (.fin mu) sig := by
    rw [normPpf_cdf D hs]; congr 1; field_simp; ring
  rw [e]
  exact normPpf_mono D hs h0 h (D.cdf_lt_one _).le

theorem normPpf_within (D : StdDist F) {mu sig q : F} {a b : Option F} (hs : 0 < sig)
    (ha : pLow D mu sig a ≤ q) (hb : q ≤ pHigh D mu sig b) :
    Within a b (normPpf D (some q) (.fin mu) sig) := by
  have h0 := le_trans (pLow_nonneg D mu sig a) ha
  have h1 := le_trans hb (pHigh_le_one D mu sig b)
  refine ⟨normPpf_ne_nan D hs h0 h1, ?_, ?_⟩
  · rintro x rfl
    exact normPpf_ge D hs ha h1
  · rintro y rfl
    exact normPpf_le D hs hb h0

/-- Capping a value that is already between the limits changes nothing. -/
theorem cap_within {a b : Option F} {w : Ext F} (h : Within a b w) :
    (w.max (lowerInf a)).min (upperInf b) = w := by
  obtain ⟨hn, ha, hb⟩ := h
  have hmax : w.max (lowerInf a) = w := by
    cases a with
    | none => cases w <;> simp_all [lowerInf, Ext.max]
    | some x =>
      have := ha x rfl
      cases w with
      | negInf => cases this
      | fin y =>
        have := Ext.Le.fin_iff.1 this
        simp only [lowerInf, Ext.max]
        split
        · rename_i h'; rw [le_antisymm h' this]
        · rfl
      | posInf => rfl
      | nan => exact absurd rfl hn
  rw [hmax]
  cases b with
  | none => cases w <;> simp_all [upperInf, Ext.min]
  | some x =>
    have := hb x rfl
    cases w with
    | negInf => rfl
    | fin y =>
      have := Ext.Le.fin_iff.1 this
      simp only [upperInf, Ext.min]
      rw [if_pos this]
    | posInf => cases this
    | nan => exact absurd rfl hn

theorem Ext.exp_mono (E : ExpLog F) {x y : Ext F} (h : Ext.Le x y) :
    Ext.Le (x.exp E) (y.exp E) := by
  cases h with
  | neg hy =>
    cases y with
    | negInf => exact .fin (le_refl _)
    | fin y => exact .fin (E.exp_pos y).le
    | posInf => exact .pos (by simp [Ext.exp])
    | nan => exact absurd rfl hy
  | pos hx =>
    cases x with
    | nan => exact absurd rfl hx
    | _ => exact .pos (by simp [Ext.exp])
  | fin h => exact .fin (E.exp_mono h)

/-- Probabilities of the limits of a lognormal variable. -/
def pHighL (D : StdDist F) (E : ExpLog F) (theta beta : F) : Option F → F
  | none => 1
  | some b => if b = 0 then 0 else D.cdf ((E.log b - E.log theta) / beta)

theorem lowerPos_pos {eps : F} (he : 0 < eps) (a : Option F) : 0 < lowerPos eps a := by
  cases a with
  | none => exact he
  | some a =>
    simp only [lowerPos]
    split
    · exact he
    · rename_i h; exact not_le.1 h

/-- The lognormal inverse transform in closed form, for `theta, beta > 0` and an upper limit
that is absent or not negative. -/
theorem lognormalInverse_eq (D : StdDist F) (E : ExpLog F) {eps theta beta : F} (he : 0 < eps)
    (ht : 0 < theta) (hb : 0 < beta) (a b : Option F) (hbn : ∀ y, b = some y → 0 ≤ y) (u : F) :
    lognormalInverse D E eps theta beta a b u =
      if truncated a b then
        (let pa := D.cdf ((E.log (lowerPos eps a) - E.log theta) / beta)
         let pb := pHighL D E theta beta b
         if pb - pa < eps then .error .valueError
         else .ok ((normPpf D (some (u * (pb - pa) + pa)) (.fin (E.log theta)) beta).exp E))
      else .ok ((normPpf D (some u) (.fin (E.log theta)) beta).exp E) := by
  have hlt : (Ext.fin theta).log E = .fin (E.log theta) := by simp [Ext.log, ht]
  unfold lognormalInverse
  simp only [hlt]
  split
  · have h1 : stdCdf D ((((Ext.fin (lowerPos eps a)).log E).sub (.fin (E.log theta))).divF beta) =
        some (D.cdf ((E.log (lowerPos eps a) - E.log theta) / beta)) := by
      simp [Ext.log, lowerPos_pos he a, Ext.sub, Ext.divF, stdCdf, hb.ne']
    have h2 : stdCdf D ((((upperInf b).log E).sub (.fin (E.log theta))).divF beta) =
        some (pHighL D E theta beta b) := by
      cases b with
      | none => simp [upperInf, Ext.log, Ext.sub, Ext.divF, stdCdf, pHighL, not_lt.2 hb.le]
      | some y =>
        have hy := hbn y rfl
        by_cases h0 : y = 0
        · subst h0
          simp [upperInf, Ext.log, Ext.sub, Ext.divF, stdCdf, pHighL, not_lt.2 hb.le]
        · have : 0 < y := lt_of_le_of_ne hy (Ne.symm h0)
          simp [upperInf, Ext.log, Ext.sub, Ext.divF, stdCdf, pHighL, hb.ne', this, h0]
    simp only [h1, h2, ensurePositive, osub, rescale]
    split <;> rename_i h <;> split at h <;> simp_all
  · rfl

end
end Verif.UQ
