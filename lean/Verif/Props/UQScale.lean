import Verif.Lemmas.UQInstances
import Verif.Lemmas.UQDist
import Verif.Lemmas.Interp

/-! # Property C19: scaling a distribution -/

namespace Verif.UQ

section
variable {F : Type} [Field F] [LinearOrder F] [IsStrictOrderedRing F]

/-- Families `scale_distribution` documents as supported (an undefined family counts as
deterministic). -/
def Supported (fam : Family) : Prop := fam ≠ .other

/-- C19: a family outside the supported ones is rejected with `ValueError`; a supported
family whose parameters are present is not. -/
theorem C19_unsupported_rejected (f : F) (fam : Family) (theta : List (Entry F))
    (lim : Option (Option F × Option F)) :
    (¬ Supported fam → scaleDistribution f fam theta lim = .error .valueError) ∧
    (Supported fam → 2 ≤ theta.length → ∃ r, scaleDistribution f fam theta lim = .ok r) := by
  constructor
  · intro h
    have : fam = .other := by by_contra hh; exact h hh
    subst this; rfl
  · intro h hl
    obtain ⟨t0, t1, r, rfl⟩ : ∃ t0 t1 r, theta = t0 :: t1 :: r := by
      match theta, hl with
      | t0 :: t1 :: r, _ => exact ⟨t0, t1, r, rfl⟩
    cases fam <;> first | exact ⟨_, rfl⟩ | exact absurd rfl h

theorem Entry.scale_scale (f g : F) (e : Entry F) : (e.scale f).scale g = e.scale (f * g) := by
  cases e <;> simp [Entry.scale, mul_assoc]

theorem scaleLimit_scaleLimit (f g : F) (a : Option F) :
    scaleLimit g (scaleLimit f a) = scaleLimit (f * g) a := by
  cases a <;> simp [scaleLimit, mul_assoc]

/-- C19: scaling by `f` and then by `g` is scaling by `f * g`, for parameters and limits. -/
theorem C19_scale_twice (f g : F) (fam : Family) (theta theta' : List (Entry F))
    (lim lim' : Option (Option F × Option F))
    (h : scaleDistribution f fam theta lim = .ok (theta', lim')) :
    scaleDistribution g fam theta' lim' = scaleDistribution (f * g) fam theta lim := by
  have hlim : ∀ l : Option (Option F × Option F),
      (l.map fun p => (scaleLimit f p.1, scaleLimit f p.2)).map
        (fun p => (scaleLimit g p.1, scaleLimit g p.2)) =
      l.map fun p => (scaleLimit (f * g) p.1, scaleLimit (f * g) p.2) := by
    intro l; cases l
    · rfl
    · simp [scaleLimit_scaleLimit]
  unfold scaleDistribution at h
  unfold scaleDistribution
  cases hm : scaleMode fam with
  | error e => simp [hm] at h
  | ok m =>
    rw [hm] at h
    simp only at h ⊢
    cases ht : scaleTheta f m theta with
    | error e => rw [ht] at h; simp at h
    | ok t =>
      rw [ht] at h
      simp only [Except.ok.injEq, Prod.mk.injEq] at h
      obtain ⟨rfl, rfl⟩ := h
      have : scaleTheta g m t = scaleTheta (f * g) m theta := by
        cases m <;> unfold scaleTheta at ht
        · match theta, ht with
          | t0 :: t1 :: r, ht => cases ht; simp [scaleTheta, Entry.scale_scale]
        · match theta, ht with
          | t0 :: t1 :: r, ht => cases ht; simp [scaleTheta, Entry.scale_scale]
        · match theta, ht with
          | t0 :: r, ht => cases ht; simp [scaleTheta, Entry.scale_scale]
      rw [this, hlim]

/-! Effect on the quantile function. -/

theorem truncated_scale (f : F) (a b : Option F) :
    truncated (scaleLimit f a) (scaleLimit f b) = truncated a b := by
  cases a <;> cases b <;> rfl

theorem normPpf_scale (D : StdDist F) {f mu sig : F} (hf : 0 < f) (hs : 0 < sig) (q : F)
    (h0 : 0 ≤ q) (h1 : q ≤ 1) :
    normPpf D (some q) (.fin (mu * f)) (sig * f) =
      (normPpf D (some q) (.fin mu) sig).scale f := by
  rw [normPpf_eq D (mul_pos hs hf) h0 h1, normPpf_eq D hs h0 h1]
  split
  · rfl
  · split
    · simp only [Ext.scale]; congr 1; ring
    · rfl

theorem normalInverse_scale (D : StdDist F) {eps f mu sig u : F} (he : 0 < eps) (hf : 0 < f)
    (hs : 0 < sig) (a b : Option F) (h0 : 0 ≤ u) (h1 : u ≤ 1) :
    normalInverse D eps (mu * f) (sig * f) (scaleLimit f a) (scaleLimit f b) u =
      (normalInverse D eps mu sig a b u).map (Ext.scale f) := by
  have e1 : pLow D (mu * f) (sig * f) (scaleLimit f a) = pLow D mu sig a := by
    cases a
    · rfl
    · rename_i x
      simp only [pLow, scaleLimit, Option.map_some]
      congr 1; field_simp
  have e2 : pHigh D (mu * f) (sig * f) (scaleLimit f b) = pHigh D mu sig b := by
    cases b
    · rfl
    · rename_i x
      simp only [pHigh, scaleLimit, Option.map_some]
      congr 1; field_simp
  rw [normalInverse_eq D (mul_pos hs hf), normalInverse_eq D hs, truncated_scale, e1, e2]
  split
  · split
    · rfl
    · rename_i hd
      have hle : pLow D mu sig a ≤ pHigh D mu sig b := by
        have := not_lt.1 hd; linarith
      obtain ⟨x, y⟩ := rescale_bounds h0 h1 hle
      rw [normPpf_scale D hf hs _ (le_trans (pLow_nonneg D mu sig a) x)
        (le_trans y (pHigh_le_one D mu sig b))]
      rfl
  · rw [normPpf_scale D hf hs _ h0 h1]; rfl

theorem lognormalInverse_scale (D : StdDist F) (E : ExpLog F) (hE : E.Additive) {eps f theta beta u : F}
    (he : 0 < eps) (hf : 0 < f) (ht : 0 < theta) (hb : 0 < beta) (a b : Option F)
    (hlow : truncated a b = true → ∃ x, a = some x ∧ 0 < x) (hbn : ∀ y, b = some y → 0 ≤ y)
    (h0 : 0 ≤ u) (h1 : u ≤ 1) :
    lognormalInverse D E eps (theta * f) beta (scaleLimit f a) (scaleLimit f b) u =
      (lognormalInverse D E eps theta beta a b u).map (Ext.scale f) := by
  have hexp : ∀ q : F, 0 ≤ q → q ≤ 1 →
      (normPpf D (some q) (.fin (E.log (theta * f))) beta).exp E =
        ((normPpf D (some q) (.fin (E.log theta)) beta).exp E).scale f := by
    intro q hq0 hq1
    rw [normPpf_eq D hb hq0 hq1, normPpf_eq D hb hq0 hq1]
    split
    · simp [Ext.exp, Ext.scale]
    · split
      · simp only [Ext.exp, Ext.scale]
        congr 1
        rw [E.log_mul hE ht hf, hE, hE, hE, E.exp_log hf]
        ring
      · rfl
  have hbn' : ∀ y, scaleLimit f b = some y → 0 ≤ y := by
    intro y hy
    cases b with
    | none => simp [scaleLimit] at hy
    | some z =>
      simp only [scaleLimit, Option.map_some, Option.some.injEq] at hy
      subst hy
      exact mul_nonneg (hbn z rfl) hf.le
  rw [lognormalInverse_eq D E he (mul_pos ht hf) hb _ _ hbn', lognormalInverse_eq D E he ht hb _ _ hbn,
    truncated_scale]
  split
  · rename_i htr
    obtain ⟨x, rfl, hx⟩ := hlow htr
    have hxf : 0 < x * f := mul_pos hx hf
    have e1 : (E.log (lowerPos eps (scaleLimit f (some x))) - E.log (theta * f)) / beta =
        (E.log (lowerPos eps (some x)) - E.log theta) / beta := by
      simp only [scaleLimit, Option.map_some, lowerPos, if_neg (not_le.2 hx), if_neg (not_le.2 hxf)]
      rw [E.log_mul hE hx hf, E.log_mul hE ht hf]; congr 1; ring
    have e2 : pHighL D E (theta * f) beta (scaleLimit f b) = pHighL D E theta beta b := by
      cases b with
      | none => rfl
      | some y =>
        have hy := hbn y rfl
        simp only [pHighL, scaleLimit, Option.map_some]
        by_cases hy0 : y = 0
        · simp [hy0]
        · have hyp : 0 < y := lt_of_le_of_ne hy (Ne.symm hy0)
          rw [if_neg hy0, if_neg (mul_pos hyp hf).ne', E.log_mul hE hyp hf, E.log_mul hE ht hf]
          congr 2; ring
    simp only [e1, e2]
    split
    · rfl
    · rename_i hd
      set pa := D.cdf ((E.log (lowerPos eps (some x)) - E.log theta) / beta)
      set pb := pHighL D E theta beta b with hpb
      have hpb1 : pb ≤ 1 := by
        rw [hpb]
        cases b with
        | none => exact le_refl _
        | some y =>
          simp only [pHighL]; split
          · exact zero_le_one
          · exact (D.cdf_lt_one _).le
      have hle : pa ≤ pb := by have := not_lt.1 hd; linarith
      obtain ⟨x, y⟩ := rescale_bounds h0 h1 hle
      rw [hexp _ (le_trans (D.cdf_pos _).le x) (le_trans y hpb1)]
      rfl
  · rw [hexp _ h0 h1]; rfl

theorem uniformInverse_scale {f : F} (hf : 0 < f) (x y : F) (a b : Option F) (u : F) :
    uniformInverse (some (x * f)) (some (y * f)) (scaleLimit f a) (scaleLimit f b) u =
      (uniformInverse (some x) (some y) a b u).scale f := by
  have key : ∀ x y : F, (if x * f < y * f ∧ 0 ≤ u ∧ u ≤ 1 then
      Ext.fin (x * f + u * (y * f - x * f)) else .nan) =
      (if x < y ∧ 0 ≤ u ∧ u ≤ 1 then Ext.fin (x + u * (y - x)) else .nan).scale f := by
    intro x y
    simp only [mul_lt_mul_iff_left₀ hf]
    split
    · simp only [Ext.scale]; congr 1; ring
    · rfl
  cases a <;> cases b <;>
    simp only [uniformInverse, uniformBounds, truncated, scaleLimit, Option.map_none,
      Option.map_some, Option.isSome_none, Option.isSome_some, Bool.or_false, Bool.or_true,
      Bool.or_self, if_true, Bool.false_eq_true, if_false, lowerInf, upperInf, Ext.scale]
  · exact key x y
  · exact key _ _

/-- The side conditions under which C19 holds for the quantile function: a positive spread
and, for a truncated lognormal variable, a positive lower limit.  For `normal` and
`normal_cov` both the original and the scaled mean have to be accepted. -/
def ScaleOk (f : F) (fam : Family) (theta : List (Entry F)) (a b : Option F) : Prop :=
  match fam, theta with
  | .normalStd, .num _ :: .num s :: _ => 0 < s
  | .normal, .num m :: .num c :: _ => 0 < c ∧ 1 / 10 ^ 40 ≤ m ∧ 1 / 10 ^ 40 ≤ m * f
  | .normalCov, .num m :: .num c :: _ => 0 < c ∧ 1 / 10 ^ 40 ≤ m ∧ 1 / 10 ^ 40 ≤ m * f
  | .lognormal, .num t :: .num s :: _ =>
    0 < t ∧ 0 < s ∧ (truncated a b = true → ∃ x, a = some x ∧ 0 < x) ∧
      (∀ y, b = some y → 0 ≤ y)
  | _, _ => True

theorem normal_cov_scale (D : StdDist F) {eps f m c u : F} (he : 0 < eps) (hf : 0 < f)
    (hc : 0 < c) (hm : 1 / 10 ^ 40 ≤ m) (hmf : 1 / 10 ^ 40 ≤ m * f) (a b : Option F)
    (h0 : 0 ≤ u) (h1 : u ≤ 1) :
    covInverse D eps (m * f) c (scaleLimit f a) (scaleLimit f b) u =
      (covInverse D eps m c a b u).map (Ext.scale f) := by
  have hpos : (0 : F) < 1 / 10 ^ 40 := by positivity
  have h1m : 0 < m := lt_of_lt_of_le hpos hm
  have h2m : 0 < m * f := lt_of_lt_of_le hpos hmf
  have e1 : covStd m c = .ok (m * c) := by
    unfold covStd; rw [abs_of_pos h1m, if_neg (not_lt.2 hm)]
  have e2 : covStd (m * f) c = .ok (m * c * f) := by
    unfold covStd; rw [abs_of_pos h2m, if_neg (not_lt.2 hmf)]; congr 1; ring
  simp only [covInverse, e1, e2]
  exact normalInverse_scale D he hf (mul_pos h1m hc) a b h0 h1

/-- C19: the quantile function of the scaled distribution is `f` times that of the original
(same exception if sampling is refused).  The name says partial because of `ScaleOk`:
truncated lognormal variables need a positive lower limit, since the smallest positive number
that stands in for a missing one is not scaled. -/
theorem C19_quantile_scaled_partial (D : StdDist F) (E : ExpLog F) (hE : E.Additive) {eps f u : F}
    (he : 0 < eps)
    (hf : 0 < f) (h0 : 0 ≤ u) (h1 : u ≤ 1) (fam : Family) (theta theta' : List (Entry F))
    (a b a' b' : Option F) (hok : ScaleOk f fam theta a b)
    (h : scaleDistribution f fam theta (some (a, b)) = .ok (theta', some (a', b'))) :
    quantile D E eps fam theta' a' b' u =
      (quantile D E eps fam theta a b u).map (fun r => r.map (Ext.scale f)) := by
  have hlim : ∀ m, scaleMode fam = .ok m → ∃ t, scaleTheta f m theta = .ok t ∧ theta' = t ∧
      a' = scaleLimit f a ∧ b' = scaleLimit f b := by
    intro m hm
    unfold scaleDistribution at h
    rw [hm] at h
    simp only at h
    cases ht : scaleTheta f m theta with
    | error e => rw [ht] at h; simp at h
    | ok t =>
      rw [ht] at h
      simp only [Option.map_some, Except.ok.injEq, Prod.mk.injEq, Option.some.injEq] at h
      exact ⟨t, rfl, h.1.symm, h.2.1.symm, h.2.2.symm⟩
  have hdet : ∀ (x : F), detInverse (x * f) (scaleLimit f a) (scaleLimit f b) =
      (detInverse x a b).map (Ext.scale f) := by
    intro x
    unfold detInverse
    rw [truncated_scale]
    split <;> rfl
  by_cases ho : fam = .other
  · subst ho; simp [scaleDistribution, scaleMode] at h
  cases fam <;> first | exact absurd rfl ho | skip
  all_goals obtain ⟨t, ht, rfl, rfl, rfl⟩ := hlim _ rfl
  all_goals unfold scaleTheta at ht
  case normal =>
    match theta, ht with
    | t0 :: t1 :: r, ht =>
      cases ht
      cases t0 <;> try rfl
      cases t1 <;> try rfl
      rename_i m c
      obtain ⟨hc, hm, hmf⟩ := hok
      simp only [quantile, Entry.scale, Option.map_some]
      rw [normal_cov_scale D he hf hc hm hmf a b h0 h1]
  case normalStd =>
    match theta, ht with
    | t0 :: t1 :: r, ht =>
      cases ht
      cases t0 <;> try rfl
      cases t1 <;> try rfl
      simp only [quantile, Entry.scale, Option.map_some]
      rw [normalInverse_scale D he hf hok a b h0 h1]
  case normalCov =>
    match theta, ht with
    | t0 :: t1 :: r, ht =>
      cases ht
      cases t0 <;> try rfl
      cases t1 <;> try rfl
      rename_i m c
      obtain ⟨hc, hm, hmf⟩ := hok
      simp only [quantile, Entry.scale, Option.map_some]
      rw [normal_cov_scale D he hf hc hm hmf a b h0 h1]
  case lognormal =>
    match theta, ht with
    | t0 :: t1 :: r, ht =>
      cases ht
      cases t0 <;> try rfl
      cases t1 <;> try rfl
      obtain ⟨ht, hs, hl, hb⟩ := hok
      simp only [quantile, Entry.scale, Option.map_some]
      rw [lognormalInverse_scale D E hE he hf ht hs a b hl hb h0 h1]
  case uniform =>
    match theta, ht with
    | t0 :: t1 :: r, ht =>
      cases ht
      cases t0 <;> try rfl
      cases t1 <;> try rfl
      simp only [quantile, Entry.scale, Option.map_some]
      rw [uniformInverse_scale hf]; rfl
  case deterministic =>
    match theta, ht with
    | t0 :: r, ht =>
      cases ht
      cases t0 <;> try rfl
      simp only [quantile, Entry.scale, Option.map_some]
      rw [hdet]
  case undefined =>
    match theta, ht with
    | t0 :: r, ht =>
      cases ht
      cases t0 <;> try rfl
      simp only [quantile, Entry.scale, Option.map_some]
      rw [hdet]
  case multilinearCDF =>
    match theta, ht with
    | t0 :: r, ht => cases ht; rfl

theorem interpFrom_scale (f : F) (pts : List (F × F)) (x : F) :
    interpFrom (pts.map (fun p => (p.1, p.2 * f))) x = interpFrom pts x * f := by
  induction pts with
  | nil => simp [interpFrom]
  | cons p pts ih =>
    cases pts with
    | nil => obtain ⟨a, b⟩ := p; simp [interpFrom]
    | cons q pts =>
      obtain ⟨a, b⟩ := p
      obtain ⟨c, d⟩ := q
      simp only [List.map_cons, interpFrom] at ih ⊢
      split
      · ring
      · exact ih

/-- C19: a first parameter that is a multilinear function, given by ordinates over abscissae `xs`: at every
point the scaled function is `f` times the original one.  This is the case for every family that can have
such a parameter. -/
theorem C19_multilinear_parameter (f : F) (fam : Family) (ys xs : List F) (rest : List (Entry F)) (theta' : List (Entry F))
    (lim lim' : Option (Option F × Option F))
    (h : scaleDistribution f fam (.vec ys :: rest) lim = .ok (theta', lim')) :
    ∃ ys' rest', theta' = .vec ys' :: rest' ∧ ys'.length = ys.length ∧ ∀ x, interp (xs.zip ys') x = interp (xs.zip ys) x * f := by
  have hhead : ∃ rest', theta' = .vec (ys.map (· * f)) :: rest' := by
    unfold scaleDistribution at h
    cases hm : scaleMode fam with
    | error e => simp [hm] at h
    | ok m =>
      rw [hm] at h
      simp only at h
      cases ht : scaleTheta f m (.vec ys :: rest) with
      | error e => rw [ht] at h; simp at h
      | ok t =>
        rw [ht] at h
        simp only [Except.ok.injEq, Prod.mk.injEq] at h
        rw [← h.1]
        cases m with
        | scaleBoth =>
          cases rest with
          | nil => simp [scaleTheta] at ht
          | cons a r => simp only [scaleTheta, Except.ok.injEq] at ht; exact ⟨_, ht.symm⟩
        | scaleKeep =>
          cases rest with
          | nil => simp [scaleTheta] at ht
          | cons a r => simp only [scaleTheta, Except.ok.injEq] at ht; exact ⟨_, ht.symm⟩
        | scaleOnly => simp only [scaleTheta, Except.ok.injEq] at ht; exact ⟨_, ht.symm⟩
  obtain ⟨rest', hr⟩ := hhead
  refine ⟨_, rest', hr, by simp, fun x => ?_⟩
  have hz : xs.zip (ys.map (· * f)) = (xs.zip ys).map (fun p => (p.1, p.2 * f)) := by
    rw [List.zip_map_right]; rfl
  rw [hz]
  cases hp : xs.zip ys with
  | nil => simp [interp]
  | cons p pts =>
    obtain ⟨a, b⟩ := p
    have := interpFrom_scale f ((a, b) :: pts) x
    simp only [List.map_cons] at this
    simp only [List.map_cons, interp]
    split
    · rfl
    · exact this

end

/-! Concrete cases of C19. -/

example : scaleDistribution (2 : ℚ) .lognormal [.vec [10, 5], .num (1/2), .nan] none =
    .ok ([.vec [20, 10], .num (1/2), .nan], none) := by decide +kernel

/-- A truncated normal distribution scaled by 2; `ScaleOk` holds. -/
example : ScaleOk (2 : ℚ) .normalStd [.num 0, .num 1] (some (-1)) (some 1) ∧
    scaleDistribution (2 : ℚ) .normalStd [.num 0, .num 1] (some (some (-1), some 1)) =
      .ok ([.num 0, .num 2], some (some (-2), some 2)) := by
  constructor
  · simp [ScaleOk]
  · decide +kernel

/-- The same for a lognormal distribution: the dispersion is kept. -/
example : ScaleOk (2 : ℚ) .lognormal [.num 3, .num (1/2)] (some 1) none ∧
    scaleDistribution (2 : ℚ) .lognormal [.num 3, .num (1/2)] (some (some 1, none)) =
      .ok ([.num 6, .num (1/2)], some (some 2, none)) := by
  constructor
  · refine ⟨by norm_num, by norm_num, fun _ => ⟨1, rfl, by norm_num⟩, by simp⟩
  · decide +kernel

/-- The hypotheses are met by the functions of the real numbers. -/
example : ScaleOk (2 : ℝ) .lognormal [.num 3, .num (1/2)] (some 1) none ∧ realExp.Additive :=
  ⟨⟨by norm_num, by norm_num, fun _ => ⟨1, rfl, by norm_num⟩, by simp⟩, realExp_additive⟩

end Verif.UQ
