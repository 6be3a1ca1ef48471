import Verif.Lemmas.UQDist
import Verif.Lemmas.Interp
import Mathlib.Tactic.Positivity

/-! # Properties C20, C21, C23, C24: resampling, categories and multilinear curves -/

namespace Verif.UQ

/-! ### C20 -/

theorem flatten_replicate_getElem? {α : Type} (l : List α) : ∀ (k i : Nat), i < k * l.length →
    (List.replicate k l).flatten[i]? = l[i % l.length]? := by
  intro k
  induction k with
  | zero => intro i h; omega
  | succ k ih =>
    intro i h
    rw [List.replicate_succ, List.flatten_cons]
    by_cases hi : i < l.length
    · rw [List.getElem?_append_left hi, Nat.mod_eq_of_lt hi]
    · rw [List.getElem?_append_right (by omega), ih _ (by rw [Nat.succ_mul] at h; omega)]
      congr 1
      conv_rhs => rw [← Nat.sub_add_cancel (Nat.le_of_not_lt hi)]
      rw [Nat.add_mod_right]

/-- C20: realization `i` of a coupled empirical variable is raw value `i` modulo the number
of raw values, for every requested size. -/
theorem C20_replay {α : Type} (theta : List α) (size : Nat) (h : theta ≠ []) :
    ∃ s, coupledInverse theta size = .ok s ∧ s.length = size ∧
      ∀ i : Nat, i < size → s[i]? = theta[i % theta.length]? := by
  have hl : 0 < theta.length := List.length_pos_of_ne_nil h
  refine ⟨_, by rw [coupledInverse, if_neg (by omega)], ?_, ?_⟩
  · have : size < (size / theta.length + 1) * theta.length := by
      have := Nat.lt_div_mul_add hl (a := size)
      rw [Nat.succ_mul]; omega
    rw [List.length_take, List.length_flatten, List.map_replicate, List.sum_replicate_nat]
    omega
  · intro i hi
    rw [List.getElem?_take_of_lt hi]
    apply flatten_replicate_getElem?
    have := Nat.lt_div_mul_add hl (a := size)
    rw [Nat.succ_mul]; omega

/-- C20: an empty raw sample is an error. -/
theorem C20_empty {α : Type} (size : Nat) :
    coupledInverse ([] : List α) size = .error .zeroDivisionError := rfl

/-- C20: rows stay together.  For any set of columns of one raw table (all with `n` rows) row
`i` of the new table is row `i mod n` of the raw table. -/
theorem C20_rows_together {α : Type} (cols : List (List α)) (n size : Nat) (hn : 0 < n)
    (hc : ∀ c ∈ cols, c.length = n) :
    ∃ out, mapE (fun c => coupledInverse c size) cols = .ok out ∧
      ∀ i : Nat, i < size → out.map (fun c => c[i]?) = cols.map (fun c => c[i % n]?) := by
  induction cols with
  | nil => exact ⟨[], rfl, by simp⟩
  | cons c cols ih =>
    obtain ⟨out, ho, hi⟩ := ih (fun x hx => hc x (List.mem_cons_of_mem _ hx))
    have hcl := hc c (by simp)
    obtain ⟨s, hs, _, h2⟩ := C20_replay c size (by rintro rfl; simp at hcl; omega)
    refine ⟨s :: out, by simp [mapE, hs, ho], ?_⟩
    intro i hlt
    simp only [List.map_cons]
    rw [hi i hlt, h2 i hlt, hcl]

example : coupledInverse [10, 20, 30] 7 = .ok [10, 20, 30, 10, 20, 30, 10] := by decide

section
variable {F : Type} [Field F] [LinearOrder F] [IsStrictOrderedRing F]

/-! ### C21 -/

theorem cumsum_length (acc : F) (l : List F) : (cumsum acc l).length = l.length := by
  induction l generalizing acc with
  | nil => rfl
  | cons x l ih => simp [cumsum, ih]

theorem cumsum_getElem? (l : List F) : ∀ (acc : F) (j : Nat), j < l.length →
    (cumsum acc l)[j]? = some (acc + (l.take (j + 1)).sum) := by
  induction l with
  | nil => intro acc j h; simp at h
  | cons x l ih =>
    intro acc j h
    cases j with
    | zero => simp [cumsum]
    | succ j =>
      simp only [cumsum, List.getElem?_cons_succ, List.take_succ_cons, List.sum_cons]
      rw [ih (acc + x) j (by simpa using h), add_assoc]

/-- The loop acts on each entry on its own. -/
theorem multinomialLoop_single (ps : List F) : ∀ (i : Nat) (vs : List F), (∀ p ∈ ps, p ≤ 1) →
    (∀ v ∈ vs, v ≤ 1 ∨ 10 ≤ v) →
    multinomialLoop i ps vs = vs.map fun v =>
      if v ≤ 1 ∧ ps.findIdx (fun p => decide (v < p)) < ps.length then
        10 + ((i + ps.findIdx (fun p => decide (v < p)) : Nat) : F) else v := by
  induction ps with
  | nil => intro i vs _ _; simp [multinomialLoop]
  | cons p ps ih =>
    intro i vs hp hv
    simp only [multinomialLoop]
    have hp1 : p ≤ 1 := hp p (by simp)
    rw [ih (i + 1) _ (fun q hq => hp q (List.mem_cons_of_mem _ hq))]
    · rw [List.map_map]
      apply List.map_congr_left
      intro v hvm
      simp only [Function.comp]
      have hi0 : (0 : F) ≤ (i : F) := Nat.cast_nonneg i
      by_cases hlt : v < p
      · have h10 : ¬ (10 + (i : F) ≤ 1) := by linarith
        have hv1 : v ≤ 1 := by linarith
        simp [hlt, h10, hv1, List.findIdx_cons]
      · simp only [if_neg hlt]
        simp only [List.findIdx_cons, hlt, decide_false, cond_false, List.length_cons,
          Nat.add_lt_add_iff_right]
        split
        · congr 2; omega
        · rfl
    · intro v hv'
      obtain ⟨w, hw, rfl⟩ := List.mem_map.1 hv'
      have hi0 : (0 : F) ≤ (i : F) := Nat.cast_nonneg i
      split
      · right; linarith
      · exact hv w hw

/-- The sampled category is the position of the first cumulative probability above `u`. -/
theorem multinomialInverse_eq (theta values : List F)
    (hp : ∀ p ∈ (cumsum 0 theta).dropLast, p ≤ 1) (hv : ∀ v ∈ values, v ≤ 1) :
    (multinomialInverse theta values).1 =
      values.map fun v => (((cumsum 0 theta).dropLast.findIdx (fun p => decide (v < p)) : Nat) : F) := by
  unfold multinomialInverse
  simp only
  rw [multinomialLoop_single _ _ _ hp (fun v h => .inl (hv v h)), List.map_map, List.map_map]
  apply List.map_congr_left
  intro v hvm
  have hv1 := hv v hvm
  simp only [Function.comp, hv1, true_and, Nat.zero_add]
  split
  · have : ¬ (10 + (((cumsum 0 theta).dropLast.findIdx fun p => decide (v < p) : Nat) : F) ≤ 1) := by
      have : (0 : F) ≤ (((cumsum 0 theta).dropLast.findIdx fun p => decide (v < p) : Nat) : F) :=
        Nat.cast_nonneg _
      linarith
    rw [if_neg this]; ring
  · rename_i hh
    have he : (cumsum 0 theta).dropLast.findIdx (fun p => decide (v < p)) =
        (cumsum 0 theta).dropLast.length :=
      le_antisymm List.findIdx_le_length (not_lt.1 hh)
    rw [he]; ring

theorem take_sum_mono {theta : List F} (h0 : ∀ p ∈ theta, 0 ≤ p) {j k : Nat} (h : j ≤ k) :
    (theta.take j).sum ≤ (theta.take k).sum := by
  have hsub : theta.take k = theta.take j ++ (theta.take k).drop j := by
    conv_lhs => rw [← List.take_append_drop j (theta.take k), List.take_take, min_eq_left h]
  rw [hsub, List.sum_append]
  have : 0 ≤ ((theta.take k).drop j).sum := by
    apply List.sum_nonneg
    intro x hx
    exact h0 x (List.mem_of_mem_take (List.mem_of_mem_drop hx))
  linarith

/-- C21: for non-negative weights with sum at most one and `u` in `[0, 1]`, the category is `k`
exactly when `p_1 + … + p_k ≤ u` and either `k` is the last category or
`u < p_1 + … + p_(k+1)` (categories are numbered from zero).  So it is one of the categories
and every `u` has exactly one. -/
theorem C21_category (theta values : List F) (hne : theta ≠ []) (h0 : ∀ p ∈ theta, 0 ≤ p)
    (hacc : multinomialInit theta none none = .ok theta)
    (hv : ∀ v ∈ values, 0 ≤ v ∧ v ≤ 1) :
    ∃ cat : F → Nat, (multinomialInverse theta values).1 = values.map (fun v => ((cat v : Nat) : F)) ∧
      ∀ v ∈ values, ∀ k, cat v = k ↔
        k < theta.length ∧ (theta.take k).sum ≤ v ∧
          (k + 1 = theta.length ∨ v < (theta.take (k + 1)).sum) := by
  have hsum : theta.sum ≤ 1 := by
    simp only [multinomialInit, truncated, Option.isSome_none, Bool.or_self, Bool.false_eq_true,
      if_false] at hacc
    split at hacc
    · simp at hacc
    · rename_i h; exact not_lt.1 h
  have hlen : 0 < theta.length := List.length_pos_of_ne_nil hne
  set pc := (cumsum 0 theta).dropLast with hpc
  have hpl : pc.length = theta.length - 1 := by rw [hpc, List.length_dropLast, cumsum_length]
  have hget : ∀ j : Nat, j < pc.length → pc[j]? = some (theta.take (j + 1)).sum := by
    intro j hj
    rw [hpc, List.getElem?_dropLast, if_pos (by rw [cumsum_length]; omega),
      cumsum_getElem? _ _ _ (by omega), zero_add]
  have hle1 : ∀ p ∈ pc, p ≤ 1 := by
    intro p hp
    obtain ⟨j, hj, rfl⟩ := List.mem_iff_getElem.1 hp
    have := hget j hj
    rw [List.getElem?_eq_getElem hj] at this
    simp only [Option.some.injEq] at this
    rw [this]
    have h2 := take_sum_mono h0 (j := j + 1) (k := theta.length) (by omega)
    rw [List.take_length] at h2
    exact le_trans h2 hsum
  refine ⟨fun v => pc.findIdx (fun p => decide (v < p)),
    multinomialInverse_eq theta values hle1 (fun v h => (hv v h).2), ?_⟩
  intro v hvm k
  obtain ⟨hv0, hv1⟩ := hv v hvm
  simp only
  constructor
  · rintro rfl
    set k := pc.findIdx (fun p => decide (v < p)) with hk
    have hkl : k ≤ pc.length := List.findIdx_le_length
    refine ⟨by omega, ?_, ?_⟩
    · cases hk0 : k with
      | zero => simpa using hv0
      | succ j =>
        have hj : j < pc.findIdx (fun p => decide (v < p)) := by omega
        have := List.not_of_lt_findIdx hj
        have hg := hget j (by omega)
        rw [List.getElem?_eq_getElem (by omega)] at hg
        simp only [Option.some.injEq] at hg
        simp only [hg, decide_eq_false_iff_not, not_lt] at this
        exact this
    · by_cases hh : k < pc.length
      · right
        have := List.findIdx_getElem (p := fun p => decide (v < p)) (w := hh)
        have hg := hget k hh
        rw [List.getElem?_eq_getElem hh] at hg
        simp only [Option.some.injEq] at hg
        have h3 : pc[pc.findIdx (fun p => decide (v < p))] = (theta.take (k + 1)).sum := hg
        rw [h3] at this
        exact of_decide_eq_true this
      · left; omega
  · rintro ⟨hk, hs1, hs2⟩
    by_cases hkp : k < pc.length
    · have hlt : v < (theta.take (k + 1)).sum := by
        rcases hs2 with h | h
        · omega
        · exact h
      rw [List.findIdx_eq hkp]
      have hg := hget k hkp
      rw [List.getElem?_eq_getElem hkp] at hg
      simp only [Option.some.injEq] at hg
      refine ⟨by rw [hg]; simpa using hlt, ?_⟩
      intro j hj
      have hg := hget j (by omega)
      rw [List.getElem?_eq_getElem (by omega)] at hg
      simp only [Option.some.injEq] at hg
      simp only [hg, decide_eq_false_iff_not, not_lt]
      exact le_trans (take_sum_mono h0 (by omega)) hs1
    · have hkeq : k = pc.length := by omega
      subst hkeq
      apply List.findIdx_eq_length_of_false
      intro p hp
      obtain ⟨j, hj, rfl⟩ := List.mem_iff_getElem.1 hp
      have hg := hget j hj
      rw [List.getElem?_eq_getElem hj] at hg
      simp only [Option.some.injEq] at hg
      simp only [hg, decide_eq_false_iff_not, not_lt]
      exact le_trans (take_sum_mono h0 (by omega)) hs1

/-- C21: weights are refused exactly when they add up to more than one. -/
theorem C21_refused (theta : List F) :
    multinomialInit theta none none = .error .valueError ↔ 1 < theta.sum := by
  simp only [multinomialInit, truncated, Option.isSome_none, Bool.or_self, Bool.false_eq_true,
    if_false]
  split <;> simp_all

/-! ### C23 -/

theorem strictAsc_pairwise : ∀ {l : List F}, strictAsc l = true → l.Pairwise (· < ·)
  | [], _ => .nil
  | [_], _ => by simp
  | x :: y :: l, h => by
    simp only [strictAsc, Bool.and_eq_true, decide_eq_true_eq, Bool.not_eq_true',
      decide_eq_false_iff_not] at h
    obtain ⟨⟨h1, h2⟩, h3⟩ := h
    have ih := strictAsc_pairwise h3
    have hxy : x < y := by
      rcases lt_or_eq_of_le h1 with h | h
      · exact h
      · exfalso; apply h2; rw [h]; simp
    rw [List.pairwise_cons] at ih ⊢
    refine ⟨?_, List.pairwise_cons.2 ih⟩
    intro z hz
    rcases List.mem_cons.1 hz with rfl | hz
    · exact hxy
    · exact lt_trans hxy (ih.1 z hz)

theorem strictAsc_iff : ∀ (l : List F), strictAsc l = true ↔
    ∀ (i : Nat) (x y : F), l[i]? = some x → l[i + 1]? = some y → 1 / 10 ^ 8 < y - x
  | [] => by simp [strictAsc]
  | [_] => by simp [strictAsc]
  | x :: y :: l => by
    simp only [strictAsc, Bool.and_eq_true, decide_eq_true_eq, Bool.not_eq_true',
      decide_eq_false_iff_not, not_le]
    rw [strictAsc_iff (y :: l)]
    have hpos : (0 : F) < 1 / 10 ^ 8 := by positivity
    constructor
    · rintro ⟨⟨h1, h2⟩, h3⟩ i a b ha hb
      cases i with
      | zero =>
        simp at ha hb; subst ha hb
        rwa [abs_of_nonneg (by linarith)] at h2
      | succ i => exact h3 i a b (by simpa using ha) (by simpa using hb)
    · intro h
      have h0 := h 0 x y (by simp) (by simp)
      refine ⟨⟨by linarith, by rwa [abs_of_nonneg (by linarith)]⟩, ?_⟩
      intro i a b ha hb
      exact h (i + 1) a b (by simpa using ha) (by simpa using hb)

/-- C23: a curve is accepted exactly when it has a point, starts at probability 0, ends at 1
and both coordinates increase by more than the tolerance `1e-8` from point to point (which is
`np.isclose`'s notion of "different from zero"). -/
theorem C23_accepted_iff (pts : List (F × F)) :
    multilinearInit pts none none = .ok pts ↔
      (∃ p ∈ pts.head?, p.2 = 0) ∧ (∃ p ∈ pts.getLast?, p.2 = 1) ∧
      (∀ (i : Nat) (p q : F × F), pts[i]? = some p → pts[i + 1]? = some q →
        1 / 10 ^ 8 < q.1 - p.1 ∧ 1 / 10 ^ 8 < q.2 - p.2) := by
  have hf := strictAsc_iff (pts.map Prod.fst)
  have hs := strictAsc_iff (pts.map Prod.snd)
  have hx : (∀ (i : Nat) (p q : F × F), pts[i]? = some p → pts[i + 1]? = some q →
        1 / 10 ^ 8 < q.1 - p.1 ∧ 1 / 10 ^ 8 < q.2 - p.2) ↔
      strictAsc (pts.map Prod.fst) = true ∧ strictAsc (pts.map Prod.snd) = true := by
    rw [hf, hs]
    constructor
    · intro h
      constructor
      · intro i x y hx hy
        simp only [List.getElem?_map, Option.map_eq_some_iff] at hx hy
        obtain ⟨p, hp, rfl⟩ := hx
        obtain ⟨q, hq, rfl⟩ := hy
        exact (h i p q hp hq).1
      · intro i x y hx hy
        simp only [List.getElem?_map, Option.map_eq_some_iff] at hx hy
        obtain ⟨p, hp, rfl⟩ := hx
        obtain ⟨q, hq, rfl⟩ := hy
        exact (h i p q hp hq).2
    · rintro ⟨h1, h2⟩ i p q hp hq
      exact ⟨h1 i p.1 q.1 (by simp [hp]) (by simp [hq]), h2 i p.2 q.2 (by simp [hp]) (by simp [hq])⟩
  rw [hx]
  unfold multilinearInit
  simp only [truncated, Option.isSome_none, Bool.or_self, Bool.false_eq_true, if_false]
  cases hh : pts.head? with
  | none => simp
  | some p1 =>
    cases hg : pts.getLast? with
    | none => simp
    | some pn =>
      simp only [Option.mem_def, Option.some.injEq, exists_eq_left']
      by_cases e1 : p1.2 = 0
      · by_cases e2 : pn.2 = 1
        · cases e3 : strictAsc (pts.map Prod.fst) <;> cases e4 : strictAsc (pts.map Prod.snd) <;>
            simp [e1, e2]
        · simp [e1, e2]
      · simp [e1]

theorem multilinear_ok {pts : List (F × F)} (h : multilinearInit pts none none = .ok pts) :
    XAsc pts ∧ YAscS pts ∧ pts ≠ [] ∧ (∀ p ∈ pts.head?, p.2 = 0) ∧
      (∀ p ∈ pts.getLast?, p.2 = 1) := by
  unfold multilinearInit at h
  simp only [truncated, Option.isSome_none, Bool.or_self, Bool.false_eq_true, if_false] at h
  cases hh : pts.head? with
  | none => rw [hh] at h; simp at h
  | some p1 =>
    cases hg : pts.getLast? with
    | none => rw [hh, hg] at h; simp at h
    | some pn =>
      rw [hh, hg] at h
      simp only at h
      split at h
      · simp at h
      · split at h
        · simp at h
        · split at h
          · simp at h
          · split at h
            · simp at h
            · rename_i h1 h2 h3 h4
              refine ⟨strictAsc_pairwise (by simpa using h3), strictAsc_pairwise (by simpa using h4),
                by rintro rfl; simp at hh, ?_, ?_⟩
              · intro p hp; simp at hp; subst hp; exact not_not.1 h1
              · intro p hp; simp at hp; subst hp; exact not_not.1 h2

theorem swap_XAsc {pts : List (F × F)} (h : YAscS pts) : XAsc (pts.map Prod.swap) := by
  simpa [XAsc, YAscS, List.map_map, Function.comp_def] using h

theorem swap_YAscS {pts : List (F × F)} (h : XAsc pts) : YAscS (pts.map Prod.swap) := by
  simpa [XAsc, YAscS, List.map_map, Function.comp_def] using h

theorem map_swap_swap (pts : List (F × F)) : (pts.map Prod.swap).map Prod.swap = pts := by
  rw [List.map_map]
  conv_rhs => rw [← List.map_id pts]
  apply List.map_congr_left
  intro p _; rfl

/-- C23: for an accepted curve the inverse transform is monotone. -/
theorem C23_inverse_monotone {pts : List (F × F)} (h : multilinearInit pts none none = .ok pts)
    {u u' : F} (hu : u ≤ u') : multilinearInverse pts u ≤ multilinearInverse pts u' := by
  obtain ⟨hx, hy, _⟩ := multilinear_ok h
  exact interp_mono (swap_XAsc hy) (swap_YAscS hx).weak hu

/-- C23: for an accepted curve the inverse transform maps into the value range, from the first
to the last abscissa. -/
theorem C23_inverse_range {pts : List (F × F)} (h : multilinearInit pts none none = .ok pts)
    (u : F) (p q : F × F) (hp : pts.head? = some p) (hq : pts.getLast? = some q) :
    p.1 ≤ multilinearInverse pts u ∧ multilinearInverse pts u ≤ q.1 := by
  obtain ⟨hx, hy, hne, _⟩ := multilinear_ok h
  apply interp_range (by simpa using hne) (swap_XAsc hy)
  intro r hr
  obtain ⟨s, hs, rfl⟩ := List.mem_map.1 hr
  simp only [Prod.snd_swap]
  have hxs : (pts.map Prod.fst).Pairwise (· < ·) := hx
  constructor
  · match pts, hp with
    | p' :: r, hp =>
      cases hp
      rcases List.mem_cons.1 hs with rfl | hs
      · exact le_refl _
      · rw [List.map_cons, List.pairwise_cons] at hxs
        exact (hxs.1 _ (List.mem_map_of_mem hs)).le
  · obtain ⟨l, rfl⟩ : ∃ l, pts = l ++ [q] := List.getLast?_eq_some_iff.1 hq
    rw [List.map_append, List.pairwise_append] at hxs
    rcases List.mem_append.1 hs with hs | hs
    · exact (hxs.2.2 _ (List.mem_map_of_mem hs) q.1 (by simp)).le
    · simp at hs; rw [hs]

/-- C23: on `[0, 1]` the curve undoes the inverse transform: `cdf(inverse_transform(u)) = u`. -/
theorem C23_cdf_inverse {pts : List (F × F)} (h : multilinearInit pts none none = .ok pts)
    {u : F} (h0 : 0 ≤ u) (h1 : u ≤ 1) : multilinearCdf pts (multilinearInverse pts u) = u := by
  obtain ⟨hx, hy, hne, hf, hl⟩ := multilinear_ok h
  obtain ⟨p, hp⟩ : ∃ p, pts.head? = some p := by
    cases pts with
    | nil => exact absurd rfl hne
    | cons p r => exact ⟨p, rfl⟩
  obtain ⟨q, hq⟩ : ∃ q, pts.getLast? = some q := ⟨_, List.getLast?_eq_some_getLast hne⟩
  obtain ⟨r1, r2⟩ := C23_inverse_range h u p q hp hq
  unfold multilinearCdf
  rw [hp, hq]
  simp only
  rw [if_neg (not_lt.2 r1), if_neg (not_lt.2 r2)]
  have := interp_inverse (pts := pts.map Prod.swap) (x := u) (swap_XAsc hy) (swap_YAscS hx)
    (by
      intro r hr
      simp only [List.head?_map, hp, Option.map_some, Option.mem_def, Option.some.injEq] at hr
      subst hr
      simpa [hf p hp] using h0)
    (by
      intro r hr
      simp only [List.getLast?_map, hq, Option.map_some, Option.mem_def, Option.some.injEq] at hr
      subst hr
      simpa [hl q hq] using h1)
    (by simpa using hne)
  rw [map_swap_swap] at this
  exact this

/-- C23: and the inverse transform undoes the curve inside the value range. -/
theorem C23_inverse_cdf {pts : List (F × F)} (h : multilinearInit pts none none = .ok pts)
    {x : F} (p q : F × F) (hp : pts.head? = some p) (hq : pts.getLast? = some q)
    (h0 : p.1 ≤ x) (h1 : x ≤ q.1) : multilinearInverse pts (multilinearCdf pts x) = x := by
  obtain ⟨hx, hy, hne, _, _⟩ := multilinear_ok h
  unfold multilinearCdf
  rw [hp, hq]
  simp only
  rw [if_neg (not_lt.2 h0), if_neg (not_lt.2 h1)]
  exact interp_inverse hx hy (by intro r hr; rw [hp] at hr; cases hr; exact h0)
    (by intro r hr; rw [hq] at hr; cases hr; exact h1) hne

end

example : multilinearInit [((1 : ℚ), 0), (2, 1/4), (5, 1)] none none =
    .ok [((1 : ℚ), 0), (2, 1/4), (5, 1)] := by decide +kernel

example : multilinearInverse [((1 : ℚ), 0), (2, 1/4), (5, 1)] (5/8) = 7/2 := by
  simp only [multilinearInverse, List.map, Prod.swap, interp, interpFrom]; norm_num

example : (multinomialInverse [1/2, 1/4, (1/4 : ℚ)] [0, 1/4, 1/2, 3/4, 1]).1 = [0, 0, 1, 2, 2] := by
  decide +kernel

/-! ### C24 -/

section
variable {F : Type} [Field F] [LinearOrder F] [IsStrictOrderedRing F] [FloorRing F]

/-- C24: for a non-empty raw sample and uniform values in `[0, 1)` the `i`-th result is raw
point `j` exactly when `u_i` lies in `[j/n, (j+1)/n)`; so each point owns an equal share and
every result is a raw point. -/
theorem C24_shares {α : Type} (theta : List α) (values : List F) (hne : theta ≠ [])
    (hv : ∀ v ∈ values, 0 ≤ v ∧ v < 1) :
    ∃ idx : F → Nat, empiricalInverse theta values = .ok (values.filterMap fun v => theta[idx v]?) ∧
      (values.filterMap fun v => theta[idx v]?).length = values.length ∧
      ∀ v ∈ values, ∀ j : Nat, idx v = j ↔
        (j : F) / theta.length ≤ v ∧ v < ((j : F) + 1) / theta.length := by
  have hl : 0 < theta.length := List.length_pos_of_ne_nil hne
  have hlF : (0 : F) < theta.length := Nat.cast_pos.2 hl
  have hidx : ∀ v ∈ values, ∀ j : Nat, ⌊v * (theta.length : F)⌋.toNat = j ↔
        (j : F) / theta.length ≤ v ∧ v < ((j : F) + 1) / theta.length := by
    intro v hvm j
    obtain ⟨h0, _⟩ := hv v hvm
    have hn : 0 ≤ ⌊v * (theta.length : F)⌋ := Int.floor_nonneg.2 (mul_nonneg h0 hlF.le)
    rw [div_le_iff₀ hlF, lt_div_iff₀ hlF]
    have : ⌊v * (theta.length : F)⌋.toNat = j ↔ ⌊v * (theta.length : F)⌋ = (j : Int) := by omega
    rw [this, Int.floor_eq_iff]
    simp
  have hlt : ∀ v ∈ values, ⌊v * (theta.length : F)⌋.toNat < theta.length := by
    intro v hvm
    obtain ⟨_, h1⟩ := hv v hvm
    have := ((hidx v hvm _).1 rfl).1
    rw [div_le_iff₀ hlF] at this
    have h2 : v * (theta.length : F) < theta.length := by
      have := mul_lt_mul_of_pos_right h1 hlF
      linarith
    exact_mod_cast lt_of_le_of_lt this h2
  have key : ∀ vs : List F, (∀ v ∈ vs, v ∈ values) →
      empiricalInverse theta vs = .ok (vs.filterMap fun v => theta[⌊v * (theta.length : F)⌋.toNat]?) ∧
      (vs.filterMap fun v => theta[⌊v * (theta.length : F)⌋.toNat]?).length = vs.length := by
    intro vs
    induction vs with
    | nil => intro _; exact ⟨rfl, rfl⟩
    | cons v vs ih =>
      intro hm
      obtain ⟨i1, i2⟩ := ih (fun x hx => hm x (List.mem_cons_of_mem _ hx))
      have hvm := hm v (by simp)
      have hn : 0 ≤ v * (theta.length : F) := mul_nonneg (hv v hvm).1 hlF.le
      have hg := List.getElem?_eq_getElem (hlt v hvm)
      have e : pyIndex theta (pyTrunc (v * (theta.length : F))) =
          .ok (theta[⌊v * (theta.length : F)⌋.toNat]'(hlt v hvm)) := by
        unfold pyIndex pyTrunc
        rw [if_pos hn, if_pos (Int.floor_nonneg.2 hn), hg]
      constructor
      · unfold empiricalInverse at i1 ⊢
        simp only [mapE, e, i1, List.filterMap_cons, hg]
      · simp [List.filterMap_cons, hg, i2]
  exact ⟨fun v => ⌊v * (theta.length : F)⌋.toNat, (key values (fun _ h => h)).1,
    (key values (fun _ h => h)).2, hidx⟩

/-- C24: the value one is rejected with `IndexError`, so it never yields a wrong point. -/
theorem C24_one_rejected {α : Type} (theta : List α) :
    empiricalInverse theta [(1 : F)] = .error .indexError := by
  simp [empiricalInverse, mapE, pyIndex, pyTrunc]

end

example : empiricalInverse [10, 20, 30] [(0 : ℚ), 1/3, 99/100] = .ok [10, 20, 30] := by decide +kernel

end Verif.UQ
