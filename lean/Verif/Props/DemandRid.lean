import Verif.Model.DemandRid

/-! # Property C29: inferred residual drifts -/

namespace Verif.DemandRid

theorem ridMedian_nonneg {y pid : ℝ} (hy : 0 < y) : 0 ≤ ridMedian y pid := by
  unfold ridMedian
  simp only
  split
  · exact le_refl _
  · rename_i h
    split
    · have : y ≤ pid := le_of_not_gt h
      linarith
    · rename_i h2
      rw [if_pos (le_of_not_gt h2)]
      linarith [le_of_not_gt h2]

theorem disturb_nonneg {eps r : ℝ} (h : 0 ≤ r) : 0 ≤ disturb eps r := by
  unfold disturb; split
  · exact (Real.exp_pos _).le
  · exact h

/-- C29 for one realization. -/
theorem C29_bounds (y eps pid : ℝ) (hy : 0 < y) (hp : 0 ≤ pid) :
    0 ≤ ridValue y eps pid ∧ ridValue y eps pid ≤ pid ∧ (ridValue y eps pid = 0 ↔ pid ≤ y) := by
  refine ⟨le_min hp (disturb_nonneg (ridMedian_nonneg hy)), min_le_left _ _, ?_⟩
  constructor
  · intro h
    by_contra hgt
    have hgt := lt_of_not_ge hgt
    have hpos : 0 < ridMedian y pid := by
      unfold ridMedian
      simp only
      rw [if_neg (by linarith)]
      split
      · linarith
      · rename_i h2
        rw [if_pos (le_of_not_gt h2)]
        linarith [le_of_not_gt h2]
    have hd : 0 < disturb eps (ridMedian y pid) := by
      unfold disturb; rw [if_pos hpos]; exact Real.exp_pos _
    have : 0 < ridValue y eps pid := lt_min (hy.trans hgt) hd
    linarith
  · intro h
    have h0 : ridMedian y pid = 0 := by
      unfold ridMedian
      simp only
      rcases lt_or_eq_of_le h with h | h
      · rw [if_pos h]
      · subst h
        rw [if_neg (lt_irrefl _), if_pos (by linarith)]
        ring
    unfold ridValue disturb
    rw [h0, if_neg (lt_irrefl _)]
    exact min_eq_right hp

/-- C29: in the result every column has the label of its source column prefixed by `RID`, the
same number of realizations, and each residual drift is between zero and the peak drift of the
same realization, being zero exactly up to the yield drift. Whatever the random draws. -/
theorem C29_residual_drift (method : Str) (params : Dict Str ℝ) (y : ℝ) (hy : 0 < y)
    (hm : method = str "FEMA P58" ∨ method = str "FEMA P-58")
    (hpar : params.get? (str "yield_drift") = some y)
    (eps : Nat → Nat → ℝ) (pid : List (List Str × List (Option ℝ)))
    (hp : ∀ c ∈ pid, ∀ v ∈ c.2, ∀ x, v = some x → 0 ≤ x) :
    ∃ rid, estimateRID method params eps pid = .ok rid ∧
      List.Forall₂ (fun c r => r.1 = str "RID" :: c.1 ∧
        List.Forall₂ (fun v w => (v = none ∧ w = none) ∨
          ∃ x z, v = some x ∧ w = some z ∧ 0 ≤ z ∧ z ≤ x ∧ (z = 0 ↔ x ≤ y)) c.2 r.2) pid rid := by
  refine ⟨estimateRid y eps pid, by rw [estimateRID, if_pos hm, hpar], ?_⟩
  unfold estimateRid
  rw [List.forall₂_iff_get]
  refine ⟨by simp, ?_⟩
  intro i h1 h2
  simp only [List.get_eq_getElem, List.getElem_mapIdx]
  refine ⟨trivial, ?_⟩
  rw [List.forall₂_iff_get]
  refine ⟨by simp, ?_⟩
  intro k h3 h4
  simp only [List.get_eq_getElem, List.getElem_mapIdx]
  have hmem := hp _ (List.getElem_mem h1) _ (List.getElem_mem h3)
  cases hv : (pid[i]).2[k] with
  | none => left; exact ⟨rfl, rfl⟩
  | some x =>
    right
    obtain ⟨a, b, c⟩ := C29_bounds y (eps i k) x hy (hmem x hv)
    exact ⟨x, _, rfl, rfl, a, b, c⟩

/-- C29: between one and four yield drifts the undisturbed value is 0.3 times the excess over the
yield drift, beyond that it is the drift minus three yield drifts (FEMA P-58, equation 5-25). -/
theorem C29_median (y pid : ℝ) (hy : 0 < y) :
    ridValue y 0 pid = if pid ≤ y then min pid 0 else
      if pid < 4 * y then 3 / 10 * (pid - y) else pid - 3 * y := by
  unfold ridValue disturb
  by_cases h : pid ≤ y
  · rw [if_pos h]
    have h0 : ridMedian y pid = 0 := by
      unfold ridMedian
      simp only
      rcases lt_or_eq_of_le h with h | h
      · rw [if_pos h]
      · subst h
        rw [if_neg (lt_irrefl _), if_pos (by linarith)]
        ring
    rw [h0, if_neg (lt_irrefl _)]
  · rw [if_neg h]
    have h := lt_of_not_ge h
    by_cases h4 : pid < 4 * y
    · rw [if_pos h4]
      have : ridMedian y pid = 3 / 10 * (pid - y) := by
        unfold ridMedian; simp only
        rw [if_neg (by linarith), if_pos h4]
      have hpos : 0 < 3 / 10 * (pid - y) := by linarith
      rw [this, if_pos hpos, add_zero, Real.exp_log hpos]
      exact min_eq_right (by linarith)
    · rw [if_neg h4]
      have h4 := le_of_not_gt h4
      have : ridMedian y pid = pid - 3 * y := by
        unfold ridMedian; simp only
        rw [if_neg (by linarith), if_neg (by linarith), if_pos h4]
      have hpos : 0 < pid - 3 * y := by linarith
      rw [this, if_pos hpos, add_zero, Real.exp_log hpos]
      exact min_eq_right (by linarith)

/-- The median residual drift of FEMA P-58 equation 5-25 for a peak drift `x` and a yield drift `y`. -/
noncomputable def femaMedian (y x : ℝ) : ℝ :=
  if x ≤ y then 0 else if x < 4 * y then 3 / 10 * (x - y) else x - 3 * y

/-- C29: every realization of every column is the FEMA P-58 median times the lognormal disturbance drawn for
this realization and column, but not more than the peak drift. -/
theorem C29_value (method : Str) (params : Dict Str ℝ) (y : ℝ) (hy : 0 < y)
    (hm : method = str "FEMA P58" ∨ method = str "FEMA P-58")
    (hpar : params.get? (str "yield_drift") = some y)
    (eps : Nat → Nat → ℝ) (pid rid : List (List Str × List (Option ℝ)))
    (h : estimateRID method params eps pid = .ok rid)
    (j i : Nat) (c : List Str × List (Option ℝ)) (hc : pid[j]? = some c) (x : ℝ) (hx : c.2[i]? = some (some x)) :
    ∃ r, rid[j]? = some r ∧ r.1 = str "RID" :: c.1 ∧
      r.2[i]? = some (some (min x (femaMedian y x * Real.exp (eps j i)))) := by
  rw [estimateRID, if_pos hm, hpar] at h
  cases h
  refine ⟨(str "RID" :: c.1, c.2.mapIdx fun i v => v.map (ridValue y (eps j i))), ?_, rfl, ?_⟩
  · simp [estimateRid, List.getElem?_mapIdx, hc]
  · rw [List.getElem?_mapIdx, hx]
    simp only [Option.map_some, Option.some.injEq]
    have h0 := ridMedian_nonneg (pid := x) hy
    have hmed : ridMedian y x = femaMedian y x := by
      unfold ridMedian femaMedian
      simp only
      by_cases h1 : x ≤ y
      · rw [if_pos h1]
        rcases lt_or_eq_of_le h1 with h | h
        · rw [if_pos h]
        · subst h
          rw [if_neg (lt_irrefl _), if_pos (by linarith)]
          ring
      · rw [if_neg h1, if_neg (by linarith)]
        by_cases h2 : x < 4 * y
        · rw [if_pos h2, if_pos h2]
        · rw [if_neg h2, if_neg h2, if_pos (le_of_not_gt h2)]
    unfold ridValue disturb
    rw [← hmed]
    by_cases hp : ridMedian y x > 0
    · rw [if_pos hp, Real.exp_add, Real.exp_log hp]
    · have : ridMedian y x = 0 := le_antisymm (le_of_not_gt hp) h0
      rw [if_neg hp, this, zero_mul]

/-- C29: the yield drift is a required parameter. -/
theorem C29_yield_drift_required (method : Str) (params : Dict Str ℝ) (eps : Nat → Nat → ℝ)
    (pid : List (List Str × List (Option ℝ)))
    (hm : method = str "FEMA P58" ∨ method = str "FEMA P-58") (hp : params.get? (str "yield_drift") = none) :
    estimateRID method params eps pid = .error .keyError := by
  rw [estimateRID, if_pos hm, hp]

/-- The third realization of the second column. -/
example : ∃ r, (estimateRID (str "FEMA P58") [(str "yield_drift", 1 / 100)] (fun _ _ => 1)
      [([str "1", str "1"], [some 0]), ([str "2", str "1"], [none, some 0, some (2 / 100)])]) = .ok r ∧
    ∃ c, r[1]? = some c ∧ c.2[2]? = some (some (min (2 / 100) (femaMedian (1 / 100) (2 / 100) * Real.exp 1))) := by
  refine ⟨_, by rw [estimateRID, if_pos (.inl rfl)]; rfl, ?_⟩
  obtain ⟨r, h1, _, h3⟩ := C29_value (str "FEMA P58") [(str "yield_drift", 1 / 100)] (1 / 100) (by norm_num)
    (.inl rfl) rfl (fun _ _ => 1) [([str "1", str "1"], [some 0]), ([str "2", str "1"], [none, some 0, some (2 / 100)])]
    _ (by rw [estimateRID, if_pos (.inl rfl)]; rfl) 1 2 _ rfl (2 / 100) rfl
  exact ⟨r, h1, h3⟩

/-- C29: other methods are refused. -/
theorem C29_refused (method : Str) (params : Dict Str ℝ) (eps : Nat → Nat → ℝ)
    (pid : List (List Str × List (Option ℝ)))
    (hm : method ≠ str "FEMA P58" ∧ method ≠ str "FEMA P-58") :
    estimateRID method params eps pid = .error .valueError := by
  unfold estimateRID
  rw [if_neg (by rintro (h | h); exacts [hm.1 h, hm.2 h])]

/-- A drift in each of the three ranges and a missing one meet the hypotheses of C29. -/
example : ∃ rid, estimateRID (str "FEMA P-58") [(str "yield_drift", 1 / 100)] (fun _ _ => 1)
      [([str "1", str "1"], [some 0, some (2 / 100), some (1 / 10), none])] = .ok rid :=
  let ⟨rid, h, _⟩ := C29_residual_drift (str "FEMA P-58") [(str "yield_drift", 1 / 100)] (1 / 100)
    (by norm_num) (.inr rfl) rfl (fun _ _ => 1)
    [([str "1", str "1"], [some 0, some (2 / 100), some (1 / 10), none])]
    (by
      intro c hc v hv x hx
      simp only [List.mem_singleton] at hc
      subst hc
      simp only [List.mem_cons, List.not_mem_nil, or_false] at hv
      rcases hv with rfl | rfl | rfl | rfl <;> simp_all <;> subst hx <;> norm_num)
  ⟨rid, h⟩

/-- Without the sign condition the bound fails: a negative drift is returned as it is. -/
example : ridValue 1 0 (-1) = -1 := by
  rw [C29_median 1 (-1) (by norm_num), if_pos (by norm_num)]
  exact min_eq_left (by norm_num)

end Verif.DemandRid
