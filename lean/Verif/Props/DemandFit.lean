import Verif.Model.DemandFit
import Verif.Props.Fit
import Verif.Props.DemandCalib

/-!
# C104: Parameters of calibrated demands

Without limits, each demand of a calibrated demand model has the parameters fitted to its own samples; the additional uncertainty of a demand is added
to its variance.  Lognormal demands and demands of the family `normal_std` behave like this; normal demands do not.
-/

namespace Verif.DemandFit

open Verif.UQ (Ext)
open Verif.DemandCalib
open Verif.Fit (Fam Limits Solver fit average spread correlation inSpace IsSvd noLimits C103_moments C103_correlation)
open Verif.FileIO (Label)

/-! ## Specification -/

/-- The samples of the demand in a column. -/
noncomputable def samples (rows : List (List ℚ)) (i : ℕ) (j : Fin rows.length) : ℝ := ((rows[j][i]?).getD 0 : ℚ)

/-- The additional uncertainty, zero if none is given. -/
def Added (a : PyFloat) (x : ℝ) : Prop := (a = .nan ∧ x = 0) ∨ ∃ q : ℚ, a = .fin q ∧ x = q

/-- No demand has limits. -/
def NoLimits (cal : List (Label × CalRow)) : Prop := ∀ p ∈ cal, p.2.censorLower = .nan ∧ p.2.censorUpper = .nan ∧
  p.2.truncateLower = .nan ∧ p.2.truncateUpper = .nan

/-- Every realization has a value of each demand; there is at least one. -/
def Complete (cal : List (Label × CalRow)) (rows : List (List ℚ)) : Prop := rows ≠ [] ∧ ∀ r ∈ rows, r.length = cal.length

/-- Families are known, and the samples of lognormal demands are positive. -/
def Suitable (cal : List (Label × CalRow)) (rows : List (List ℚ)) : Prop := ∀ (i : ℕ) l r, cal[i]? = some (l, r) →
  r.family ∈ [str "normal", str "normal_std", str "normal_cov", str "lognormal", str "empirical"] ∧
  (r.family = str "lognormal" → ∀ j, 0 < samples rows i j)

/-- The sample as it is stored. -/
def stored (rows : List (List ℚ)) : List (List (Option ℚ)) := rows.map fun r => r.map some

/-! ## Positions -/

theorem pick_position (cal : List (Label × CalRow)) (hnd : (cal.map Prod.fst).Nodup) {i : ℕ} {l : Label} {r : CalRow}
    (hi : cal[i]? = some (l, r)) (hr : r.family ≠ str "empirical") :
    ∃ h : ((fitted cal).map Prod.fst).idxOf l < (fitted cal).length,
      (fitted cal)[((fitted cal).map Prod.fst).idxOf l] = (l, r) ∧
      ∀ row : List (Option ℚ), row.length = cal.length →
        (pick ((cal.map Prod.snd).map fun r => !decide (r.family = str "empirical")) row)[((fitted cal).map Prod.fst).idxOf l]? = row[i]? := by
  have hmem : (l, r) ∈ fitted cal := by
    unfold fitted
    rw [List.mem_filter]
    exact ⟨List.mem_of_getElem? hi, by simpa using hr⟩
  have hlt : ((fitted cal).map Prod.fst).idxOf l < (fitted cal).length := by
    rw [← List.length_map (f := Prod.fst)]
    exact List.idxOf_lt_length_iff.2 (List.mem_map.2 ⟨_, hmem, rfl⟩)
  set k := ((fitted cal).map Prod.fst).idxOf l with hk
  have hlab : ((fitted cal)[k]).1 = l := by
    have hlt' : k < ((fitted cal).map Prod.fst).length := by rw [List.length_map]; exact hlt
    have := List.getElem_idxOf (x := l) (xs := (fitted cal).map Prod.fst) hlt'
    rw [List.getElem_map] at this
    exact this
  have huniq : ∀ (i' : ℕ) p, cal[i']? = some p → p.1 = l → i' = i := by
    intro i' p hp hpl
    obtain ⟨h1, h2⟩ := List.getElem?_eq_some_iff.1 hp
    obtain ⟨h3, h4⟩ := List.getElem?_eq_some_iff.1 hi
    refine (List.Nodup.getElem_inj_iff hnd (hi := by simpa using h1) (hj := by simpa using h3)).1 ?_
    rw [List.getElem_map, List.getElem_map, h2, h4, hpl]
  have hkcal : (fitted cal)[k] ∈ cal := (List.mem_filter.1 (List.getElem_mem hlt)).1
  refine ⟨hlt, ?_, ?_⟩
  · obtain ⟨i', hi'⟩ := List.getElem?_of_mem hkcal
    have := huniq i' _ hi' hlab
    rw [this, hi, Option.some.injEq] at hi'
    exact hi'.symm
  · intro row hrow
    set z := (cal.zip row).filter fun p => !decide (p.1.2.family = str "empirical") with hz
    have hz1 : z.map Prod.fst = fitted cal := by
      have e : (cal.zip row).map Prod.fst = cal := List.map_fst_zip hrow.ge
      calc z.map Prod.fst = ((cal.zip row).map Prod.fst).filter (fun r => !decide (r.2.family = str "empirical")) := by
            rw [List.filter_map]; rfl
        _ = _ := by
            rw [e]
            unfold fitted
            refine List.filter_congr fun p _ => ?_
            simp
    have hz2 : z.map Prod.snd = pick ((cal.map Prod.snd).map fun r => !decide (r.family = str "empirical")) row := by
      unfold pick
      rw [List.map_map]
      have e : row.zip (cal.map ((fun r : CalRow => !decide (r.family = str "empirical")) ∘ Prod.snd)) =
          (cal.zip row).map fun p => (p.2, !decide (p.1.2.family = str "empirical")) := by
        rw [List.zip_map_right, ← List.zip_swap, List.map_map]
        rfl
      rw [e, List.filter_map, List.map_map]
      rfl
    have hkz : k < z.length := by
      have := congrArg List.length hz1
      rw [List.length_map] at this
      omega
    have h1 : (z[k]).1 = (fitted cal)[k] := by
      have : (z.map Prod.fst)[k]? = (fitted cal)[k]? := by rw [hz1]
      rw [List.getElem?_map, List.getElem?_eq_getElem hkz, List.getElem?_eq_getElem hlt] at this
      simpa using this
    have hzm : z[k] ∈ cal.zip row := (List.mem_filter.1 (List.getElem_mem hkz)).1
    obtain ⟨i', hi'⟩ := List.getElem?_of_mem hzm
    have hlen : i' < (cal.zip row).length := (List.getElem?_eq_some_iff.1 hi').1
    rw [List.length_zip] at hlen
    have hc : cal[i']? = some (z[k]).1 := by
      rw [List.getElem?_eq_getElem (by omega)]
      have := (List.getElem?_eq_some_iff.1 hi').2
      rw [List.getElem_zip] at this
      rw [← this]
    have hrw : row[i']? = some (z[k]).2 := by
      rw [List.getElem?_eq_getElem (by omega)]
      have := (List.getElem?_eq_some_iff.1 hi').2
      rw [List.getElem_zip] at this
      rw [← this]
    have := huniq i' _ hc (by rw [h1]; exact hlab)
    rw [← hz2, List.getElem?_map, List.getElem?_eq_getElem hkz, ← this, hrw]
    rfl

theorem inside_nan (c : Option ℚ) : Inside .nan c .nan := ⟨Or.inl rfl, Or.inl rfl⟩

/-- Without limits all realizations are used. -/
theorem fitData_noLimits (cal : List (Label × CalRow)) (hl : NoLimits cal) (rows : List (List (Option ℚ))) :
    fitData (cal.map Prod.snd) rows = ⟨rows.map (pick ((cal.map Prod.snd).map fun r => !decide (r.family = str "empirical"))), 0,
      rows.map (pick ((cal.map Prod.snd).map fun r => decide (r.family = str "empirical")))⟩ := by
  have h1 : ((cal.map Prod.snd).map (·.censorUpper) ++ (cal.map Prod.snd).map (·.censorLower)).all (· = .nan) = true := by
    rw [List.all_eq_true]
    intro x hx
    rw [List.mem_append, List.map_map, List.map_map, List.mem_map, List.mem_map] at hx
    rcases hx with ⟨p, hp, rfl⟩ | ⟨p, hp, rfl⟩
    · simpa using (hl p hp).2.1
    · simpa using (hl p hp).1
  have h2 : ((cal.map Prod.snd).map (·.truncateUpper) ++ (cal.map Prod.snd).map (·.truncateLower)).all (· = .nan) = true := by
    rw [List.all_eq_true]
    intro x hx
    rw [List.mem_append, List.map_map, List.map_map, List.mem_map, List.mem_map] at hx
    rcases hx with ⟨p, hp, rfl⟩ | ⟨p, hp, rfl⟩
    · simpa using (hl p hp).2.2.2
    · simpa using (hl p hp).2.2.1
  unfold fitData censor truncate
  simp only [h1, h2, if_true]
  rw [List.map_map (f := fun r : CalRow => decide (r.family = str "empirical"))]
  rfl

theorem famOf_ne_other {s : Str} (h : s ∈ [str "normal", str "normal_std", str "normal_cov", str "lognormal", str "empirical"])
    (he : s ≠ str "empirical") : famOf s ≠ .other := by
  simp only [List.mem_cons, List.not_mem_nil, or_false] at h
  rcases h with rfl | rfl | rfl | rfl | rfl
  · decide
  · decide
  · decide
  · decide
  · exact absurd rfl he

theorem famOf_lognormal {s : Str} : famOf s = .lognormal ↔ s = str "lognormal" := by
  unfold famOf
  constructor
  · intro h
    split at h
    · simp at h
    · split at h
      · simp at h
      · split at h
        · simp at h
        · split at h
          · assumption
          · simp at h
  · rintro rfl
    decide

/-- The call of the fit. -/
theorem fitCall_noLimits (cal : List (Label × CalRow)) (hnd : (cal.map Prod.fst).Nodup) (hl : NoLimits cal) (S : Solver (fitted cal).length)
    (rows : List (List ℚ)) (hc : Complete cal rows) :
    ∃ (x : Fin (fitted cal).length → Fin rows.length → ℝ),
      fitCall cal S (fitData (cal.map Prod.snd) (stored rows)) =
        fit S (fun i => famOf ((fitted cal)[i]).2.family) (fun _ => noLimits) (fun _ => noLimits) 0 false x ∧
      ∀ (i : ℕ) l r, cal[i]? = some (l, r) → r.family ≠ str "empirical" →
        ∃ k : Fin (fitted cal).length, (k : ℕ) = ((fitted cal).map Prod.fst).idxOf l ∧ (fitted cal)[k] = (l, r) ∧ x k = samples rows i := by
  set keep := (cal.map Prod.snd).map fun r => !decide (r.family = str "empirical") with hkeep
  refine ⟨fun k j => cell ((stored rows).map (pick keep)) k j, ?_, ?_⟩
  · rw [fitData_noLimits cal hl, ← hkeep]
    unfold fitCall
    rw [if_neg (by
      rintro ⟨r, hr, hn⟩
      simp only [stored, List.map_map, List.mem_map] at hr
      obtain ⟨q, -, rfl⟩ := hr
      simp only [Function.comp, pick, List.mem_map, List.mem_filter] at hn
      obtain ⟨p, ⟨hp, -⟩, hpn⟩ := hn
      have := List.of_mem_zip hp
      rw [hpn] at this
      simp at this)]
    have hlim : ∀ i : Fin (fitted cal).length, ((fitted cal)[i]).2.censorLower = .nan ∧ ((fitted cal)[i]).2.censorUpper = .nan ∧
        ((fitted cal)[i]).2.truncateLower = .nan ∧ ((fitted cal)[i]).2.truncateUpper = .nan :=
      fun i => hl _ (List.mem_filter.1 (List.getElem_mem i.2)).1
    have e1 : (fun i : Fin (fitted cal).length => (limitOf ((fitted cal)[i]).2.truncateLower, limitOf ((fitted cal)[i]).2.truncateUpper)) = fun _ => noLimits := by
      funext i; rw [(hlim i).2.2.1, (hlim i).2.2.2]; rfl
    have e2 : (fun i : Fin (fitted cal).length => (limitOf ((fitted cal)[i]).2.censorLower, limitOf ((fitted cal)[i]).2.censorUpper)) = fun _ => noLimits := by
      funext i; rw [(hlim i).1, (hlim i).2.1]; rfl
    simp only [e1, e2]
    have hlen : ((stored rows).map (pick keep)).length = rows.length := by simp [stored]
    have : ∀ m (_ : m = rows.length), fit (n := m) S (fun i => famOf ((fitted cal)[i]).2.family) (fun _ => noLimits) (fun _ => noLimits) 0 false
        (fun i j => cell ((stored rows).map (pick keep)) i j) =
        fit (n := rows.length) S (fun i => famOf ((fitted cal)[i]).2.family) (fun _ => noLimits) (fun _ => noLimits) 0 false
        (fun i j => cell ((stored rows).map (pick keep)) i j) := by
      rintro m rfl
      rfl
    exact this _ hlen
  · intro i l r hi hr
    obtain ⟨h, h1, h2⟩ := pick_position cal hnd hi hr
    refine ⟨⟨_, h⟩, rfl, h1, ?_⟩
    funext j
    simp only [cell, samples]
    have hj : ((stored rows).map (pick keep))[(j : ℕ)]? = some (pick keep ((rows[j]).map some)) := by
      rw [List.getElem?_map, stored, List.getElem?_map, List.getElem?_eq_getElem j.2]
      rfl
    rw [hj, Option.getD_some, h2 _ (by rw [List.length_map]; exact hc.2 _ (List.getElem_mem _)), List.getElem?_map]
    cases hq : (rows[j])[i]? <;> simp

theorem suitable_fit {cal : List (Label × CalRow)} {rows : List (List ℚ)} (hs : Suitable cal rows)
    {x : Fin (fitted cal).length → Fin rows.length → ℝ} (hnd : (cal.map Prod.fst).Nodup)
    (hx : ∀ (i : ℕ) l r, cal[i]? = some (l, r) → r.family ≠ str "empirical" →
        ∃ k : Fin (fitted cal).length, (k : ℕ) = ((fitted cal).map Prod.fst).idxOf l ∧ (fitted cal)[k] = (l, r) ∧ x k = samples rows i) :
    (∀ k : Fin (fitted cal).length, famOf ((fitted cal)[k]).2.family ≠ .other) ∧
    ∀ k : Fin (fitted cal).length, famOf ((fitted cal)[k]).2.family = .lognormal → ∀ j, 0 < x k j := by
  have key : ∀ k : Fin (fitted cal).length, ∃ (i : ℕ) (l : Label) (r : CalRow), cal[i]? = some (l, r) ∧ (fitted cal)[k] = (l, r) ∧ r.family ≠ str "empirical" ∧ x k = samples rows i := by
    intro k
    have hm := List.mem_filter.1 (List.getElem_mem (l := fitted cal) k.2)
    obtain ⟨i, hi⟩ := List.getElem?_of_mem hm.1
    have hr : ((fitted cal)[(k : ℕ)]).2.family ≠ str "empirical" := by simpa using hm.2
    obtain ⟨k', hk1, hk2, hk3⟩ := hx i ((fitted cal)[(k : ℕ)]).1 ((fitted cal)[(k : ℕ)]).2 hi hr
    have hkk : k' = k := by
      apply Fin.ext
      have hnd' : ((fitted cal).map Prod.fst).Nodup := (hnd.sublist ((List.filter_sublist (l := cal)).map Prod.fst))
      have hlt : (k : ℕ) < ((fitted cal).map Prod.fst).length := by rw [List.length_map]; exact k.2
      have := List.Nodup.idxOf_getElem hnd' k hlt
      rw [List.getElem_map] at this
      rw [hk1, this]
    exact ⟨i, _, _, hi, rfl, hr, by rw [← hkk]; exact hk3⟩
  constructor
  · intro k
    obtain ⟨i, l, r, hi, hk, hr, -⟩ := key k
    rw [hk]
    exact famOf_ne_other (hs i l r hi).1 hr
  · intro k hfam j
    obtain ⟨i, l, r, hi, hk, hr, hxk⟩ := key k
    rw [hk] at hfam
    rw [hxk]
    exact (hs i l r hi).2 (famOf_lognormal.1 hfam) j

theorem spreadOf_fin {big : ℝ} {cal : List (Label × CalRow)} {l : Label} {r : CalRow} (hm : (l, r) ∈ cal) {a : ℝ} (ha : Added r.sigIncrease a) {s : ℝ} (hs : 0 ≤ s) :
    spreadOf big cal r.sigIncrease (.fin s) = .fin (Real.sqrt (s ^ 2 + a ^ 2)) := by
  unfold spreadOf
  split
  · rename_i hall
    rw [List.all_eq_true] at hall
    have hn : r.sigIncrease = .nan := by simpa using hall _ hm
    rcases ha with ⟨-, rfl⟩ | ⟨q, hq, -⟩
    · simp [Real.sqrt_sq hs]
    · rw [hn] at hq; cases hq
  · rcases ha with ⟨hn, rfl⟩ | ⟨q, hq, rfl⟩
    · rw [hn]; rfl
    · rw [hq]; rfl

/-! ## C104 -/

/-- **C104 (parameters).**  Without limits, the calibration succeeds and has one row for each demand, in their order, with its family.  A demand kept
empirical has no parameters.  A lognormal demand has the exponential of the average logarithm of its samples and a logarithmic standard deviation whose square is the
logarithmic variance of the samples plus the square of its additional uncertainty; a demand of the family `normal_std` has the average and a standard deviation whose square
is the variance plus the square of the additional uncertainty.  For a demand of the family `normal` it is the coefficient of variation that is increased in this way.
(Samples of a demand are not all equal, averages of normal demands not zero.)  Missing: the variance of normal demands (`C104_normal_variance`), limits (C103). -/
theorem C104_parameters_partial (big : ℝ) (cal : List (Label × CalRow)) (hnd : (cal.map Prod.fst).Nodup) (hl : NoLimits cal)
    (S : Solver (fitted cal).length) (heps : 0 < S.eps) (hsvd : IsSvd S.svd) (rows : List (List ℚ)) (hc : Complete cal rows) (hs : Suitable cal rows) :
    ∃ out, calibrate big cal S (stored rows) = .ok out ∧ out.marginals.length = cal.length ∧
      ∀ (i : ℕ) l r, cal[i]? = some (l, r) → ∃ m, out.marginals[i]? = some (l, m) ∧ m.family = r.family ∧
        (r.family = str "empirical" → m.theta0 = .nan ∧ m.theta1 = .nan) ∧
        ∀ a, Added r.sigIncrease a →
          (r.family = str "lognormal" → spread (fun j => Real.log (samples rows i j)) ≠ 0 →
            m.theta0 = .fin (Real.exp (average fun j => Real.log (samples rows i j))) ∧
            ∃ β, m.theta1 = .fin β ∧ 0 ≤ β ∧ β ^ 2 = spread (fun j => Real.log (samples rows i j)) ^ 2 + a ^ 2) ∧
          (r.family = str "normal_std" → spread (samples rows i) ≠ 0 →
            m.theta0 = .fin (average (samples rows i)) ∧ ∃ σ, m.theta1 = .fin σ ∧ 0 ≤ σ ∧ σ ^ 2 = spread (samples rows i) ^ 2 + a ^ 2) ∧
          (r.family = str "normal" ∨ r.family = str "normal_cov" → spread (samples rows i) ≠ 0 → 1 / 10 ^ 40 ≤ |average (samples rows i)| →
            m.theta0 = .fin (average (samples rows i)) ∧ ∃ c, m.theta1 = .fin c ∧ 0 ≤ c ∧
              c ^ 2 = (spread (samples rows i) / average (samples rows i)) ^ 2 + a ^ 2) := by
  obtain ⟨x, hfit, hx⟩ := fitCall_noLimits cal hnd hl S rows hc
  obtain ⟨hf1, hf2⟩ := suitable_fit hs hnd hx
  obtain ⟨θ, ρ, hθ, hval⟩ := C103_moments S heps hsvd (List.length_pos_of_ne_nil hc.1) _ hf1 x hf2 0 false
  unfold calibrate
  rw [hfit, hθ]
  refine ⟨_, rfl, by simp, ?_⟩
  intro i l r hi
  refine ⟨_, by rw [List.getElem?_map, hi]; rfl, rfl, ?_, ?_⟩
  · intro he
    have hno : ¬ ((fitted cal).map Prod.fst).idxOf l < (fitted cal).length := by
      intro h
      rw [← List.length_map (f := Prod.fst), List.idxOf_lt_length_iff, List.mem_map] at h
      obtain ⟨p, hp, hpl⟩ := h
      obtain ⟨hp1, hp2⟩ := List.mem_filter.1 hp
      have : p = (l, r) := List.inj_on_of_nodup_map hnd hp1 (List.mem_of_getElem? hi) hpl
      rw [this] at hp2
      simp [he] at hp2
    have : thetaOf cal θ l = (.nan, .nan) := by
      unfold thetaOf
      rw [dif_neg hno]
    rw [this]
    refine ⟨rfl, ?_⟩
    simp only [spreadOf, addVariance]
    split <;> rfl
  · intro a ha
    have htheta : r.family ≠ str "empirical" → ∃ k : Fin (fitted cal).length, (fitted cal)[k] = (l, r) ∧ x k = samples rows i ∧
        thetaOf cal θ l = (.fin (θ k).1, (θ k).2) := by
      intro hr
      obtain ⟨k, hk1, hk2, hk3⟩ := hx i l r hi hr
      refine ⟨k, hk2, hk3, ?_⟩
      unfold thetaOf
      have hlt : ((fitted cal).map Prod.fst).idxOf l < (fitted cal).length := hk1 ▸ k.2
      rw [dif_pos hlt]
      have : (⟨_, hlt⟩ : Fin (fitted cal).length) = k := Fin.ext hk1.symm
      rw [this]
    have hm := List.mem_of_getElem? hi
    have hsq : ∀ s : ℝ, 0 ≤ s ^ 2 + a ^ 2 := fun s => by positivity
    refine ⟨?_, ?_, ?_⟩
    · intro hf hsp
      obtain ⟨k, hk, hxk, ht⟩ := htheta (by rw [hf]; decide)
      have hfam : famOf ((fitted cal)[k]).2.family = .lognormal := by rw [hk]; exact famOf_lognormal.2 hf
      have hsp' : spread (inSpace (famOf ((fitted cal)[k]).2.family) (x k)) ≠ 0 := by
        rw [hfam, Fit.inSpace_log, hxk]; exact hsp
      have hv := (hval k hsp').1 hfam
      rw [ht, hv, hxk]
      exact ⟨rfl, _, spreadOf_fin hm ha (Fit.spread_nonneg _), Real.sqrt_nonneg _, Real.sq_sqrt (hsq _)⟩
    · intro hf hsp
      obtain ⟨k, hk, hxk, ht⟩ := htheta (by rw [hf]; decide)
      have hfam : famOf ((fitted cal)[k]).2.family = .normalStd := by
        rw [hk]
        show famOf r.family = _
        rw [hf]
        decide
      have hsp' : spread (inSpace (famOf ((fitted cal)[k]).2.family) (x k)) ≠ 0 := by
        rw [hfam, Fit.inSpace_normal (by simp), hxk]; exact hsp
      have hv := (hval k hsp').2.1 hfam
      rw [ht, hv, hxk]
      exact ⟨rfl, _, spreadOf_fin hm ha (Fit.spread_nonneg _), Real.sqrt_nonneg _, Real.sq_sqrt (hsq _)⟩
    · intro hf hsp havg
      obtain ⟨k, hk, hxk, ht⟩ := htheta (by rcases hf with h | h <;> rw [h] <;> decide)
      have hfam : famOf ((fitted cal)[k]).2.family = .normal ∨ famOf ((fitted cal)[k]).2.family = .normalCov := by
        rw [hk]
        show famOf r.family = _ ∨ famOf r.family = _
        rcases hf with h | h <;> rw [h] <;> decide
      have hsp' : spread (inSpace (famOf ((fitted cal)[k]).2.family) (x k)) ≠ 0 := by
        rw [Fit.inSpace_normal (by rcases hfam with h | h <;> rw [h] <;> simp), hxk]; exact hsp
      obtain ⟨hv1, hv2, -⟩ := (hval k hsp').2.2 hfam
      rw [hxk] at hv1 hv2
      rw [ht, hv1, hv2 havg]
      refine ⟨rfl, _, spreadOf_fin hm ha (div_nonneg (Fit.spread_nonneg _) (abs_nonneg _)), Real.sqrt_nonneg _, ?_⟩
      rw [Real.sq_sqrt (hsq _), div_pow, div_pow, sq_abs]

/-- **C104 (correlations).**  Without limits, the correlation of two demands that are not empirical, in the matrix with the labels of these demands, is the correlation
coefficient of their samples (of their logarithms for lognormal demands). -/
theorem C104_correlations (big : ℝ) (cal : List (Label × CalRow)) (hnd : (cal.map Prod.fst).Nodup) (hl : NoLimits cal)
    (S : Solver (fitted cal).length) (heps : 0 < S.eps) (hsvd : IsSvd S.svd) (rows : List (List ℚ)) (hc : Complete cal rows) (hs : Suitable cal rows) :
    ∃ out, calibrate big cal S (stored rows) = .ok out ∧ out.labels.Nodup ∧ out.correlation.PosSemidef ∧
      ∀ (i : ℕ) l r (i' : ℕ) l' r', cal[i]? = some (l, r) → cal[i']? = some (l', r') → r.family ≠ str "empirical" → r'.family ≠ str "empirical" →
        spread (inSpace (famOf r.family) (samples rows i)) ≠ 0 → spread (inSpace (famOf r'.family) (samples rows i')) ≠ 0 →
        ∃ k k' : Fin (fitted cal).length, out.labels[(k : ℕ)]? = some l ∧ out.labels[(k' : ℕ)]? = some l' ∧
          out.correlation k k' = correlation (inSpace (famOf r.family) (samples rows i)) (inSpace (famOf r'.family) (samples rows i')) := by
  obtain ⟨x, hfit, hx⟩ := fitCall_noLimits cal hnd hl S rows hc
  obtain ⟨hf1, hf2⟩ := suitable_fit hs hnd hx
  obtain ⟨θ, ρ, hθ, hpsd, -, -, hval, -⟩ := C103_correlation S heps hsvd (List.length_pos_of_ne_nil hc.1) _ hf1 x hf2 0 false
  unfold calibrate
  rw [hfit, hθ]
  refine ⟨_, rfl, hnd.sublist ((List.filter_sublist (l := cal)).map Prod.fst), hpsd, ?_⟩
  intro i l r i' l' r' hi hi' hr hr' hsp hsp'
  obtain ⟨k, -, hk2, hk3⟩ := hx i l r hi hr
  obtain ⟨k', -, hk2', hk3'⟩ := hx i' l' r' hi' hr'
  have hlab : ∀ (k : Fin (fitted cal).length) l r, (fitted cal)[k] = (l, r) → ((fitted cal).map Prod.fst)[(k : ℕ)]? = some l := by
    intro k l r hk
    rw [List.getElem?_map, List.getElem?_eq_getElem k.2]
    exact congrArg some (congrArg Prod.fst hk)
  refine ⟨k, k', hlab k l r hk2, hlab k' l' r' hk2', ?_⟩
  have := hval k k' (by rw [hk2, hk3]; exact hsp) (by rw [hk2', hk3']; exact hsp')
  rw [hk2, hk2', hk3, hk3'] at this
  exact this

/-- **C104 fails for normal demands.**  The random variable that is made for a normal demand has the variance of the samples plus the square of the product of the average and
the additional uncertainty: it is not the variance of the samples plus the square of the additional uncertainty unless nothing is added or the average is 1 or -1. -/
theorem C104_normal_variance (big : ℝ) (cal : List (Label × CalRow)) (hnd : (cal.map Prod.fst).Nodup) (hl : NoLimits cal)
    (S : Solver (fitted cal).length) (heps : 0 < S.eps) (hsvd : IsSvd S.svd) (rows : List (List ℚ)) (hc : Complete cal rows) (hs : Suitable cal rows)
    (i : ℕ) (l : Label) (r : CalRow) (hi : cal[i]? = some (l, r)) (hf : r.family = str "normal") (a : ℝ) (ha : Added r.sigIncrease a)
    (hsp : spread (samples rows i) ≠ 0) (havg : 1 / 10 ^ 40 ≤ |average (samples rows i)|) :
    ∃ out m μ c σ, calibrate big cal S (stored rows) = .ok out ∧ out.marginals[i]? = some (l, m) ∧ m.theta0 = .fin μ ∧ m.theta1 = .fin c ∧
      normalVariable m.family μ c = .ok (some (μ, σ)) ∧ μ = average (samples rows i) ∧
      σ ^ 2 = spread (samples rows i) ^ 2 + (average (samples rows i) * a) ^ 2 ∧
      (a ≠ 0 → |average (samples rows i)| ≠ 1 → σ ^ 2 ≠ spread (samples rows i) ^ 2 + a ^ 2) ∧
      (average (samples rows i) < 0 → σ < 0) := by
  obtain ⟨out, hout, -, hrow⟩ := C104_parameters_partial big cal hnd hl S heps hsvd rows hc hs
  obtain ⟨m, hm, hfam, -, hval⟩ := hrow i l r hi
  obtain ⟨h0, c, h1, hc0, hcsq⟩ := (hval a ha).2.2 (Or.inl hf) hsp havg
  have hne : average (samples rows i) ≠ 0 := by
    intro h
    rw [h, abs_zero] at havg
    norm_num at havg
  have hvar : (average (samples rows i) * c) ^ 2 = spread (samples rows i) ^ 2 + (average (samples rows i) * a) ^ 2 := by
    rw [mul_pow, hcsq]
    field_simp
  refine ⟨out, m, _, c, average (samples rows i) * c, hout, hm, h0, h1, ?_, rfl, hvar, ?_, ?_⟩
  · rw [hfam, hf]
    unfold normalVariable
    rw [if_neg (by decide), if_pos (Or.inl rfl), if_neg (by linarith)]
  · intro ha0 h1'
    rw [hvar]
    intro he
    have h2 : (average (samples rows i) ^ 2 - 1) * a ^ 2 = 0 := by linear_combination he
    rcases mul_eq_zero.1 h2 with h | h
    · refine h1' ?_
      have : |average (samples rows i)| ^ 2 = 1 := by rw [sq_abs]; linarith
      have h0 := abs_nonneg (average (samples rows i))
      nlinarith
    · exact ha0 (pow_eq_zero_iff (by norm_num) |>.1 h)
  · intro hneg
    have hcpos : 0 < c := by
      refine lt_of_le_of_ne hc0 ?_
      intro h
      rw [← h] at hcsq
      have h1 : 0 < (spread (samples rows i) / average (samples rows i)) ^ 2 := by
        have : spread (samples rows i) / average (samples rows i) ≠ 0 := div_ne_zero hsp hne
        positivity
      nlinarith [sq_nonneg a]
    exact mul_neg_of_neg_of_pos hneg hcpos

/-- The settings of the demands for one entry with a unit. -/
theorem settings_single (table : Dict Str ℚ) (cols : List Label) (cal : List (Label × CalRow)) (fam u : Str) (f a : ℚ)
    (hu : table.get? u = some f)
    (h : calibrationSettings table [(str "ALL", { family := some fam, unit := some u, addUncertainty := some (.num a) })] cols = .ok cal) :
    cal = cols.map fun l => (l, (⟨fam, .nan, .nan, .nan, .nan, .fin (if fam = str "normal" then a * f else a)⟩ : CalRow)) := by
  simp only [calibrationSettings, Dict.getE, Dict.get?, List.lookup, beq_self_eq_true, parseSettings, parse, givenLimit, scaleFactor,
    givenUncertainty, parseVal, hu, settingsLoop, if_true, Except.ok.injEq] at h
  subst h
  rw [List.map_map]
  refine List.map_congr_left fun l _ => ?_
  simp only [Function.comp, selects, decide_true, Bool.true_or, if_true, update, emptyRow, Option.getD_none, Option.getD_some, Asset.mulQ]
  congr 2
  split <;> rfl

/-- **C104 fails for `normal_std` demands in a unit.**  An additional uncertainty `a` in a unit with the factor `f` is added as `a` in base units: the standard deviation is not
the root of the variance of the samples plus the square of `f * a`. -/
theorem C104_unit_not_converted (big : ℝ) (table : Dict Str ℚ) (u : Str) (f a : ℚ) (hu : table.get? u = some f) (cols : List Label) (hnd : cols.Nodup)
    (cal : List (Label × CalRow))
    (hcal : calibrationSettings table [(str "ALL", { family := some (str "normal_std"), unit := some u, addUncertainty := some (.num a) })] cols = .ok cal)
    (S : Solver (fitted cal).length) (heps : 0 < S.eps) (hsvd : IsSvd S.svd) (rows : List (List ℚ)) (hne : rows ≠ []) (hlen : ∀ r ∈ rows, r.length = cols.length)
    (i : ℕ) (l : Label) (hi : cols[i]? = some l) (hsp : spread (samples rows i) ≠ 0) (ha : a ≠ 0) (hf0 : 0 < f) (hf1 : f ≠ 1) :
    ∃ out m σ, calibrate big cal S (stored rows) = .ok out ∧ out.marginals[i]? = some (l, m) ∧ m.theta1 = .fin σ ∧
      σ ^ 2 = spread (samples rows i) ^ 2 + (a : ℝ) ^ 2 ∧ σ ^ 2 ≠ spread (samples rows i) ^ 2 + ((f : ℝ) * a) ^ 2 := by
  have hs := settings_single table cols cal _ u f a hu hcal
  rw [if_neg (by decide)] at hs
  have hrow : ∀ (i : ℕ) l r, cal[i]? = some (l, r) → cols[i]? = some l ∧ r = ⟨str "normal_std", .nan, .nan, .nan, .nan, .fin a⟩ := by
    intro i l r h
    rw [hs, List.getElem?_map, Option.map_eq_some_iff] at h
    obtain ⟨l', h1, h2⟩ := h
    simp only [Prod.mk.injEq] at h2
    exact ⟨h2.1 ▸ h1, h2.2.symm⟩
  have hi' : cal[i]? = some (l, ⟨str "normal_std", .nan, .nan, .nan, .nan, .fin a⟩) := by
    rw [hs, List.getElem?_map, hi]
    rfl
  obtain ⟨out, hout, -, hval⟩ := C104_parameters_partial big cal (by rw [hs, List.map_map]; exact (List.map_id cols).symm ▸ hnd)
    (by
      intro p hp
      obtain ⟨j, hj⟩ := List.getElem?_of_mem hp
      obtain ⟨-, h2⟩ := hrow j p.1 p.2 hj
      rw [h2]
      exact ⟨rfl, rfl, rfl, rfl⟩) S heps hsvd rows ⟨hne, by
        intro r hr
        rw [hs, List.length_map]
        exact hlen r hr⟩ (by
        intro j l r hj
        obtain ⟨-, h2⟩ := hrow j l r hj
        rw [h2]
        refine ⟨?_, fun h => ?_⟩
        · show str "normal_std" ∈ _
          decide
        · exact absurd (show str "normal_std" = str "lognormal" from h) (by decide))
  obtain ⟨m, hm, -, -, hv⟩ := hval i l _ hi'
  obtain ⟨-, σ, h1, -, h2⟩ := (hv a (Or.inr ⟨a, rfl, rfl⟩)).2.1 rfl hsp
  refine ⟨out, m, σ, hout, hm, h1, h2, ?_⟩
  rw [h2]
  intro he
  have h3 : ((f : ℝ) ^ 2 - 1) * (a : ℝ) ^ 2 = 0 := by linear_combination -he
  have ha' : (a : ℝ) ≠ 0 := by exact_mod_cast ha
  have hf0' : (0 : ℝ) < f := by exact_mod_cast hf0
  rcases mul_eq_zero.1 h3 with h | h
  · have : (f : ℝ) = 1 := by nlinarith
    exact hf1 (by exact_mod_cast this)
  · exact ha' (pow_eq_zero_iff (by norm_num) |>.1 h)

/-! ## A concrete case

Two realizations of a lognormal drift, a normal acceleration with additional uncertainty 1/2, and an empirical residual drift. -/

def exampleCal : List (Label × CalRow) :=
  [([str "PID", str "1", str "1"], ⟨str "lognormal", .nan, .nan, .nan, .nan, .fin (1 / 4)⟩),
   ([str "PFA", str "1", str "1"], ⟨str "normal", .nan, .nan, .nan, .nan, .fin (1 / 2)⟩),
   ([str "RID", str "1", str "1"], ⟨str "empirical", .nan, .nan, .nan, .nan, .nan⟩)]

def exampleRows : List (List ℚ) := [[1 / 100, 2, 0], [3 / 100, 4, 1 / 1000]]

theorem ex00 : samples exampleRows 0 (0 : Fin 2) = ((1 / 100 : ℚ) : ℝ) := rfl

theorem ex01 : samples exampleRows 0 (1 : Fin 2) = ((3 / 100 : ℚ) : ℝ) := rfl

theorem ex10 : samples exampleRows 1 (0 : Fin 2) = ((2 : ℚ) : ℝ) := rfl

theorem ex11 : samples exampleRows 1 (1 : Fin 2) = ((4 : ℚ) : ℝ) := rfl

example : (exampleCal.map Prod.fst).Nodup ∧ NoLimits exampleCal ∧ Complete exampleCal exampleRows ∧ Suitable exampleCal exampleRows ∧
    (∃ S : Solver (fitted exampleCal).length, 0 < S.eps ∧ IsSvd S.svd) ∧
    spread (fun j => Real.log (samples exampleRows 0 j)) ≠ 0 ∧ spread (samples exampleRows 1) ≠ 0 ∧
    1 / 10 ^ 40 ≤ |average (samples exampleRows 1)| ∧ |average (samples exampleRows 1)| ≠ 1 := by
  have havg : average (samples exampleRows 1) = 3 := by
    unfold average
    have : (∑ j : Fin 2, samples exampleRows 1 j) = 6 := by
      refine (Fin.sum_univ_two (f := fun j : Fin 2 => samples exampleRows 1 j)).trans ?_
      show samples exampleRows 1 (0 : Fin 2) + samples exampleRows 1 (1 : Fin 2) = 6
      rw [ex10, ex11]
      norm_num
    rw [show (∑ j, samples exampleRows 1 j) = 6 from this]
    norm_num [exampleRows]
  refine ⟨by decide +kernel, ?_, ?_, ?_, ?_, ?_, ?_, ?_, ?_⟩
  · intro p hp
    simp only [exampleCal, List.mem_cons, List.not_mem_nil, or_false] at hp
    rcases hp with rfl | rfl | rfl <;> exact ⟨rfl, rfl, rfl, rfl⟩
  · refine ⟨by simp [exampleRows], ?_⟩
    intro r hr
    simp only [exampleRows, List.mem_cons, List.not_mem_nil, or_false] at hr
    rcases hr with rfl | rfl <;> rfl
  · intro i l r hi
    match i with
    | 0 =>
      simp only [exampleCal, List.getElem?_cons_zero, Option.some.injEq, Prod.mk.injEq] at hi
      rw [← hi.2]
      refine ⟨by decide, fun _ j => ?_⟩
      have hj : ∀ j : Fin 2, (0 : ℝ) < samples exampleRows 0 j := by
        intro j
        fin_cases j
        · exact ex00 ▸ (by norm_num)
        · exact ex01 ▸ (by norm_num)
      exact hj j
    | 1 =>
      simp only [exampleCal, List.getElem?_cons_succ, List.getElem?_cons_zero, Option.some.injEq, Prod.mk.injEq] at hi
      rw [← hi.2]
      exact ⟨by decide, fun h => absurd h (by decide)⟩
    | 2 =>
      simp only [exampleCal, List.getElem?_cons_succ, List.getElem?_cons_zero, Option.some.injEq, Prod.mk.injEq] at hi
      rw [← hi.2]
      exact ⟨by decide, fun h => absurd h (by decide)⟩
    | i + 3 => simp [exampleCal] at hi
  · obtain ⟨svd, hsvd⟩ := Fit.isSvd_exists (d := (fitted exampleCal).length)
    exact ⟨⟨1, fun _ => (0, 0), fun p => .ok p, svd⟩, one_pos, hsvd⟩
  · refine Fit.spread_ne_zero (n := 2) (by norm_num) (j := 0) (k := 1) ?_
    intro h
    have h0 : samples exampleRows 0 (0 : Fin 2) = 1 / 100 := by rw [ex00]; norm_num
    have h1 : samples exampleRows 0 (1 : Fin 2) = 3 / 100 := by rw [ex01]; norm_num
    have h' : Real.log (samples exampleRows 0 (0 : Fin 2)) = Real.log (samples exampleRows 0 (1 : Fin 2)) := h
    rw [h0, h1] at h'
    have := Real.log_injOn_pos (by norm_num : (1 / 100 : ℝ) ∈ Set.Ioi (0 : ℝ)) (by norm_num : (3 / 100 : ℝ) ∈ Set.Ioi (0 : ℝ)) h'
    norm_num at this
  · refine Fit.spread_ne_zero (n := 2) (by norm_num) (j := 0) (k := 1) ?_
    intro h
    have h0 : samples exampleRows 1 (0 : Fin 2) = 2 := by rw [ex10]; norm_num
    have h1 : samples exampleRows 1 (1 : Fin 2) = 4 := by rw [ex11]; norm_num
    have h' : samples exampleRows 1 (0 : Fin 2) = samples exampleRows 1 (1 : Fin 2) := h
    rw [h0, h1] at h'
    norm_num at h'
  · rw [havg]; norm_num
  · rw [havg]; norm_num

-- one demand with additional uncertainty in inches
example : ∃ cal, calibrationSettings [(str "inch", 254 / 10000)]
    [(str "ALL", { family := some (str "normal_std"), unit := some (str "inch"), addUncertainty := some (.num 2) })]
    [[str "PFD", str "1", str "1"]] = .ok cal ∧ Dict.get? ([(str "inch", 254 / 10000)] : Dict Str ℚ) (str "inch") = some (254 / 10000) :=
  ⟨_, rfl, by decide +kernel⟩

end Verif.DemandFit
