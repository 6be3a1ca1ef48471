import Verif.Lemmas.Copula

/-!
# C114: variables that are sampled together keep their distributions and have the correlation asked for
-/

namespace Verif.Copula

open UQ Matrix MeasureTheory ProbabilityTheory WithLp
open scoped MatrixOrder RealInnerProductSpace

section
variable {Ω : Type} [MeasurableSpace Ω] {P : Measure Ω} {N : Nat}

/-- C114: the variables of a set are joined by the Gaussian copula of the matrix that the user gave: in each realization the normal scores
of their uniform samples have a joint normal distribution with zero means and the given covariance matrix, entry by entry for the variables
at the same positions of the list given by the user. -/
theorem C114_copula (names : List Str) (hnd : names.Nodup) (rho : Nat → Nat → ℝ) (hR : (given names rho).PosSemidef)
    (f : Factors (CorrSet.init names rho).names.length) (hf : Valid (storedRho names rho) f)
    (u : Ω → Str → Fin N → ℝ) (hu : HasLaw (fun ω (i : Fin names.length) => u ω names[i]) (draws names.length N) P) (k : Fin N) :
    HasLaw (fun ω => toLp 2 fun i : Fin names.length => gaussian.ppf (setSamples names rho f (u ω) names[i] k))
      (multivariateGaussian 0 (given names rho)) P := by
  have := hasLaw_scores (givenFactor names hnd rho f) _ hu k
  rw [givenFactor_gram_eq names hnd rho hR f hf] at this
  simp only [setSamples_eq names hnd, ppf_cdf]
  exact this

/-- C114: correlation does not change the distribution of a variable: its uniform sample is still uniform.  (Partly: for a positive
semidefinite matrix with unit diagonal; see `C114_indefinite`.) -/
theorem C114_marginal_partial (names : List Str) (hnd : names.Nodup) (rho : Nat → Nat → ℝ) (hR : (given names rho).PosSemidef)
    (f : Factors (CorrSet.init names rho).names.length) (hf : Valid (storedRho names rho) f)
    (u : Ω → Str → Fin N → ℝ) (hu : HasLaw (fun ω (i : Fin names.length) => u ω names[i]) (draws names.length N) P) (k : Fin N)
    (i : Fin names.length) (hi : rho i i = 1) :
    HasLaw (fun ω => setSamples names rho f (u ω) names[i] k) (volume.restrict (Set.Ioo 0 1)) P := by
  have h1 := hasLaw_score_row names hnd rho f u hu k i
  rw [givenFactor_gram_eq names hnd rho hR f hf] at h1
  have hd : (given names rho) i i = 1 := hi
  rw [hd, Real.toNNReal_one] at h1
  have h2 : HasLaw gaussian.cdf uniform01 (gaussianReal 0 1) := ⟨cdf_measurable.aemeasurable, map_cdf⟩
  simp only [setSamples_eq names hnd]
  exact h2.fun_comp h1

/-- C114: so the sample of each variable has the distribution of the variable: if the inverse transform is at most `x` exactly for the
uniform numbers up to `p` (the value of the distribution function at `x`), then a sample is at most `x` with probability `p`. -/
theorem C114_distribution_partial (names : List Str) (hnd : names.Nodup) (rho : Nat → Nat → ℝ) (hR : (given names rho).PosSemidef)
    (f : Factors (CorrSet.init names rho).names.length) (hf : Valid (storedRho names rho) f)
    (u : Ω → Str → Fin N → ℝ) (hu : HasLaw (fun ω (i : Fin names.length) => u ω names[i]) (draws names.length N) P) (k : Fin N)
    (i : Fin names.length) (hi : rho i i = 1) (inv : ℝ → ℝ) (x p : ℝ) (h0 : 0 ≤ p) (h1 : p ≤ 1)
    (hinv : ∀ v, 0 < v → v < 1 → (inv v ≤ x ↔ v ≤ p)) :
    P {ω | inv (setSamples names rho f (u ω) names[i] k) ≤ x} = ENNReal.ofReal p := by
  have h := C114_marginal_partial names hnd rho hR f hf u hu k i hi
  have h2 := h.measure_eq (p := fun v => v ≤ p) measurableSet_Iic
  have h3 : volume.restrict (Set.Ioo 0 1) {v : ℝ | v ≤ p} = ENNReal.ofReal p := uniform_Iic h0 h1
  rw [← h3, ← h2]
  refine congrArg P (Set.ext fun ω => ?_)
  simp only [Set.mem_setOf_eq]
  rw [setSamples_eq names hnd]
  exact hinv _ (gaussian.cdf_pos _) (gaussian.cdf_lt_one _)

/-- C114: for example, a normal variable of the set has its mean and standard deviation whatever the other variables are. -/
theorem C114_normal_partial (names : List Str) (hnd : names.Nodup) (rho : Nat → Nat → ℝ) (hR : (given names rho).PosSemidef)
    (f : Factors (CorrSet.init names rho).names.length) (hf : Valid (storedRho names rho) f)
    (u : Ω → Str → Fin N → ℝ) (hu : HasLaw (fun ω (i : Fin names.length) => u ω names[i]) (draws names.length N) P) (k : Fin N)
    (i : Fin names.length) (hi : rho i i = 1) (mean std eps x : ℝ) (hs : 0 < std) :
    P {ω | ∃ y, normalInverse gaussian eps mean std none none (setSamples names rho f (u ω) names[i] k) = .ok (.fin y) ∧ y ≤ x} =
      gaussianReal mean (Real.toNNReal (std ^ 2)) (Set.Iic x) := by
  have h1 := C114_distribution_partial names hnd rho hR f hf u hu k i hi (fun v => mean + std * gaussian.ppf v) x
    (gaussian.cdf ((x - mean) / std)) (gaussian.cdf_pos _).le (gaussian.cdf_lt_one _).le (by
      intro v hv0 hv1
      rw [← ppf_le_iff hv0 hv1, le_div_iff₀ hs]
      constructor <;> intro h <;> linarith)
  have h2 : gaussianReal mean (Real.toNNReal (std ^ 2)) (Set.Iic x) = ENNReal.ofReal (gaussian.cdf ((x - mean) / std)) := by
    have e1 : gaussianReal mean (Real.toNNReal (std ^ 2)) = (gaussianReal 0 1).map (fun z => mean + std * z) := by
      have e2 := gaussianReal_map_const_mul (μ := 0) (v := 1) std
      have e3 := gaussianReal_map_const_add (μ := std * 0) (v := NNReal.mk (std ^ 2) (sq_nonneg _) * 1) mean
      rw [← e2, Measure.map_map (by fun_prop) (by fun_prop)] at e3
      rw [show (fun z => mean + std * z) = (fun x => mean + x) ∘ (fun x => std * x) from rfl, e3]
      congr 1
      · ring
      · ext; simp [Real.coe_toNNReal _ (sq_nonneg std)]
    rw [e1, Measure.map_apply (by fun_prop) measurableSet_Iic]
    have e4 : (fun z => mean + std * z) ⁻¹' Set.Iic x = Set.Iic ((x - mean) / std) := by
      ext z
      simp only [Set.mem_preimage, Set.mem_Iic]
      rw [le_div_iff₀ hs]
      constructor <;> intro h <;> linarith
    rw [e4, ← ofReal_cdf]
    rfl
  rw [h2, ← h1]
  refine congrArg P (Set.ext fun ω => ?_)
  have hv0 : 0 < setSamples names rho f (u ω) names[i] k := by rw [setSamples_eq names hnd]; exact gaussian.cdf_pos _
  have hv1 : setSamples names rho f (u ω) names[i] k < 1 := by rw [setSamples_eq names hnd]; exact gaussian.cdf_lt_one _
  simp only [Set.mem_setOf_eq, normalInverse, truncated, Option.isSome_none, Bool.or_self, Bool.false_eq_true, if_false]
  rw [normPpf, if_pos hs, if_neg (not_lt.2 hv0.le), if_neg hv0.ne', if_pos hv1]
  constructor
  · rintro ⟨y, hy, hyx⟩
    cases hy
    exact hyx
  · intro h
    exact ⟨_, rfl, h⟩

/-- C114: variables with correlation one have the same uniform numbers in every realization. -/
theorem C114_perfect (names : List Str) (hnd : names.Nodup) (rho : Nat → Nat → ℝ) (hR : (given names rho).PosSemidef)
    (f : Factors (CorrSet.init names rho).names.length) (hf : Valid (storedRho names rho) f) (u : Str → Fin N → ℝ)
    (i j : Fin names.length) (hi : rho i i = 1) (hj : rho j j = 1) (hij : rho i j = 1) :
    setSamples names rho f u names[i] = setSamples names rho f u names[j] := by
  have hG := givenFactor_gram_eq names hnd rho hR f hf
  set G := givenFactor names hnd rho f with hGd
  have h := rows_of_gram G i j 1 (by rw [hG]; exact hi) (by rw [hG]; exact hj) (by rw [hG]; exact hij) (by norm_num)
  funext k
  rw [setSamples_eq names hnd, setSamples_eq names hnd, ← hGd]
  congr 1
  simp only [Matrix.mulVec, dotProduct, h, one_mul]

/-- C114: variables with correlation minus one are mirrored in every realization. -/
theorem C114_opposite (names : List Str) (hnd : names.Nodup) (rho : Nat → Nat → ℝ) (hR : (given names rho).PosSemidef)
    (f : Factors (CorrSet.init names rho).names.length) (hf : Valid (storedRho names rho) f) (u : Str → Fin N → ℝ)
    (i j : Fin names.length) (hi : rho i i = 1) (hj : rho j j = 1) (hij : rho i j = -1) (k : Fin N) :
    setSamples names rho f u names[i] k = 1 - setSamples names rho f u names[j] k := by
  have hG := givenFactor_gram_eq names hnd rho hR f hf
  set G := givenFactor names hnd rho f with hGd
  have h := rows_of_gram G i j (-1) (by rw [hG]; exact hi) (by rw [hG]; exact hj) (by rw [hG]; exact hij) (by norm_num)
  rw [setSamples_eq names hnd, setSamples_eq names hnd, ← hGd, ← cdf_neg]
  congr 1
  simp only [Matrix.mulVec, dotProduct, h, neg_mul, one_mul, Finset.sum_neg_distrib]

/-- C114: without correlation nothing changes. -/
theorem C114_uncorrelated (names : List Str) (hnd : names.Nodup) (rho : Nat → Nat → ℝ) (hR : given names rho = 1)
    (f : Factors (CorrSet.init names rho).names.length) (hf : Valid (storedRho names rho) f) (u : Str → Fin N → ℝ)
    (i : Fin names.length) (k : Fin N) (h0 : 0 < u names[i] k) (h1 : u names[i] k < 1) :
    setSamples names rho f u names[i] k = u names[i] k := by
  have hS : storedRho names rho = 1 := by rw [stored_eq names hnd, hR]; exact Matrix.submatrix_one_equiv _
  rw [hS] at hf
  have hF : factor f = 1 := by
    match f, hf with
    | .cholesky L, hf => exact cholesky_one L hf.1 hf.2.1 hf.2.2
    | .svd U s Vt, hf => exact absurd Matrix.PosDef.one hf.1
  rw [setSamples_eq names hnd, givenFactor, hF, Matrix.submatrix_one_equiv, Matrix.one_mulVec]
  exact gaussian.cdf_ppf h0 h1

/-- C114 is false for a matrix that is not positive semidefinite, which is accepted: the distribution of one of the variables is not kept. -/
theorem C114_indefinite (names : List Str) (hnd : names.Nodup) (rho : Nat → Nat → ℝ) (hR : ¬ (given names rho).PosSemidef)
    (f : Factors (CorrSet.init names rho).names.length) (hf : Valid (storedRho names rho) f)
    (u : Ω → Str → Fin N → ℝ) (hu : HasLaw (fun ω (i : Fin names.length) => u ω names[i]) (draws names.length N) P) (k : Fin N)
    (hd : ∀ i : Fin names.length, rho i i = 1) :
    ∃ i : Fin names.length, ¬ HasLaw (fun ω => setSamples names rho f (u ω) names[i] k) (volume.restrict (Set.Ioo 0 1)) P := by
  by_contra hn
  push Not at hn
  have hdiag : ∀ i, (givenFactor names hnd rho f * (givenFactor names hnd rho f)ᵀ) i i = 1 := by
    intro i
    have h1 := hasLaw_score_row names hnd rho f u hu k i
    have h2 : HasLaw gaussian.ppf (gaussianReal 0 1) uniform01 := ⟨ppf_aemeasurable, map_ppf⟩
    have h3 := h2.fun_comp (hn i)
    simp only [setSamples_eq names hnd, ppf_cdf] at h3
    have h4 := h1.map_eq.symm.trans h3.map_eq
    have h5 := (gaussianReal_ext_iff.1 h4).2
    have h6 : ((givenFactor names hnd rho f * (givenFactor names hnd rho f)ᵀ) i i).toNNReal = 1 := h5
    rwa [Real.toNNReal_eq_one] at h6
  have hS : ¬ (storedRho names rho).PosSemidef := by
    intro h
    apply hR
    have := h.submatrix (position names hnd rho).symm
    rw [stored_eq names hnd] at this
    simpa using this
  match f, hf with
  | .cholesky L, hf => exact hS (hf.2.2 ▸ posSemidef_gram L)
  | .svd U s Vt, ⟨_, hU, hV, hs, hE⟩ =>
    refine hS (svd_trace hU hV hs hE ?_)
    have t1 : (U * diagonal s * Uᵀ).trace = (givenFactor names hnd rho (.svd U s Vt) * (givenFactor names hnd rho (.svd U s Vt))ᵀ).trace := by
      rw [givenFactor_gram]
      simp only [factor, svd_gram U s hs, Matrix.trace, Matrix.diag_apply, Matrix.submatrix_apply]
      exact (Equiv.sum_comp (position names hnd rho).symm fun i => (U * diagonal s * Uᵀ) i i).symm
    have t2 : (storedRho names rho).trace = (given names rho).trace := by
      rw [stored_eq names hnd]
      simp only [Matrix.trace, Matrix.diag_apply, Matrix.submatrix_apply]
      exact Equiv.sum_comp (position names hnd rho) fun i => given names rho i i
    rw [t1, t2]
    simp only [Matrix.trace, Matrix.diag_apply, hdiag]
    refine le_of_eq (Finset.sum_congr rfl fun i _ => ?_)
    exact (hd i).symm

/-- C114: other variables are not affected. -/
theorem C114_others (names : List Str) (rho : Nat → Nat → ℝ) (f : Factors (CorrSet.init names rho).names.length)
    (u : Str → Fin N → ℝ) (a : Str) (ha : a ∉ names) : setSamples names rho f u a = u a := by
  unfold setSamples
  rw [dif_neg (fun h => ha ((C16_same_variables names rho).mem_iff.1 h))]

end

/-! ## Examples -/

/-- Two variables given in the reverse of their order in the set. -/
abbrev two : List Str := [str "b", str "a"]

/-- Uniform numbers for the variables of a list, drawn independently. -/
noncomputable def drawn (names : List Str) {N : Nat} (w : Fin names.length → Fin N → ℝ) (a : Str) : Fin N → ℝ :=
  if h : a ∈ names then w ⟨names.idxOf a, List.idxOf_lt_length_of_mem h⟩ else 0

/-- The draws asked for in the theorems exist for each list of names. -/
theorem drawn_hasLaw (names : List Str) (hnd : names.Nodup) (N : Nat) :
    HasLaw (fun (w : Fin names.length → Fin N → ℝ) (i : Fin names.length) => drawn names w names[i]) (draws names.length N)
      (draws names.length N) := by
  have : (fun (w : Fin names.length → Fin N → ℝ) (i : Fin names.length) => drawn names w names[i]) = id := by
    funext w i
    have hm : names[i] ∈ names := List.getElem_mem _
    simp only [drawn, dif_pos hm, id]
    congr 1
    ext
    simp [hnd.idxOf_getElem]
  rw [this]
  exact HasLaw.id

theorem order_two (rho : Nat → Nat → ℝ) : (CorrSet.init two rho).names = [str "a", str "b"] := by
  have : argsortNames two = [1, 0] := by decide +kernel
  simp [CorrSet.init, this]

/-- The matrix with `r` for each pair of different variables. -/
noncomputable def allPairs (r : ℝ) (i j : Nat) : ℝ := if i = j then 1 else r

theorem allPairs_symm (names : List Str) (r : ℝ) : (given names (allPairs r)).IsHermitian := by
  ext i j
  simp [given, allPairs, Matrix.conjTranspose_apply, eq_comm]

theorem stored_symm (names : List Str) (hnd : names.Nodup) (rho : Nat → Nat → ℝ) (h : (given names rho).IsHermitian) :
    (storedRho names rho).IsHermitian := by
  rw [stored_eq names hnd]
  exact h.submatrix _

theorem two_psd (r : ℝ) (h : |r| ≤ 1) : (given two (allPairs r)).PosSemidef := by
  refine Matrix.PosSemidef.of_dotProduct_mulVec_nonneg (allPairs_symm _ _) fun x => ?_
  have h1 := abs_le.1 h
  change 0 ≤ ∑ i : Fin 2, x i * ∑ j : Fin 2, allPairs r i j * x j
  simp only [Fin.sum_univ_two, allPairs]
  norm_num
  nlinarith [sq_nonneg (x 0 + x 1), sq_nonneg (x 0 - x 1)]

/-- `C114_copula`, `C114_marginal_partial`: two variables with correlation 0.6. -/
example : two.Nodup ∧ (given two (allPairs 0.6)).PosSemidef ∧ (∃ f, Valid (storedRho two (allPairs 0.6)) f) ∧
    HasLaw (fun (w : Fin two.length → Fin 3 → ℝ) (i : Fin two.length) => drawn two w two[i]) (draws two.length 3) (draws two.length 3) ∧
    ∀ i : Fin two.length, allPairs 0.6 i i = 1 := by
  have h : two.Nodup := by decide +kernel
  exact ⟨h, two_psd _ (by norm_num), exists_valid (stored_symm _ h _ (allPairs_symm _ _)), drawn_hasLaw two h 3, fun i => by simp [allPairs]⟩

/-- `C114_perfect`, `C114_opposite`: two variables with correlation one and minus one. -/
example : (given two (allPairs 1)).PosSemidef ∧ (∃ f, Valid (storedRho two (allPairs 1)) f) ∧ allPairs 1 0 1 = 1 ∧
    (given two (allPairs (-1))).PosSemidef ∧ (∃ f, Valid (storedRho two (allPairs (-1))) f) ∧ allPairs (-1) 0 1 = -1 := by
  have h : two.Nodup := by decide +kernel
  exact ⟨two_psd _ (by norm_num), exists_valid (stored_symm _ h _ (allPairs_symm _ _)), by simp [allPairs],
    two_psd _ (by norm_num), exists_valid (stored_symm _ h _ (allPairs_symm _ _)), by simp [allPairs]⟩

/-- `C114_uncorrelated`: two variables without correlation. -/
example : given two (allPairs 0) = 1 ∧ ∃ f, Valid (storedRho two (allPairs 0)) f := by
  have h : two.Nodup := by decide +kernel
  refine ⟨?_, exists_valid (stored_symm _ h _ (allPairs_symm _ _))⟩
  ext i j
  simp [given, allPairs, Matrix.one_apply, Fin.ext_iff]

/-- `C114_indefinite`: three variables, each of them correlated with the two others by minus 0.9. -/
example : ¬ (given [str "a", str "b", str "c"] (allPairs (-0.9))).PosSemidef ∧
    (∃ f, Valid (storedRho [str "a", str "b", str "c"] (allPairs (-0.9))) f) := by
  have h : [str "a", str "b", str "c"].Nodup := by decide +kernel
  refine ⟨fun hp => ?_, exists_valid (stored_symm _ h _ (allPairs_symm _ _))⟩
  have := hp.dotProduct_mulVec_nonneg (fun _ => 1)
  change 0 ≤ ∑ i : Fin 3, (1 : ℝ) * ∑ j : Fin 3, allPairs (-0.9) i j * 1 at this
  simp only [Fin.sum_univ_three, allPairs] at this
  norm_num at this

end Verif.Copula
