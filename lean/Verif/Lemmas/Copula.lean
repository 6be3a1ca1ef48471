import Verif.Spec.Copula
import Verif.Props.UQRegistry
import Mathlib.Probability.Distributions.Gaussian.Multivariate
import Mathlib.Analysis.Matrix.LDL
import Mathlib.Analysis.Matrix.Spectrum
import Mathlib.Tactic

/-! # Lemmas for C114 -/

namespace Verif.Copula

open UQ Matrix MeasureTheory ProbabilityTheory WithLp
open scoped MatrixOrder RealInnerProductSpace

instance : IsProbabilityMeasure uniform01 := ⟨by simp [uniform01]⟩

theorem ppf_le_iff {u x : ℝ} (h0 : 0 < u) (h1 : u < 1) : gaussian.ppf u ≤ x ↔ u ≤ gaussian.cdf x := by
  have hc := gaussian.cdf_ppf h0 h1
  constructor
  · intro h
    rcases lt_or_eq_of_le h with h | h
    · rw [← hc]; exact (gaussian.cdf_strictMono h).le
    · rw [← h, hc]
  · intro h
    by_contra hn
    have := gaussian.cdf_strictMono (not_le.1 hn)
    rw [hc] at this
    exact absurd h (not_le.2 this)

theorem ppf_aemeasurable : AEMeasurable gaussian.ppf uniform01 := by
  refine aemeasurable_restrict_of_monotoneOn measurableSet_Ioo ?_
  intro a ha b hb hab
  rw [ppf_le_iff ha.1 ha.2, gaussian.cdf_ppf hb.1 hb.2]
  exact hab

theorem uniform_Iic {p : ℝ} (h0 : 0 ≤ p) (h1 : p ≤ 1) : uniform01 (Set.Iic p) = ENNReal.ofReal p := by
  unfold uniform01
  rw [Measure.restrict_apply measurableSet_Iic]
  rcases lt_or_eq_of_le h1 with h1 | rfl
  · have : Set.Iic p ∩ Set.Ioo 0 1 = Set.Ioc 0 p := by
      ext z; simp only [Set.mem_inter_iff, Set.mem_Iic, Set.mem_Ioo, Set.mem_Ioc]
      constructor
      · rintro ⟨a, b, c⟩; exact ⟨b, a⟩
      · rintro ⟨a, b⟩; exact ⟨b, a, lt_of_le_of_lt b h1⟩
    rw [this, Real.volume_Ioc, sub_zero]
  · have : Set.Iic 1 ∩ Set.Ioo (0 : ℝ) 1 = Set.Ioo 0 1 := by
      ext z; simp only [Set.mem_inter_iff, Set.mem_Iic, Set.mem_Ioo]
      constructor
      · rintro ⟨a, b, c⟩; exact ⟨b, c⟩
      · rintro ⟨a, b⟩; exact ⟨b.le, a, b⟩
    rw [this, Real.volume_Ioo, sub_zero]

theorem map_ppf : uniform01.map gaussian.ppf = gaussianReal 0 1 := by
  haveI : IsProbabilityMeasure (uniform01.map gaussian.ppf) := Measure.isProbabilityMeasure_map ppf_aemeasurable
  apply Measure.ext_of_Iic
  intro x
  rw [Measure.map_apply_of_aemeasurable ppf_aemeasurable measurableSet_Iic, ← ofReal_cdf]
  have : uniform01 (gaussian.ppf ⁻¹' Set.Iic x) = uniform01 (Set.Iic (gaussian.cdf x)) := by
    refine measure_congr ?_
    unfold uniform01
    filter_upwards [ae_restrict_mem measurableSet_Ioo] with u hu
    exact propext (ppf_le_iff hu.1 hu.2)
  rw [this, uniform_Iic (gaussian.cdf_pos x).le (gaussian.cdf_lt_one x).le]
  rfl

theorem ppf_cdf (x : ℝ) : gaussian.ppf (gaussian.cdf x) = x := by
  have h := gaussian.cdf_ppf (gaussian.cdf_pos x) (gaussian.cdf_lt_one x)
  rcases lt_trichotomy (gaussian.ppf (gaussian.cdf x)) x with hl | he | hl
  · have := gaussian.cdf_strictMono hl; rw [h] at this; exact absurd this (lt_irrefl _)
  · exact he
  · have := gaussian.cdf_strictMono hl; rw [h] at this; exact absurd this (lt_irrefl _)

theorem cdf_measurable : Measurable gaussian.cdf := gaussCdf_continuous.measurable

theorem map_cdf : (gaussianReal 0 1).map gaussian.cdf = uniform01 := by
  rw [← map_ppf, AEMeasurable.map_map_of_aemeasurable cdf_measurable.aemeasurable ppf_aemeasurable]
  conv_rhs => rw [← Measure.map_id (μ := uniform01)]
  refine Measure.map_congr ?_
  unfold uniform01
  filter_upwards [ae_restrict_mem measurableSet_Ioo] with u hu
  exact gaussian.cdf_ppf hu.1 hu.2

theorem map_linear {n : Nat} (A : Matrix (Fin n) (Fin n) ℝ) :
    (Measure.pi fun _ : Fin n => gaussianReal 0 1).map (fun x => toLp 2 (A *ᵥ x)) = multivariateGaussian 0 (A * Aᵀ) := by
  have hpsd : (A * Aᵀ).PosSemidef := by
    have := Matrix.posSemidef_self_mul_conjTranspose A
    rwa [conjTranspose_eq_transpose_of_trivial] at this
  have hm : Measurable fun x : Fin n → ℝ => toLp 2 (A *ᵥ x) := by fun_prop
  haveI : IsProbabilityMeasure ((Measure.pi fun _ : Fin n => gaussianReal 0 1).map (fun x => toLp 2 (A *ᵥ x))) :=
    Measure.isProbabilityMeasure_map hm.aemeasurable
  apply Measure.ext_of_charFun (E := EuclideanSpace ℝ (Fin n))
  ext t
  rw [charFun_multivariateGaussian hpsd, charFun_apply, integral_map hm.aemeasurable (by fun_prop)]
  have h1 : ∀ x : Fin n → ℝ, (⟪toLp 2 (A *ᵥ x), t⟫ : ℝ) = ⟪toLp 2 x, toLp 2 (Aᵀ *ᵥ ofLp t)⟫ := by
    intro x
    simp only [EuclideanSpace.inner_eq_star_dotProduct, star_trivial]
    rw [dotProduct_comm, dotProduct_comm (Aᵀ *ᵥ ofLp t), mulVec_transpose, dotProduct_comm (A *ᵥ x), dotProduct_mulVec,
      dotProduct_comm]
  simp_rw [h1]
  have h2 := charFun_stdGaussian (E := EuclideanSpace ℝ (Fin n)) (toLp 2 (Aᵀ *ᵥ ofLp t))
  rw [← map_pi_eq_stdGaussian, charFun_apply, integral_map (by fun_prop) (by fun_prop)] at h2
  rw [h2]
  congr 1
  have h3 : ‖toLp 2 (Aᵀ *ᵥ ofLp t)‖ ^ 2 = ofLp t ⬝ᵥ (A * Aᵀ) *ᵥ ofLp t := by
    rw [← real_inner_self_eq_norm_sq]
    simp only [EuclideanSpace.inner_eq_star_dotProduct, star_trivial]
    rw [← mulVec_mulVec, dotProduct_mulVec, ← mulVec_transpose, transpose_transpose, dotProduct_comm]
  rw [← h3]
  simp
  ring

/-! ## What is applied to the normal samples -/

/-- the matrix that the normal samples are multiplied with -/
noncomputable def factor {n : Nat} : Factors n → Matrix (Fin n) (Fin n) ℝ
  | .cholesky L => L
  | .svd U s _ => U * diagonal (fun i => Real.sqrt (s i))

theorem correlate_eq {n N : Nat} (f : Factors n) (z : Matrix (Fin n) (Fin N) ℝ) : correlate f z = factor f * z := by
  cases f with
  | cholesky L => rfl
  | svd U s Vt =>
    simp only [correlate, factor, transpose_mul, transpose_transpose, diagonal_transpose, Matrix.mul_assoc]

theorem svd_gram {n : Nat} (U : Matrix (Fin n) (Fin n) ℝ) (s : Fin n → ℝ) (hs : ∀ i, 0 ≤ s i) :
    U * diagonal (fun i => Real.sqrt (s i)) * (U * diagonal (fun i => Real.sqrt (s i)))ᵀ = U * diagonal s * Uᵀ := by
  rw [transpose_mul, diagonal_transpose, Matrix.mul_assoc, ← Matrix.mul_assoc (diagonal _) (diagonal _), diagonal_mul_diagonal,
    ← Matrix.mul_assoc]
  congr 3
  funext i
  exact Real.mul_self_sqrt (hs i)

theorem posSemidef_gram {n : Nat} (A : Matrix (Fin n) (Fin n) ℝ) : (A * Aᵀ).PosSemidef := by
  have := Matrix.posSemidef_self_mul_conjTranspose A
  rwa [conjTranspose_eq_transpose_of_trivial] at this

/-- two positive semidefinite matrices with the same square are the same -/
theorem eq_of_mul_self {n : Nat} {P Q : Matrix (Fin n) (Fin n) ℝ} (hP : P.PosSemidef) (hQ : Q.PosSemidef) (h : P * P = Q * Q) : P = Q := by
  rw [← CFC.sqrt_mul_self P hP.nonneg, h, CFC.sqrt_mul_self Q hQ.nonneg]

theorem factor_gram {n : Nat} {Rho : Matrix (Fin n) (Fin n) ℝ} (hR : Rho.PosSemidef) {f : Factors n} (h : Valid Rho f) :
    factor f * (factor f)ᵀ = Rho := by
  cases f with
  | cholesky L => exact h.2.2
  | svd U s Vt =>
    obtain ⟨-, hU, hV, hs, hR'⟩ := h
    refine eq_of_mul_self (posSemidef_gram _) hR ?_
    simp only [factor]
    rw [svd_gram U s hs]
    have hsym : Rhoᵀ = Rho := by
      have := hR.1
      rwa [Matrix.IsHermitian, conjTranspose_eq_transpose_of_trivial] at this
    have h1 : Rho * Rho = U * diagonal s * (diagonal s * Uᵀ) := by
      conv_lhs => arg 2; rw [← hsym]
      rw [← hR', transpose_mul, transpose_mul, diagonal_transpose, Matrix.mul_assoc (U * diagonal s) Vt, ← Matrix.mul_assoc Vt, hV,
        Matrix.one_mul]
    rw [h1]
    rw [Matrix.mul_assoc (U * diagonal s) Uᵀ, ← Matrix.mul_assoc Uᵀ, ← Matrix.mul_assoc Uᵀ, hU, Matrix.one_mul]

/-- the trace is larger than it should be unless the matrix is positive semidefinite -/
theorem svd_trace {n : Nat} {Rho U Vt : Matrix (Fin n) (Fin n) ℝ} {s : Fin n → ℝ} (hU : Uᵀ * U = 1) (hV : Vt * Vtᵀ = 1)
    (hs : ∀ i, 0 ≤ s i) (hR : U * diagonal s * Vt = Rho) (ht : (U * diagonal s * Uᵀ).trace ≤ Rho.trace) : Rho.PosSemidef := by
  have hw : ∀ k, (Vt * U) k k ≤ 1 ∧ ((Vt * U) k k = 1 → ∀ j, Vt k j = U j k) := by
    intro k
    have e1 : ∑ j, U j k * U j k = 1 := by
      have := congrFun (congrFun hU k) k
      simpa [Matrix.mul_apply] using this
    have e2 : ∑ j, Vt k j * Vt k j = 1 := by
      have := congrFun (congrFun hV k) k
      simpa [Matrix.mul_apply] using this
    have e3 : (Vt * U) k k = ∑ j, Vt k j * U j k := by simp [Matrix.mul_apply]
    have e4 : ∑ j, (Vt k j - U j k) ^ 2 = 2 - 2 * (Vt * U) k k := by
      rw [e3, Finset.mul_sum]
      have : ∀ j, (Vt k j - U j k) ^ 2 = Vt k j * Vt k j + U j k * U j k - 2 * (Vt k j * U j k) := by intro j; ring
      simp_rw [this]
      rw [Finset.sum_sub_distrib, Finset.sum_add_distrib, e1, e2]
      ring
    have e5 : 0 ≤ ∑ j, (Vt k j - U j k) ^ 2 := Finset.sum_nonneg fun j _ => sq_nonneg _
    refine ⟨by linarith, fun h j => ?_⟩
    have e6 : ∑ j, (Vt k j - U j k) ^ 2 = 0 := by rw [e4, h]; ring
    have := (Finset.sum_eq_zero_iff_of_nonneg (fun j _ => sq_nonneg _)).1 e6 j (Finset.mem_univ j)
    have := pow_eq_zero_iff (two_ne_zero) |>.1 this
    linarith
  have t1 : (U * diagonal s * Uᵀ).trace = ∑ k, s k := by
    rw [Matrix.trace_mul_comm, ← Matrix.mul_assoc, hU, Matrix.one_mul, Matrix.trace_diagonal]
  have t2 : Rho.trace = ∑ k, s k * (Vt * U) k k := by
    rw [← hR, Matrix.trace_mul_comm, ← Matrix.mul_assoc]
    simp only [Matrix.trace, Matrix.diag_apply, Matrix.mul_diagonal]
    exact Finset.sum_congr rfl fun k _ => mul_comm _ _
  have hz : ∀ k, s k * (1 - (Vt * U) k k) = 0 := by
    have hn : ∀ k ∈ Finset.univ, 0 ≤ s k * (1 - (Vt * U) k k) := fun k _ => mul_nonneg (hs k) (by linarith [(hw k).1])
    have hsum : ∑ k, s k * (1 - (Vt * U) k k) = 0 := by
      refine le_antisymm ?_ (Finset.sum_nonneg hn)
      have : ∀ k, s k * (1 - (Vt * U) k k) = s k - s k * (Vt * U) k k := by intro k; ring
      simp_rw [this]
      rw [Finset.sum_sub_distrib]
      linarith
    intro k
    exact (Finset.sum_eq_zero_iff_of_nonneg hn).1 hsum k (Finset.mem_univ k)
  have hD : diagonal s * Vt = diagonal s * Uᵀ := by
    ext k j
    rw [Matrix.diagonal_mul, Matrix.diagonal_mul, Matrix.transpose_apply]
    rcases mul_eq_zero.1 (hz k) with h | h
    · rw [h, zero_mul, zero_mul]
    · rw [(hw k).2 (by linarith) j]
  rw [← hR, Matrix.mul_assoc, hD, ← Matrix.mul_assoc, ← svd_gram U s hs]
  exact posSemidef_gram _

/-! ## The order of the variables -/

/-- the positions of the variables in the stored list and in the given one -/
noncomputable def position (names : List Str) (hnd : names.Nodup) (rho : Nat → Nat → ℝ) :
    Fin (CorrSet.init names rho).names.length ≃ Fin names.length where
  toFun j := ⟨names.idxOf (CorrSet.init names rho).names[j],
    List.idxOf_lt_length_of_mem ((C16_same_variables names rho).mem_iff.1 (List.getElem_mem _))⟩
  invFun i := ⟨(CorrSet.init names rho).names.idxOf names[i],
    List.idxOf_lt_length_of_mem ((C16_same_variables names rho).mem_iff.2 (List.getElem_mem _))⟩
  left_inv j := by
    have h := ((C16_same_variables names rho).nodup_iff).2 hnd
    ext
    simp [List.getElem_idxOf, h.idxOf_getElem]
  right_inv i := by
    ext
    simp [List.getElem_idxOf, hnd.idxOf_getElem]

theorem names_position (names : List Str) (hnd : names.Nodup) (rho : Nat → Nat → ℝ) (j : Fin (CorrSet.init names rho).names.length) :
    names[position names hnd rho j] = (CorrSet.init names rho).names[j] := by
  simp [position, List.getElem_idxOf]

theorem stored_eq (names : List Str) (hnd : names.Nodup) (rho : Nat → Nat → ℝ) :
    storedRho names rho = (given names rho).submatrix (position names hnd rho) (position names hnd rho) := by
  ext k l
  simp only [storedRho, given, Matrix.submatrix_apply, Matrix.of_apply]
  refine C16_entries_follow names hnd rho _ _ k l (CorrSet.init names rho).names[k]
    (CorrSet.init names rho).names[l] ?_ ?_ ?_ ?_
  · rw [← names_position names hnd rho k]; simp
  · rw [← names_position names hnd rho l]; simp
  · simp
  · simp

/-- what the normal samples are multiplied with, in the order given -/
noncomputable def givenFactor (names : List Str) (hnd : names.Nodup) (rho : Nat → Nat → ℝ)
    (f : Factors (CorrSet.init names rho).names.length) : Matrix (Fin names.length) (Fin names.length) ℝ :=
  (factor f).submatrix (position names hnd rho).symm (position names hnd rho).symm

theorem setSamples_eq {N : Nat} (names : List Str) (hnd : names.Nodup) (rho : Nat → Nat → ℝ)
    (f : Factors (CorrSet.init names rho).names.length) (u : Str → Fin N → ℝ) (i : Fin names.length) (k : Fin N) :
    setSamples names rho f u names[i] k =
      gaussian.cdf ((givenFactor names hnd rho f *ᵥ fun l => gaussian.ppf (u names[l] k)) i) := by
  have hm : names[i] ∈ (CorrSet.init names rho).names := (C16_same_variables names rho).mem_iff.2 (List.getElem_mem _)
  unfold setSamples
  rw [dif_pos hm]
  simp only [applyCorrelation, correlate_eq, Matrix.map_apply]
  congr 1
  simp only [Matrix.mul_apply, Matrix.mulVec, dotProduct, givenFactor, Matrix.submatrix_apply, Matrix.map_apply]
  rw [← Equiv.sum_comp (position names hnd rho)]
  refine Finset.sum_congr rfl fun j _ => ?_
  rw [Equiv.symm_apply_apply, names_position]
  rfl

theorem givenFactor_gram (names : List Str) (hnd : names.Nodup) (rho : Nat → Nat → ℝ)
    (f : Factors (CorrSet.init names rho).names.length) :
    givenFactor names hnd rho f * (givenFactor names hnd rho f)ᵀ =
      (factor f * (factor f)ᵀ).submatrix (position names hnd rho).symm (position names hnd rho).symm := by
  unfold givenFactor
  rw [Matrix.transpose_submatrix, Matrix.submatrix_mul_equiv]

theorem givenFactor_gram_eq (names : List Str) (hnd : names.Nodup) (rho : Nat → Nat → ℝ) (hR : (given names rho).PosSemidef)
    (f : Factors (CorrSet.init names rho).names.length) (hf : Valid (storedRho names rho) f) :
    givenFactor names hnd rho f * (givenFactor names hnd rho f)ᵀ = given names rho := by
  rw [givenFactor_gram, factor_gram _ hf, stored_eq names hnd rho]
  · ext i j; simp
  · rw [stored_eq names hnd rho]; exact hR.submatrix _

theorem rows_of_gram {n : Nat} (G : Matrix (Fin n) (Fin n) ℝ) (i j : Fin n) (c : ℝ) (hi : (G * Gᵀ) i i = 1) (hj : (G * Gᵀ) j j = 1)
    (hij : (G * Gᵀ) i j = c) (hc : c * c = 1) : ∀ l, G i l = c * G j l := by
  simp only [Matrix.mul_apply, Matrix.transpose_apply] at hi hj hij
  have e : ∑ l, (G i l - c * G j l) ^ 2 = 0 := by
    have : ∀ l, (G i l - c * G j l) ^ 2 = G i l * G i l + (c * c) * (G j l * G j l) - (2 * c) * (G i l * G j l) := by intro l; ring
    simp_rw [this]
    rw [Finset.sum_sub_distrib, Finset.sum_add_distrib, ← Finset.mul_sum, ← Finset.mul_sum, hi, hj, hij]
    linarith
  intro l
  have := (Finset.sum_eq_zero_iff_of_nonneg (fun j _ => sq_nonneg _)).1 e l (Finset.mem_univ l)
  have := pow_eq_zero_iff (two_ne_zero) |>.1 this
  linarith

theorem cdf_neg (x : ℝ) : gaussian.cdf (-x) = 1 - gaussian.cdf x := by
  have h1 : (gaussianReal 0 1).map (fun x => -x) = gaussianReal 0 1 := by
    have := gaussianReal_map_neg (μ := 0) (v := 1)
    rwa [neg_zero] at this
  have h2 : gaussian.cdf (-x) = (gaussianReal 0 1).real (Set.Ici x) := by
    change cdf (gaussianReal 0 1) (-x) = _
    rw [cdf_eq_real, measureReal_def, measureReal_def]
    conv_lhs => rw [← h1]
    rw [Measure.map_apply measurable_neg measurableSet_Iic]
    congr 2
    ext z
    simp
  haveI := nullSingletonClass_gaussianReal (μ := 0) (v := 1) one_ne_zero
  have h3 : (gaussianReal 0 1).real (Set.Ici x) = (gaussianReal 0 1).real (Set.Ioi x) := by
    rw [measureReal_def, measureReal_def, measure_congr Ioi_ae_eq_Ici]
  have h4 : gaussian.cdf x = (gaussianReal 0 1).real (Set.Iic x) := cdf_eq_real _ _
  rw [h2, h3, h4, ← Set.compl_Iic, probReal_compl_eq_one_sub measurableSet_Iic]

theorem cholesky_one {n : Nat} (L : Matrix (Fin n) (Fin n) ℝ) (h0 : ∀ i j, i < j → L i j = 0) (hp : ∀ i, 0 < L i i) (h : L * Lᵀ = 1) :
    L = 1 := by
  have key : ∀ m : Nat, ∀ i : Fin n, i.1 = m → ∀ j, L i j = (1 : Matrix (Fin n) (Fin n) ℝ) i j := by
    intro m
    induction m using Nat.strong_induction_on with
    | _ m ih =>
      intro i him
      have hlow : ∀ j, j < i → L i j = 0 := by
        intro j hj
        have hrow := ih j.1 (by rw [← him]; exact hj) j rfl
        have e := congrFun (congrFun h i) j
        simp only [Matrix.mul_apply, Matrix.transpose_apply, hrow, Matrix.one_apply, mul_ite, mul_one, mul_zero] at e
        rw [Finset.sum_ite_eq Finset.univ j (fun k => L i k), if_pos (Finset.mem_univ _), if_neg (fun he => (he ▸ hj).ne rfl)] at e
        exact e
      have hoff : ∀ j, j ≠ i → L i j = 0 := by
        intro j hj
        rcases lt_or_gt_of_ne hj with hl | hl
        · exact hlow j hl
        · exact h0 i j hl
      have hdiag : L i i = 1 := by
        have e := congrFun (congrFun h i) i
        simp only [Matrix.mul_apply, Matrix.transpose_apply, Matrix.one_apply_eq] at e
        rw [Finset.sum_eq_single i (fun j _ hj => by rw [hoff j hj, zero_mul]) (by simp)] at e
        have := hp i
        nlinarith
      intro j
      by_cases hj : j = i
      · subst hj; rw [hdiag, Matrix.one_apply_eq]
      · rw [hoff j hj, Matrix.one_apply_ne (Ne.symm hj)]
  ext i j
  exact key i.1 i rfl j

theorem draws_column (n N : Nat) (k : Fin N) :
    MeasurePreserving (fun (w : Fin n → Fin N → ℝ) i => w i k) (draws n N) (Measure.pi fun _ => uniform01) where
  measurable := by fun_prop
  map_eq := by
    have h : ∀ _ : Fin n, (Measure.pi fun _ : Fin N => uniform01).map (fun w => w k) = uniform01 :=
      fun _ => (measurePreserving_eval (fun _ : Fin N => uniform01) k).map_eq
    have := Measure.pi_map_pi (μ := fun _ : Fin n => Measure.pi fun _ : Fin N => uniform01) (f := fun _ w => w k)
      (fun _ => (measurable_pi_apply k).aemeasurable)
    unfold draws
    rw [this]
    exact congrArg Measure.pi (funext h)

section
variable {Ω : Type} [MeasurableSpace Ω] {P : Measure Ω} {N : Nat}

theorem hasLaw_scores {n : Nat} (A : Matrix (Fin n) (Fin n) ℝ) (w : Ω → Fin n → Fin N → ℝ) (hw : HasLaw w (draws n N) P) (k : Fin N) :
    HasLaw (fun ω => toLp 2 (A *ᵥ fun l => gaussian.ppf (w ω l k))) (multivariateGaussian 0 (A * Aᵀ)) P := by
  have h1 : HasLaw (fun ω i => w ω i k) (Measure.pi fun _ : Fin n => uniform01) P := (draws_column n N k).fun_comp_hasLaw hw
  have h2 : HasLaw (fun (v : Fin n → ℝ) l => gaussian.ppf (v l)) (Measure.pi fun _ : Fin n => gaussianReal 0 1)
      (Measure.pi fun _ : Fin n => uniform01) := by
    constructor
    · exact aemeasurable_pi_lambda _ fun i =>
        ppf_aemeasurable.comp_quasiMeasurePreserving (measurePreserving_eval (fun _ : Fin n => uniform01) i).quasiMeasurePreserving
    · rw [Measure.pi_map_pi (fun _ => ppf_aemeasurable)]
      simp_rw [map_ppf]
  have h3 : HasLaw (fun x : Fin n → ℝ => toLp 2 (A *ᵥ x)) (multivariateGaussian 0 (A * Aᵀ)) (Measure.pi fun _ : Fin n => gaussianReal 0 1) :=
    ⟨by fun_prop, map_linear A⟩
  exact h3.fun_comp (h2.fun_comp h1)

theorem hasLaw_score_row (names : List Str) (hnd : names.Nodup) (rho : Nat → Nat → ℝ)
    (f : Factors (CorrSet.init names rho).names.length)
    (u : Ω → Str → Fin N → ℝ) (hu : HasLaw (fun ω (i : Fin names.length) => u ω names[i]) (draws names.length N) P) (k : Fin N)
    (i : Fin names.length) :
    HasLaw (fun ω => (givenFactor names hnd rho f *ᵥ fun l => gaussian.ppf (u ω names[l] k)) i)
      (gaussianReal 0 ((givenFactor names hnd rho f * (givenFactor names hnd rho f)ᵀ) i i).toNNReal) P := by
  have h1 := hasLaw_scores (givenFactor names hnd rho f) _ hu k
  exact (measurePreserving_eval_multivariateGaussian (posSemidef_gram _) (i := i) (μ := 0)).fun_comp_hasLaw h1

end

theorem exists_svd {n : Nat} {Rho : Matrix (Fin n) (Fin n) ℝ} (h : Rho.IsHermitian) :
    ∃ U s Vt, Uᵀ * U = 1 ∧ Vt * Vtᵀ = 1 ∧ (∀ i, 0 ≤ s i) ∧ U * diagonal s * Vt = Rho := by
  let Q : Matrix (Fin n) (Fin n) ℝ := h.eigenvectorUnitary
  let l := h.eigenvalues
  let e : Fin n → ℝ := fun i => if 0 ≤ l i then 1 else -1
  have hQ : Qᵀ * Q = 1 := by
    have := (Matrix.mem_unitaryGroup_iff' (A := Q)).1 h.eigenvectorUnitary.2
    rwa [star_eq_conjTranspose, conjTranspose_eq_transpose_of_trivial] at this
  have he : ∀ i, e i * e i = 1 := by intro i; simp only [e]; split <;> norm_num
  refine ⟨Q, fun i => |l i|, diagonal e * Qᵀ, hQ, ?_, fun i => abs_nonneg _, ?_⟩
  · rw [transpose_mul, transpose_transpose, diagonal_transpose, Matrix.mul_assoc, ← Matrix.mul_assoc Qᵀ, hQ, Matrix.one_mul,
      diagonal_mul_diagonal]
    simp [he]
  · rw [Matrix.mul_assoc Q, ← Matrix.mul_assoc (diagonal _) (diagonal _), diagonal_mul_diagonal, ← Matrix.mul_assoc]
    have hl : (fun i => |l i| * e i) = l := by
      funext i
      simp only [e]
      split
      · rename_i hi; rw [abs_of_nonneg hi, mul_one]
      · rename_i hi; rw [abs_of_neg (not_le.1 hi)]; ring
    rw [hl]
    have := h.spectral_theorem
    rw [Unitary.conjStarAlgAut_apply] at this
    rw [this]
    rw [star_eq_conjTranspose, conjTranspose_eq_transpose_of_trivial]
    rfl

theorem exists_cholesky {n : Nat} {Rho : Matrix (Fin n) (Fin n) ℝ} (h : Rho.PosDef) :
    ∃ L : Matrix (Fin n) (Fin n) ℝ, (∀ i j, i < j → L i j = 0) ∧ (∀ i, 0 < L i i) ∧ L * Lᵀ = Rho := by
  have hpos : ∀ i, 0 < LDL.diagEntries h i := by
    have hd : (LDL.diag h).PosDef := by
      rw [LDL.diag_eq_lowerInv_conj]
      refine h.mul_mul_conjTranspose_same ?_
      exact Matrix.vecMul_injective_of_invertible _
    intro i
    have := hd.diag_pos (i := i)
    simpa [LDL.diag] using this
  let L0 : Matrix (Fin n) (Fin n) ℝ := LDL.lower h * diagonal fun i => Real.sqrt (LDL.diagEntries h i)
  have hE : L0 * L0ᵀ = Rho := by
    have := LDL.lower_conj_diag h
    rw [conjTranspose_eq_transpose_of_trivial] at this
    rw [svd_gram _ _ fun i => (hpos i).le]
    exact this
  have hT : ∀ i j, i < j → L0 i j = 0 := by
    intro i j hij
    have hb : (LDL.lowerInv h).BlockTriangular OrderDual.toDual := by
      intro i j hij
      exact LDL.lowerInv_triangular h hij
    have := blockTriangular_inv_of_blockTriangular hb
    simp only [L0, Matrix.mul_diagonal]
    rw [show LDL.lower h i j = 0 from this hij, zero_mul]
  have hdet : L0.det ≠ 0 := by
    intro h0
    have := h.det_pos
    rw [← hE, det_mul, h0, zero_mul] at this
    exact lt_irrefl _ this
  have hne : ∀ i, L0 i i ≠ 0 := by
    rw [det_of_lowerTriangular L0 (fun i j hij => hT i j hij)] at hdet
    intro i
    exact (Finset.prod_ne_zero_iff.1 hdet) i (Finset.mem_univ i)
  let e : Fin n → ℝ := fun i => if 0 ≤ L0 i i then 1 else -1
  have he : ∀ i, e i * e i = 1 := by intro i; simp only [e]; split <;> norm_num
  refine ⟨L0 * diagonal e, fun i j hij => by rw [Matrix.mul_diagonal, hT i j hij, zero_mul], fun i => ?_, ?_⟩
  · rw [Matrix.mul_diagonal]
    simp only [e]
    split
    · rename_i hi; rw [mul_one]; exact lt_of_le_of_ne hi (hne i).symm
    · rename_i hi; linarith
  · rw [transpose_mul, diagonal_transpose, Matrix.mul_assoc, ← Matrix.mul_assoc (diagonal e), diagonal_mul_diagonal]
    simp [he, hE]

/-- Every symmetric matrix has factors as scipy promises them. -/
theorem exists_valid {n : Nat} {Rho : Matrix (Fin n) (Fin n) ℝ} (h : Rho.IsHermitian) : ∃ f, Valid Rho f := by
  by_cases hp : Rho.PosDef
  · obtain ⟨L, hL⟩ := exists_cholesky hp
    exact ⟨.cholesky L, hL⟩
  · obtain ⟨U, s, Vt, hf⟩ := exists_svd h
    exact ⟨.svd U s Vt, hp, hf⟩

end Verif.Copula
