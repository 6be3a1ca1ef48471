import Verif.Spec.CorrSample
import Verif.Props.SampleProb
import Verif.Props.Copula
import Verif.Lemmas.UQSets

/-! # Lemmas for C122 -/

namespace Verif.CorrSample

open Verif.UQ Verif.Copula Verif.SampleProb MeasureTheory ProbabilityTheory WithLp Matrix
open Verif.DmgProb (drawRow_lt)
open scoped RealInnerProductSpace

/-- The row of a variable after correlation. -/
theorem copulaRows_get {names : List Str} {rho : Nat → Nat → ℝ} (f : Factors (CorrSet.init names rho).names.length)
    (row : Str → List ℝ) {n : Nat} (hlen : ∀ a ∈ (CorrSet.init names rho).names, (row a).length = n) {a : Str}
    (ha : a ∈ (CorrSet.init names rho).names) :
    ∃ u, (copulaRows f ((CorrSet.init names rho).names.map row))[(CorrSet.init names rho).names.idxOf a]? = some u ∧ u.length = n ∧
      ∀ (i : Nat), i < n → u[i]? = some (setSamples (N := 1) names rho f (fun b _ => (row b).getD i 0) a 0) := by
  have hidx : (CorrSet.init names rho).names.idxOf a < (CorrSet.init names rho).names.length := List.idxOf_lt_length_of_mem ha
  have hW : (((CorrSet.init names rho).names.map row).headD []).length = n := by
    cases hs : (CorrSet.init names rho).names with
    | nil => rw [hs] at ha; simp at ha
    | cons b t =>
      simp only [List.map_cons, List.headD_cons]
      exact hlen b (by rw [hs]; simp)
  have h1 : ∃ u, (copulaRows f ((CorrSet.init names rho).names.map row))[(CorrSet.init names rho).names.idxOf a]? = some u ∧
      u = List.ofFn fun k : Fin (((CorrSet.init names rho).names.map row).headD []).length =>
        applyCorrelation f (fun l (i : Fin (((CorrSet.init names rho).names.map row).headD []).length) =>
          (((CorrSet.init names rho).names.map row).getD l []).getD i 0) ⟨_, hidx⟩ k := by
    refine ⟨_, ?_, rfl⟩
    unfold copulaRows
    rw [List.getElem?_ofFn, dif_pos hidx]
  obtain ⟨u, h1, rfl⟩ := h1
  refine ⟨_, h1, by rw [List.length_ofFn, hW], ?_⟩
  intro i hi
  rw [List.getElem?_ofFn, dif_pos (by rw [hW]; exact hi)]
  unfold setSamples
  rw [dif_pos ha]
  simp only [Copula.applyCorrelation, correlate_eq, Matrix.map_apply, Option.some.injEq]
  congr 1
  simp only [Matrix.mul_apply, Matrix.map_apply]
  refine Finset.sum_congr rfl fun l _ => ?_
  have : ((CorrSet.init names rho).names.map row).getD l [] = row (CorrSet.init names rho).names[l] := by
    rw [List.getD_eq_getElem?_getD, List.getElem?_map, List.getElem?_eq_getElem l.2]
    rfl
  simp only [Matrix.map, Matrix.of_apply, this]

variable {Ω : Type} [MeasurableSpace Ω] {P : Measure Ω} {n : Nat} {perm : Ω → Nat → List Nat} {jitter : Ω → Nat → List ℝ}
  {σ : Nat → Ω → Equiv.Perm (Fin n)} {m : Method} {N : Num ℝ} {r : Registry ℝ} {r' : Ω → Registry ℝ}
  {names : List Str} {rho : Nat → Nat → ℝ} {f : Factors (CorrSet.init names rho).names.length}

/-- The uniform number of a variable in realization `i`, before correlation. -/
noncomputable def before (r : Registry ℝ) (m : Method) (perm : Ω → Nat → List Nat) (jitter : Ω → Nat → List ℝ) (i : Fin n) (ω : Ω)
    (a : Str) (_ : Fin 1) : ℝ := value m n perm jitter (r.free.idxOf a) i ω

theorem own_var (hs : HasSet r names rho f) (hr : RegInv r) {v : RV ℝ} (hv : v ∈ r.vars.map Prod.snd) (hn : v.name ∈ names) :
    ∃ s ∈ r.sets.map Prod.snd, s.members.map RV.name = (CorrSet.init names rho).names ∧ s.copula = copulaRows f ∧ v ∈ s.members := by
  obtain ⟨s, h1, h2, h3⟩ := hs.set
  refine ⟨s, h1, h2, h3, ?_⟩
  have : v.name ∈ s.members.map RV.name := by
    rw [h2]; exact (C16_same_variables names rho).mem_iff.2 hn
  obtain ⟨w, hw, e⟩ := List.mem_map.1 this
  have g1 := vars_get? hr hv
  rw [← e, vars_get? hr (hs.registered s h1 w hw)] at g1
  obtain rfl := Option.some.inj g1
  exact hw

/-- A variable of the set is computed from its correlated row. -/
theorem correlated_row (h : Sampling P N r n m perm jitter σ r') (hs : HasSet r names rho f) (ω : Ω) {v : RV ℝ}
    (hv : v ∈ r.vars.map Prod.snd) (hn : v.name ∈ names) (hmul : Unshared r v) (hu : v.kind.utility = false) :
    ∃ u s u', v.kind.inverse N u = .ok (s, u') ∧ (r' ω).samples.get? v.name = some s ∧ u.length = n ∧
      ∀ i : Fin n, u[i.1]? = some (setSamples names rho f (before r m perm jitter i ω) v.name 0) := by
  obtain ⟨s, hsm, hnm, hcop, hvs⟩ := own_var hs h.names hv hn
  have hroot := hs.own s hsm v hvs
  have hg := h.run ω
  unfold generateSample at hg
  split at hg
  · simp at hg
  rename_i uni hd
  unfold drawUniform at hd
  split at hd
  · simp at hd
  rename_i uni1 ha
  split at hg
  · simp at hg
  rename_i st hst
  simp only [Except.ok.injEq] at hg
  obtain ⟨u, x, u', h1, h2, h3⟩ := transformAll_own N n _ _ _ (DemandGen.names_nodup h.names) hst v hv hu
    (by rw [hroot]; exact hmul)
  obtain ⟨rows, hrows, hres⟩ := applySets_disjoint _ _ _ hs.own hs.once hs.disjoint hd s hsm
  -- the rows of the members
  have hrow : ∀ w ∈ s.members, ∃ row, drawRow m n (perm ω (r.free.idxOf w.name)) (jitter ω (r.free.idxOf w.name)) = .ok row ∧
      uni1.get? w.name = some row := by
    intro w hw
    have hfree := root_free h.names h.anchors (hs.registered s hsm w hw)
    rw [hs.own s hsm w hw] at hfree
    have hidx : r.free[r.free.idxOf w.name]? = some w.name := by
      have hlt := List.idxOf_lt_length_iff.2 hfree
      rw [List.getElem?_eq_getElem hlt, List.getElem_idxOf]
    obtain ⟨row, e1, e2⟩ := (assignUni_spec m n _ _ r.free 0 _ _ (free_nodup h.names) ha).2 _ _ hidx
    rw [Nat.zero_add] at e1
    exact ⟨row, e1, e2⟩
  let rowOf : Str → List ℝ := fun a => (uni1.get? a).getD []
  have hrows' : rows = (CorrSet.init names rho).names.map rowOf := by
    rw [← hnm, List.map_map]
    clear hres
    have : ∀ {l : List (RV ℝ)} {rs : List (List ℝ)}, List.Forall₂ (fun (v : RV ℝ) row => uni1.get? v.name = some row) l rs →
        rs = l.map (rowOf ∘ RV.name) := by
      intro l rs hf
      induction hf with
      | nil => rfl
      | cons e _ ih => rw [List.map_cons, ← ih]; simp [rowOf, e]
    exact this hrows
  have hmem : ∀ a ∈ (CorrSet.init names rho).names, ∃ w ∈ s.members, w.name = a := by
    intro a ha
    rw [← hnm] at ha
    obtain ⟨w, hw, e⟩ := List.mem_map.1 ha
    exact ⟨w, hw, e⟩
  have hlen : ∀ a ∈ (CorrSet.init names rho).names, (rowOf a).length = n := by
    intro a ha
    obtain ⟨w, hw, rfl⟩ := hmem a ha
    obtain ⟨row, e1, e2⟩ := hrow w hw
    simp only [rowOf, e2, Option.getD_some]
    exact (drawRow_lt (good h.draws ω) _ e1).1
  have hin : v.name ∈ (CorrSet.init names rho).names := (C16_same_variables names rho).mem_iff.2 hn
  obtain ⟨uc, c1, c2, c3⟩ := copulaRows_get f rowOf hlen hin
  have hpos : s.members[(CorrSet.init names rho).names.idxOf v.name]? = some v := by
    obtain ⟨j, hj, e⟩ := List.mem_iff_getElem.1 hvs
    have : (CorrSet.init names rho).names.idxOf v.name = j := by
      have hnd := hs.once s hsm
      have e2 : (s.members.map RV.name)[j]'(by simpa using hj) = v.name := by rw [List.getElem_map, e]
      rw [← hnm, ← e2, hnd.idxOf_getElem]
    rw [this, List.getElem?_eq_getElem hj, e]
  have hget := hres _ v uc hpos (by rw [hcop, hrows']; exact c1)
  rw [hroot, hget] at h1
  obtain rfl := Option.some.inj h1
  refine ⟨_, x, u', h2, by rw [← hg]; exact h3, c2, ?_⟩
  intro i
  rw [c3 i i.2]
  unfold setSamples
  rw [dif_pos hin, dif_pos hin]
  congr 3
  funext l k
  have hl : (CorrSet.init names rho).names[l] ∈ (CorrSet.init names rho).names := List.getElem_mem _
  obtain ⟨w, hw, e⟩ := hmem _ hl
  obtain ⟨row, e1, e2⟩ := hrow w hw
  unfold before value
  rw [← e, e1]
  simp only [rowOf, e2, Option.getD_some]

/-! ### The distribution of the scores -/

theorem in_free (h : Sampling P N r n m perm jitter σ r') (hs : HasSet r names rho f) {a : Str} (ha : a ∈ names) : a ∈ r.free := by
  obtain ⟨s, hsm, hnm, _⟩ := hs.set
  have : a ∈ s.members.map RV.name := by rw [hnm]; exact (C16_same_variables names rho).mem_iff.2 ha
  obtain ⟨w, hw, rfl⟩ := List.mem_map.1 this
  have := root_free h.names h.anchors (hs.registered s hsm w hw)
  rwa [hs.own s hsm w hw] at this

theorem before_law (h : Sampling P N r n m perm jitter σ r') (hs : HasSet r names rho f) (hnd : names.Nodup) (i : Fin n) :
    HasLaw (fun ω (j : Fin names.length) => before r m perm jitter i ω names[j]) (draws names.length 1) P := by
  have hinj : Function.Injective fun j : Fin names.length => r.free.idxOf names[j] := by
    intro j j' e
    have h1 : names[j] = names[j'] := (List.idxOf_inj (in_free h hs (List.getElem_mem _))).1 e
    exact Fin.ext ((List.Nodup.getElem_inj_iff hnd).1 h1)
  have hind := (value_indep h.draws h.method i).precomp hinj
  have h1 : HasLaw (fun ω (j : Fin names.length) => value m n perm jitter (r.free.idxOf names[j]) i ω)
      (Measure.pi fun _ => uniform01) P :=
    hind.hasLaw_pi fun j => (value_law h.draws h.method _ i).2
  have h2 : MeasurePreserving (fun (x : Fin names.length → ℝ) j (_ : Fin 1) => x j) (Measure.pi fun _ => uniform01)
      (draws names.length 1) := by
    unfold draws
    exact measurePreserving_pi _ _ fun j => (measurePreserving_funUnique uniform01 (Fin 1)).symm
  exact h2.hasLaw.fun_comp h1

/-- The normal quantile of the correlated uniform number of a variable. -/
noncomputable def score (f : Factors (CorrSet.init names rho).names.length) (r : Registry ℝ) (m : Method) (perm : Ω → Nat → List Nat)
    (jitter : Ω → Nat → List ℝ) (i : Fin n) (ω : Ω) (j : Fin names.length) : ℝ :=
  gaussian.ppf (setSamples names rho f (before r m perm jitter i ω) names[j] 0)

theorem cdf_score (hnd : names.Nodup) (i : Fin n) (ω : Ω) (j : Fin names.length) :
    setSamples names rho f (before r m perm jitter i ω) names[j] 0 = gaussian.cdf (score f r m perm jitter i ω j) := by
  unfold score
  rw [setSamples_eq names hnd, ppf_cdf]

theorem score_law (h : Sampling P N r n m perm jitter σ r') (hs : HasSet r names rho f) (hc : Correlation names rho f) (i : Fin n) :
    HasLaw (fun ω => toLp 2 (score f r m perm jitter i ω)) (multivariateGaussian 0 (given names rho)) P :=
  C114_copula names hc.distinct rho hc.semidefinite f hc.factors _ (before_law h hs hc.distinct i) 0

theorem score_ne (h : Sampling P N r n m perm jitter σ r') (hs : HasSet r names rho f) (hc : Correlation names rho f) (i : Fin n)
    (j : Fin names.length) (c : ℝ) : ∀ᵐ ω ∂P, gaussian.cdf (score f r m perm jitter i ω j) ≠ c := by
  have h1 := (measurePreserving_eval_multivariateGaussian (μ := 0) hc.semidefinite (i := j)).hasLaw.fun_comp (score_law h hs hc i)
  have hu : given names rho j j = 1 := hc.unit j j.2
  rw [hu] at h1
  have h2 : ∀ᵐ x ∂(gaussianReal ((0 : EuclideanSpace ℝ (Fin names.length)) j) (1 : ℝ).toNNReal), x ≠ gaussian.ppf c := by
    haveI : NullSingletonClass (gaussianReal ((0 : EuclideanSpace ℝ (Fin names.length)) j) (1 : ℝ).toNNReal) :=
      nullSingletonClass_gaussianReal (by simp)
    exact Measure.ae_ne _ _
  have h3 := (h1.ae_iff (p := fun x => x ≠ gaussian.ppf c)
    (measurableSet_setOfPred.1 (measurableSet_singleton _).compl)).2 h2
  filter_upwards [h3] with ω hω e
  apply hω
  rw [← e, ppf_cdf]

/-- In almost every case the value of a variable is in `A` when its correlated uniform number is in `B`. -/
theorem decided_corr (h : Sampling P N r n m perm jitter σ r') (hs : HasSet r names rho f) (hc : Correlation names rho f) (i : Fin n)
    (j : Fin names.length) {v : RV ℝ} (hv : v ∈ r.vars.map Prod.snd) (hn : v.name = names[j]) (hmul : Unshared r v)
    (hu : v.kind.utility = false) {A : Ext ℝ → Prop} {B : Set ℝ} (hd : Decides N v.kind A B) :
    ∀ᵐ ω ∂P, ((∃ y, valueOf (r' ω).samples v.name i = some y ∧ A y) ↔ gaussian.cdf (score f r m perm jitter i ω j) ∈ B) := by
  obtain ⟨c, hdc⟩ := hd
  filter_upwards [score_ne h hs hc i j c] with ω hω
  have hmem : v.name ∈ names := by rw [hn]; exact List.getElem_mem _
  obtain ⟨u, s, u', e1, e2, e3, e4⟩ := correlated_row h hs ω hv hmem hmul hu
  obtain ⟨l, hl, hlv⟩ := List.mem_iff_getElem.1 hmem
  have hunit : ∀ x ∈ u, 0 ≤ x ∧ x < 1 := by
    intro x hx
    obtain ⟨k, hk, rfl⟩ := List.mem_iff_getElem.1 hx
    have := e4 ⟨k, by rw [← e3]; exact hk⟩
    rw [hn, cdf_score hc.distinct, List.getElem?_eq_getElem hk] at this
    rw [Option.some.inj this]
    exact ⟨(gaussian.cdf_pos _).le, gaussian.cdf_lt_one _⟩
  have hval := e4 i
  rw [hn, cdf_score hc.distinct] at hval
  obtain ⟨y, hy, hiff⟩ := hdc u s u' e1 hunit i _ hval (gaussian.cdf_pos _) hω
  have hvo : valueOf (r' ω).samples v.name i = some y := by
    unfold valueOf
    rw [e2]
    exact hy
  rw [hvo, ← hiff]
  simp

/-- Scaling and shifting correlated standard normal variables. -/
theorem map_affine {c : Nat} (mean std : Fin c → ℝ) (R : Matrix (Fin c) (Fin c) ℝ) (hR : R.PosSemidef) :
    (multivariateGaussian 0 R).map (fun x => toLp 2 fun j => mean j + std j * x j) = jointNormal mean std R := by
  have e : (Matrix.of fun j k => std j * std k * R j k) = diagonal std * R * (diagonal std)ᵀ := by
    ext j k
    rw [diagonal_transpose, mul_diagonal, diagonal_mul]
    simp only [Matrix.of_apply]
    ring
  have hpsd : (Matrix.of fun j k => std j * std k * R j k).PosSemidef := by
    rw [e, ← conjTranspose_eq_transpose_of_trivial]
    exact hR.mul_mul_conjTranspose_same _
  have hm : Measurable fun x : EuclideanSpace ℝ (Fin c) => toLp 2 fun j => mean j + std j * x j := by fun_prop
  haveI : IsProbabilityMeasure ((multivariateGaussian 0 R).map (fun x => toLp 2 fun j => mean j + std j * x j)) :=
    Measure.isProbabilityMeasure_map hm.aemeasurable
  unfold jointNormal
  apply Measure.ext_of_charFun (E := EuclideanSpace ℝ (Fin c))
  ext t
  rw [charFun_multivariateGaussian hpsd, charFun_apply, integral_map hm.aemeasurable (by fun_prop)]
  have h1 : ∀ x : EuclideanSpace ℝ (Fin c), (⟪toLp 2 fun j => mean j + std j * x j, t⟫ : ℝ) =
      ⟪t, toLp 2 mean⟫ + ⟪x, toLp 2 fun j => std j * t j⟫ := by
    intro x
    simp only [EuclideanSpace.inner_eq_star_dotProduct, star_trivial, dotProduct]
    rw [← Finset.sum_add_distrib]
    refine Finset.sum_congr rfl fun j _ => ?_
    ring
  simp_rw [h1]
  have h2 := charFun_multivariateGaussian (μ := 0) hR (toLp 2 fun j => std j * t j)
  rw [charFun_apply] at h2
  simp only [Complex.ofReal_add, add_mul, Complex.exp_add]
  rw [integral_const_mul, h2, ← Complex.exp_add]
  congr 1
  have h3 : (ofLp (toLp 2 fun j => std j * t j) : Fin c → ℝ) ⬝ᵥ R *ᵥ ofLp (toLp 2 fun j => std j * t j) =
      ofLp t ⬝ᵥ (Matrix.of fun j k => std j * std k * R j k) *ᵥ ofLp t := by
    simp only [dotProduct, mulVec, Matrix.of_apply, Finset.mul_sum]
    refine Finset.sum_congr rfl fun j _ => Finset.sum_congr rfl fun k _ => ?_
    ring
  rw [h3]
  simp
  ring

end Verif.CorrSample
