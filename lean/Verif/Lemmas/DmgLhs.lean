import Verif.Spec.DmgLhs
import Verif.Lemmas.DmgProb
import Mathlib.MeasureTheory.Measure.Lebesgue.Basic

/-! # Lemmas for C117 -/

namespace Verif.DmgLhs

open Verif.UQ Verif.DmgSample Verif.DmgProb MeasureTheory ProbabilityTheory
open Verif.Copula (uniform01)

/-- The number of permutations that map `i` to `k`. -/
theorem card_perm (n : Nat) (i k : Fin n) :
    n * (Finset.univ.filter fun σ : Equiv.Perm (Fin n) => σ i = k).card = n.factorial := by
  have hsame : ∀ k', (Finset.univ.filter fun σ : Equiv.Perm (Fin n) => σ i = k').card =
      (Finset.univ.filter fun σ : Equiv.Perm (Fin n) => σ i = k).card := by
    intro k'
    refine Finset.card_bij (fun σ _ => Equiv.swap k' k * σ) ?_ ?_ ?_
    · intro σ hσ
      simp only [Finset.mem_filter, Finset.mem_univ, true_and] at hσ ⊢
      simp [hσ]
    · intro σ _ τ _ h
      exact mul_left_cancel h
    · intro σ hσ
      refine ⟨Equiv.swap k' k * σ, ?_, ?_⟩
      · simp only [Finset.mem_filter, Finset.mem_univ, true_and] at hσ ⊢
        simp [hσ]
      · rw [← mul_assoc, Equiv.swap_mul_self, one_mul]
  have h1 : (Finset.univ : Finset (Equiv.Perm (Fin n))).card =
      ∑ k', (Finset.univ.filter fun σ : Equiv.Perm (Fin n) => σ i = k').card :=
    Finset.card_eq_sum_card_fiberwise fun _ _ => Finset.mem_univ _
  rw [Finset.card_univ, Fintype.card_perm, Fintype.card_fin] at h1
  rw [h1]
  simp [hsame]

theorem uniform_scaled (n : Nat) (hn : 0 < n) (k : Nat) {B : Set ℝ} (hB : MeasurableSet B) :
    uniform01 {u | ((k : ℝ) + u) / n ∈ B} = n * volume (Set.Ioo ((k : ℝ) / n) ((k + 1) / n) ∩ B) := by
  have hnr : (0 : ℝ) < n := by exact_mod_cast hn
  have hm : Measurable fun u : ℝ => ((k : ℝ) + u) / n := (measurable_const.add measurable_id).div_const _
  unfold uniform01
  rw [Measure.restrict_apply (show MeasurableSet {u | ((k : ℝ) + u) / n ∈ B} from hm hB)]
  have e : {u | ((k : ℝ) + u) / n ∈ B} ∩ Set.Ioo 0 1 =
      (fun u => (k : ℝ) + u) ⁻¹' ((fun u => (n : ℝ)⁻¹ * u) ⁻¹' (Set.Ioo ((k : ℝ) / n) ((k + 1) / n) ∩ B)) := by
    ext u
    simp only [Set.mem_inter_iff, Set.mem_setOf_eq, Set.mem_Ioo, Set.mem_preimage]
    have e1 : (n : ℝ)⁻¹ * (k + u) = (k + u) / n := by rw [div_eq_inv_mul]
    rw [e1, div_lt_div_iff_of_pos_right hnr, div_lt_div_iff_of_pos_right hnr, and_comm]
    refine and_congr_left fun _ => ?_
    constructor <;> rintro ⟨h1, h2⟩ <;> constructor <;> linarith
  rw [e, measure_preimage_add, Real.volume_preimage_mul_left (by positivity)]
  congr 1
  rw [inv_inv, abs_of_pos hnr, ENNReal.ofReal_natCast]

theorem uniform_strata (n : Nat) (hn : 0 < n) {B : Set ℝ} (hB : MeasurableSet B) :
    ∑ k ∈ Finset.range n, volume (Set.Ioo ((k : ℝ) / n) ((k + 1) / n) ∩ B) = uniform01 B := by
  have hnr : (0 : ℝ) < n := by exact_mod_cast hn
  have h1 : ∀ k, volume (Set.Ioo ((k : ℝ) / n) ((k + 1) / n) ∩ B) = volume (Set.Ico ((k : ℝ) / n) ((k + 1) / n) ∩ B) := by
    intro k
    exact measure_congr ((Ioo_ae_eq_Ico (μ := volume)).inter (ae_eq_refl _))
  have h2 : uniform01 B = volume (Set.Ico (0 : ℝ) 1 ∩ B) := by
    unfold uniform01
    rw [Measure.restrict_apply hB, Set.inter_comm]
    exact measure_congr ((Ioo_ae_eq_Ico (μ := volume)).inter (ae_eq_refl _))
  simp only [h1]
  rw [h2]
  have key : ∀ m ≤ n, ∑ k ∈ Finset.range m, volume (Set.Ico ((k : ℝ) / n) ((k + 1) / n) ∩ B) =
      volume (Set.Ico (0 : ℝ) ((m : ℝ) / n) ∩ B) := by
    intro m
    induction m with
    | zero => intro _; simp
    | succ m ih =>
      intro hm
      rw [Finset.sum_range_succ, ih (by omega)]
      rw [← measure_union]
      · rw [← Set.union_inter_distrib_right, Set.Ico_union_Ico_eq_Ico]
        · push_cast; rfl
        · positivity
        · exact div_le_div_of_nonneg_right (by linarith) hnr.le
      · rw [Set.disjoint_left]
        rintro u ⟨⟨_, a⟩, _⟩ ⟨⟨b, _⟩, _⟩
        linarith
      · exact measurableSet_Ico.inter hB
  rw [key n le_rfl, div_self hnr.ne']

variable {Ω : Type} [MeasurableSpace Ω] {P : Measure Ω} {n : Nat} {dc dl : Ω → Nat → Draws ℝ}
  {perm : Bool × Nat × Nat → Ω → Equiv.Perm (Fin n)}

theorem value_eq (h : RandomLhs P n dc dl perm) (t : Bool × Nat × Nat × Fin n) (ω : Ω) :
    value .lhs dc dl t ω = ((perm (t.1, t.2.1, t.2.2.1) ω t.2.2.2 : ℕ) + number dc dl t ω) / n := by
  have h1 := h.perms (t.1, t.2.1, t.2.2.1) ω
  have h2 := (h.numbers (t.1, t.2.1, t.2.2.1) ω).1
  simp only at h1 h2
  have hi : t.2.2.2.1 < (((if t.1 then dl ω else dc ω) t.2.1).jitter t.2.2.1).length := by rw [h2]; exact t.2.2.2.2
  unfold value number
  simp only [drawRow]
  rw [h1, List.getD_eq_getElem?_getD, List.getElem?_zipWith, List.getD_eq_getElem?_getD, List.getElem?_eq_getElem hi,
    List.getElem?_ofFn, dif_pos t.2.2.2.2]
  simp

theorem good (h : RandomLhs P n dc dl perm) (c : Bool) (ω : Ω) (j : Nat) :
    GoodDraws n ((if c then dl ω else dc ω) j).perm ((if c then dl ω else dc ω) j).jitter := by
  intro v
  refine ⟨?_, h.numbers (c, j, v) ω⟩
  have := h.perms (c, j, v) ω
  simp only at this
  rw [this]
  have e : (List.ofFn fun i => (perm (c, j, v) ω i : ℕ)) = (List.ofFn (perm (c, j, v) ω)).map Fin.val := by
    rw [List.map_ofFn]; rfl
  have e2 : List.range n = (List.ofFn fun i : Fin n => i).map Fin.val := by
    apply List.ext_getElem <;> simp
  rw [e, e2]
  refine List.Perm.map _ ?_
  refine (List.perm_ext_iff_of_nodup ?_ ?_).2 ?_
  · exact List.nodup_ofFn.2 (perm (c, j, v) ω).injective
  · exact List.nodup_ofFn.2 fun _ _ h => h
  · intro a
    simp only [List.mem_ofFn]
    exact ⟨fun _ => ⟨a, rfl⟩, fun _ => ⟨(perm (c, j, v) ω).symm a, by simp⟩⟩

theorem value_measurable (h : RandomLhs P n dc dl perm) (t : Bool × Nat × Nat × Fin n) :
    Measurable (value .lhs dc dl t) := by
  have e : value .lhs dc dl t = fun ω => ((perm (t.1, t.2.1, t.2.2.1) ω t.2.2.2 : ℕ) + number dc dl t ω) / n :=
    funext fun ω => value_eq h t ω
  rw [e]
  refine Measurable.div_const (Measurable.add ?_ (h.measurable t)) _
  exact (Measurable.of_discrete (f := fun σ : Equiv.Perm (Fin n) => ((σ t.2.2.2 : ℕ) : ℝ))).comp (h.perm_measurable _)

theorem perm_at {σ : Ω → Equiv.Perm (Fin n)} (hσ : Measurable σ) (heq : ∀ τ, P {ω | σ ω = τ} = (n.factorial : ENNReal)⁻¹)
    (i k : Fin n) : P {ω | σ ω i = k} = (n : ENNReal)⁻¹ := by
  have e : {ω | σ ω i = k} = ⋃ τ ∈ Finset.univ.filter fun τ : Equiv.Perm (Fin n) => τ i = k, {ω | σ ω = τ} := by
    ext ω
    simp
  rw [e, measure_biUnion_finset]
  · simp only [heq]
    rw [Finset.sum_const, nsmul_eq_mul]
    have hc := card_perm n i k
    have hn : (n : ENNReal) ≠ 0 := by
      have := i.pos
      exact_mod_cast this.ne'
    rw [← hc]
    push_cast
    rw [ENNReal.mul_inv (.inl hn) (.inl (ENNReal.natCast_ne_top _)), mul_left_comm,
      ENNReal.mul_inv_cancel _ (ENNReal.natCast_ne_top _), mul_one]
    intro h0
    have h0' : (Finset.univ.filter fun τ : Equiv.Perm (Fin n) => τ i = k).card = 0 := by exact_mod_cast h0
    rw [h0', mul_zero] at hc
    exact n.factorial_ne_zero hc.symm
  · intro τ _ τ' _ hne
    rw [Function.onFun, Set.disjoint_left]
    intro ω h1 h2
    exact hne (h1.symm.trans h2)
  · intro τ _
    exact hσ (MeasurableSet.of_discrete (s := {τ}))

/-- A uniform number in a stratum that is chosen by a random permutation is uniform. -/
theorem lhs_law {σ : Ω → Equiv.Perm (Fin n)} {U : Ω → Fin n → ℝ} (hσ : Measurable σ) (hU : ∀ i, Measurable fun ω => U ω i)
    (heq : ∀ τ, P {ω | σ ω = τ} = (n.factorial : ENNReal)⁻¹) (hind : IndepFun σ U P) (i : Fin n)
    (hlaw : HasLaw (fun ω => U ω i) uniform01 P) :
    Measurable (fun ω => ((σ ω i : ℕ) + U ω i) / n) ∧ HasLaw (fun ω => ((σ ω i : ℕ) + U ω i) / n) uniform01 P := by
  have hmeas : Measurable (fun ω => ((σ ω i : ℕ) + U ω i) / n) := by
    refine Measurable.div_const (Measurable.add ?_ (hU i)) _
    exact (Measurable.of_discrete (f := fun τ : Equiv.Perm (Fin n) => ((τ i : ℕ) : ℝ))).comp hσ
  refine ⟨hmeas, hmeas.aemeasurable, ?_⟩
  ext B hB
  rw [Measure.map_apply hmeas hB]
  have hn : 0 < n := i.pos
  have hm : ∀ k : Fin n, MeasurableSet {u : ℝ | (((k : ℕ) : ℝ) + u) / n ∈ B} := fun k =>
    ((measurable_const.add measurable_id).div_const (n : ℝ)) hB
  have e : (fun ω => ((σ ω i : ℕ) + U ω i) / n) ⁻¹' B = ⋃ k ∈ (Finset.univ : Finset (Fin n)),
      (σ ⁻¹' {τ | τ i = k} ∩ U ⁻¹' {f | f i ∈ {u : ℝ | (((k : ℕ) : ℝ) + u) / n ∈ B}}) := by
    ext ω
    simp only [Set.mem_preimage, Finset.mem_univ, Set.iUnion_true, Set.mem_iUnion, Set.mem_inter_iff, Set.mem_setOf_eq]
    constructor
    · intro hb
      exact ⟨_, rfl, hb⟩
    · rintro ⟨k, rfl, hb⟩
      exact hb
  have hpm : ∀ k : Fin n, MeasurableSet {f : Fin n → ℝ | f i ∈ {u : ℝ | (((k : ℕ) : ℝ) + u) / n ∈ B}} := fun k =>
    (measurable_pi_apply i) (hm k)
  have hUm : Measurable U := measurable_pi_lambda _ hU
  rw [e, measure_biUnion_finset]
  · have hterm : ∀ k : Fin n, P (σ ⁻¹' {τ | τ i = k} ∩ U ⁻¹' {f | f i ∈ {u : ℝ | (((k : ℕ) : ℝ) + u) / n ∈ B}}) =
        volume (Set.Ioo (((k : ℕ) : ℝ) / n) ((((k : ℕ) : ℝ) + 1) / n) ∩ B) := by
      intro k
      rw [hind.measure_inter_preimage_eq_mul _ _ .of_discrete (hpm k)]
      have h1 : P (σ ⁻¹' {τ | τ i = k}) = (n : ENNReal)⁻¹ := perm_at hσ heq i k
      have h2 : P (U ⁻¹' {f | f i ∈ {u : ℝ | (((k : ℕ) : ℝ) + u) / n ∈ B}}) = uniform01 {u | (((k : ℕ) : ℝ) + u) / n ∈ B} :=
        hlaw.measure_eq (p := fun u => (((k : ℕ) : ℝ) + u) / n ∈ B) (hm k)
      have hn0 : (n : ENNReal) ≠ 0 := by exact_mod_cast hn.ne'
      rw [h1, h2, uniform_scaled n hn k hB, ← mul_assoc, ENNReal.inv_mul_cancel hn0 (ENNReal.natCast_ne_top _), one_mul]
    simp only [hterm]
    rw [Fin.sum_univ_eq_sum_range (fun k : ℕ => volume (Set.Ioo ((k : ℝ) / n) (((k : ℝ) + 1) / n) ∩ B)) n]
    exact uniform_strata n hn hB
  · intro k _ k' _ hne
    rw [Function.onFun, Set.disjoint_left]
    rintro ω ⟨h1, _⟩ ⟨h2, _⟩
    exact hne (h1.symm.trans h2)
  · intro k _
    exact (hσ .of_discrete).inter (hUm (hpm k))

theorem value_law (h : RandomLhs P n dc dl perm) (t : Bool × Nat × Nat × Fin n) :
    HasLaw (value .lhs dc dl t) uniform01 P := by
  have e : value .lhs dc dl t = fun ω => ((perm (t.1, t.2.1, t.2.2.1) ω t.2.2.2 : ℕ) + number dc dl t ω) / n :=
    funext fun ω => value_eq h t ω
  rw [e]
  exact (lhs_law (U := fun ω i => number dc dl (t.1, t.2.1, t.2.2.1, i) ω) (h.perm_measurable _) (fun i => h.measurable _)
    (h.equally _) (h.within _) t.2.2.2 (h.uniform t)).2

theorem values (h : RandomLhs P n dc dl perm) : UniformValues P .lhs n dc dl where
  capacities ω j := good h false ω j
  states ω j := good h true ω j
  measurable := value_measurable h
  uniform := value_law h
  columns i := by
    have := h.between.comp (fun _ (y : Equiv.Perm (Fin n) × (Fin n → ℝ)) => (((y.1 i : ℕ) : ℝ) + y.2 i) / n) (fun _ => by
      refine Measurable.div_const (Measurable.add ?_ ?_) _
      · exact (Measurable.of_discrete (f := fun σ : Equiv.Perm (Fin n) => ((σ i : ℕ) : ℝ))).comp measurable_fst
      · exact (measurable_pi_apply i).comp measurable_snd)
    convert this using 2 with c
    funext ω
    exact value_eq h _ ω

end Verif.DmgLhs
