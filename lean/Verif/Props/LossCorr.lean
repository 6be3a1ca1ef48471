import Verif.Spec.LossCorr
import Verif.Props.LossProb
import Verif.Props.LossLfProb
import Verif.Lemmas.CorrSample

/-!
# C124: correlated costs and times

Specification in `Spec/LossCorr.lean`.
-/

namespace Verif.LossCorr

open Verif.UQ Verif.LossDs Verif.LossDev Verif.LossProb MeasureTheory ProbabilityTheory WithLp Matrix
open Verif.SampleProb (RandomGen value value_law value_indep good)
open Verif.Copula (uniform01 uniform_Iic ppf_aemeasurable map_ppf map_cdf map_linear cdf_measurable)

variable {Ω : Type} [MeasurableSpace Ω] {P : Measure Ω} {N : Num ℝ} {s : Setting} {r q : ℝ} {m : Method} {perm : Ω → Nat → List Nat}
  {jitter : Ω → Nat → List ℝ} {σ : Nat → Ω → Equiv.Perm (Fin s.rows.length)} {out : Ω → List (OutKey × List ℝ)}

/-- A measurable function that is the normal quantile apart from a set of probability zero. -/
noncomputable def quantile : ℝ → ℝ := ppf_aemeasurable.mk gaussian.ppf

theorem quantile_measurable : Measurable quantile := ppf_aemeasurable.measurable_mk

theorem quantile_ae : ∀ᵐ x ∂uniform01, gaussian.ppf x = quantile x := ppf_aemeasurable.ae_eq_mk

theorem map_quantile : uniform01.map quantile = gaussianReal 0 1 := by
  rw [← map_ppf]
  exact Measure.map_congr (quantile_ae.mono fun _ h => h.symm)

/-- The factor of the correlation matrix. -/
def root (r q : ℝ) : Matrix (Fin 2) (Fin 2) ℝ := !![1, 0; r, q]

theorem root_gram (h : r * r + q * q = 1) : root r q * (root r q)ᵀ = !![1, r; r, 1] := by
  ext a b
  fin_cases a <;> fin_cases b <;> simp [root, Matrix.mul_apply, Fin.sum_univ_two, h]

theorem root_mul (x : Fin 2 → ℝ) : (root r q *ᵥ x) 0 = x 0 ∧ (root r q *ᵥ x) 1 = r * x 0 + q * x 1 := by
  constructor <;> simp [root, Matrix.mulVec, dotProduct, Fin.sum_univ_two]

/-- Two independent quantiles have independent normal distributions. -/
theorem vec_law {n : Nat} {σ : Nat → Ω → Equiv.Perm (Fin n)} (h : RandomGen P n perm jitter σ) (hm : m = .monteCarlo ∨ m = .lhs) (i : Fin n)
    (num : Fin 2 → Nat) (hnum : Function.Injective num) :
    P.map (fun ω b => quantile (value m n perm jitter (num b) i ω)) = Measure.pi fun _ => gaussianReal 0 1 := by
  have h1 := ((value_indep h hm i).precomp hnum).comp (fun _ => quantile) (fun _ => quantile_measurable)
  haveI := h1.isProbabilityMeasure
  have h2 := (iIndepFun_iff_map_fun_eq_pi_map (fun b => (quantile_measurable.comp (value_law h hm (num b) i).1).aemeasurable)).1 h1
  refine Eq.trans h2 ?_
  congr 1
  funext b
  rw [← map_quantile, ← (value_law h hm (num b) i).2.map_eq, Measure.map_map quantile_measurable (value_law h hm (num b) i).1]

/-- The events of a pair, in terms of normal variables. -/
def both (r q a b : ℝ) : Set (Fin 2 → ℝ) := {y | gaussian.cdf ((root r q *ᵥ y) 0) ≤ a ∧ gaussian.cdf ((root r q *ᵥ y) 1) ≤ b}

theorem mulVec_measurable (e : Fin 2) : Measurable fun y : Fin 2 → ℝ => gaussian.cdf ((root r q *ᵥ y) e) := by
  refine cdf_measurable.comp ?_
  fun_prop

theorem both_measurable (a b : ℝ) : MeasurableSet (both r q a b) :=
  (measurableSet_le (mulVec_measurable 0) measurable_const).inter (measurableSet_le (mulVec_measurable 1) measurable_const)

theorem pair_measurable (e : Fin 2) (a : ℝ) : MeasurableSet {w : EuclideanSpace ℝ (Fin 2) | gaussian.cdf (w e) ≤ a} := by
  refine measurableSet_le (cdf_measurable.comp ?_) measurable_const
  fun_prop

theorem pi_map (h : r * r + q * q = 1) :
    (Measure.pi fun _ : Fin 2 => gaussianReal 0 1).map (fun x => toLp 2 (root r q *ᵥ x)) = pairNormal r := by
  rw [map_linear, root_gram h]
  rfl

theorem both_law (h : r * r + q * q = 1) (a b : ℝ) :
    (Measure.pi fun _ : Fin 2 => gaussianReal 0 1) (both r q a b) = pairNormal r {w | gaussian.cdf (w 0) ≤ a ∧ gaussian.cdf (w 1) ≤ b} := by
  rw [← pi_map h]
  refine Eq.symm (Eq.trans (Measure.map_apply (by fun_prop) ((pair_measurable 0 a).inter (pair_measurable 1 b))) ?_)
  rfl

/-- Normal quantile of the random number of a consequence. -/
noncomputable def score (s : Setting) (m : Method) (perm : Ω → Nat → List Nat) (jitter : Ω → Nat → List ℝ) (i : Nat) (c : Consequence) (ω : Ω) : ℝ :=
  gaussian.ppf (value m s.rows.length perm jitter (number s c) i ω)

theorem score_ae (h : CorrRepair P N s r q m perm jitter σ out) (i : Nat) (hi : i < s.rows.length) (c : Consequence) :
    ∀ᵐ ω ∂P, score s m perm jitter i c ω = quantile (value m s.rows.length perm jitter (number s c) i ω) := by
  have hl := value_law h.draws h.method (number s c) ⟨i, hi⟩
  have := quantile_ae
  rw [← hl.2.map_eq] at this
  exact ae_of_ae_map hl.1.aemeasurable this

/-- The consequence has a random variable. -/
def IsRandom (s : Setting) (c : Consequence) : Prop := Random s.params s.missing s.cols s.lossMap s.dvs c.dv c.k c.loss c.p c.family

/-- Cost and time of the same damaged quantity, with any parameters. -/
structure Mates (s : Setting) (c t : Consequence) : Prop where
  cost : c.dv = str "Cost"
  time : t.dv = str "Time"
  same : c.k = t.k
  cost_random : IsRandom s c
  time_random : IsRandom s t

theorem Pair.mates {c t : Consequence} (h : Pair s c t) : Mates s c t := ⟨h.cost, h.time, h.same, h.cost_valid.random, h.time_valid.random⟩

theorem number_inj (h : CorrRepair P N s r q m perm jitter σ out) (ω : Ω) {c c' : Consequence} (hc : IsRandom s c) (hc' : IsRandom s c')
    (e : number s c = number s c') : c.dv = c'.dv ∧ c.k = c'.k := by
  obtain ⟨d, u, dev, ⟨h1, _, _⟩, _⟩ := explained_at (h.run ω)
  exact h1 _ _ _ _ _ _ _ _ _ _ hc hc' e

theorem gauss2_pairs (D : StdDist ℝ) (r q : ℝ) (a b : List ℝ) : ∃ a' b', gauss2 D r q [a, b] = [a', b'] := ⟨_, _, rfl⟩

/-- The losses of a pair. -/
theorem pair_le (h : CorrRepair P N s r q m perm jitter σ out) (ω : Ω) {c t : Consequence} (hp : Mates s c t) {i : Nat}
    (hi : i < s.rows.length) :
    (c.Valid s → ∀ a : ℚ, Scale s c i a → 0 < a → ∀ z : ℝ, N.eps ≤ z / a →
      ((∃ x, Loss (out ω) c i x ∧ x ≤ z) ↔ gaussian.cdf (score s m perm jitter i c ω) ≤ upTo N c a z)) ∧
    (t.Valid s → ∀ b : ℚ, Scale s t i b → 0 < b → ∀ z : ℝ, N.eps ≤ z / b →
      ((∃ x, Loss (out ω) t i x ∧ x ≤ z) ↔
        gaussian.cdf (r * score s m perm jitter i c ω + q * score s m perm jitter i t ω) ≤ upTo N t b z)) := by
  obtain ⟨d, u, dev, hE, hC, -⟩ := correlated_at N s.eco s.params s.spread s.missing s.cols s.lossMap s.dvs _ (gauss2_pairs N.D r q) m _ _ s.rows _
    h.names (h.run ω)
  have hcr := hp.cost_random
  unfold IsRandom at hcr
  have htr := hp.time_random
  unfold IsRandom at htr
  rw [hp.cost] at hcr
  rw [hp.time, ← hp.same] at htr
  have hg := hC _ _ _ _ _ _ _ hcr htr
  obtain ⟨g1, -⟩ := hE.2.1 _ _ _ _ _ hcr
  obtain ⟨g2, -⟩ := hE.2.1 _ _ _ _ _ htr
  obtain ⟨v1, -⟩ := value_get h.draws hi g1
  obtain ⟨v2, -⟩ := value_get h.draws hi g2
  have e1 : numberOf s.params s.spread s.missing s.cols s.lossMap s.dvs (str "Cost") c.k = number s c := by
    unfold number; rw [hp.cost]
  have e2 : numberOf s.params s.spread s.missing s.cols s.lossMap s.dvs (str "Time") c.k = number s t := by
    unfold number; rw [hp.time, hp.same]
  rw [e1] at v1
  rw [e2] at v2
  simp only [gauss2, List.cons.injEq, and_true] at hg
  have hc1 : (u c.dv c.k)[i]? = some (gaussian.cdf (score s m perm jitter i c ω)) := by
    rw [hp.cost, ← hg.1, List.getElem?_map, v1]
    simp [score, h.normal]
  have ht1 : (u t.dv t.k)[i]? = some (gaussian.cdf (r * score s m perm jitter i c ω + q * score s m perm jitter i t ω)) := by
    rw [hp.time, ← hp.same, ← hg.2, List.getElem?_zipWith, v1, v2]
    simp [score, h.normal]
  exact ⟨fun hv a ha ha0 z hz => loss_le_of h.eps h.states (h.run ω) hE hv hi ha ha0 hz hc1 (gaussian.cdf_pos _).le (gaussian.cdf_lt_one _),
    fun hv b hb hb0 z hz => loss_le_of h.eps h.states (h.run ω) hE hv hi hb hb0 hz ht1 (gaussian.cdf_pos _).le (gaussian.cdf_lt_one _)⟩

theorem pair_inj (h : CorrRepair P N s r q m perm jitter σ out) (ω : Ω) {c t : Consequence} (hp : Mates s c t) :
    Function.Injective ![number s c, number s t] := by
  have hne : number s c ≠ number s t := by
    intro e
    have := (number_inj h ω hp.cost_random hp.time_random e).1
    rw [hp.cost, hp.time] at this
    exact absurd this (by decide)
  intro a b e
  fin_cases a <;> fin_cases b <;> simp_all [eq_comm]

/-- C124: costs and times are correlated.  In each realization, the cost and the time of a damaged quantity have the joint distribution of the Gaussian
copula with the correlation asked for and the distributions of the consequence database, and different damaged quantities are
independent.  (The word "Cost" must not be part of other names, see C91.) -/
theorem C124_joint_partial (h : CorrRepair P N s r q m perm jitter σ out) (i : Nat) (hi : i < s.rows.length) {l : Nat} (c t : Fin l → Consequence)
    (hp : ∀ j, Pair s (c j) (t j)) (hdiff : ∀ j j', (c j).k = (c j').k → j = j') (a b : Fin l → ℚ)
    (ha : ∀ j, Scale s (c j) i (a j) ∧ 0 < a j) (hb : ∀ j, Scale s (t j) i (b j) ∧ 0 < b j) (x y : Fin l → ℝ)
    (hx : ∀ j, N.eps ≤ x j / a j) (hy : ∀ j, N.eps ≤ y j / b j) :
    P {ω | ∀ j, (∃ v, Loss (out ω) (c j) i v ∧ v ≤ x j) ∧ ∃ v, Loss (out ω) (t j) i v ∧ v ≤ y j} =
      ∏ j, pairNormal r {w | gaussian.cdf (w 0) ≤ upTo N (c j) (a j) (x j) ∧ gaussian.cdf (w 1) ≤ upTo N (t j) (b j) (y j)} := by
  obtain ⟨ω0⟩ := SampleProb.probability_nonempty h.draws (by omega)
  set num : (Σ _ : Fin l, Fin 2) → Nat := fun e => ![number s (c e.1), number s (t e.1)] e.2 with hnum
  have hinj : Function.Injective num := by
    rintro ⟨j, e⟩ ⟨j', e'⟩ heq
    have hk : j = j' := by
      apply hdiff
      simp only [hnum] at heq
      fin_cases e <;> fin_cases e' <;> simp at heq
      · exact (number_inj h ω0 (hp j).mates.cost_random (hp j').mates.cost_random heq).2
      · rw [(number_inj h ω0 (hp j).mates.cost_random (hp j').mates.time_random heq).2, (hp j').same]
      · rw [(hp j).same, (number_inj h ω0 (hp j).mates.time_random (hp j').mates.cost_random heq).2]
      · rw [(hp j).same, (hp j').same, (number_inj h ω0 (hp j).mates.time_random (hp j').mates.time_random heq).2]
    subst hk
    have : e = e' := pair_inj h ω0 (hp j).mates heq
    rw [this]
  have hind := ((value_indep h.draws h.method ⟨i, hi⟩).precomp hinj).comp (fun _ => quantile) (fun _ => quantile_measurable)
  have hgrp := LossLfProb.group_indep (κ := fun _ : Fin l => Fin 2)
    (D := fun e ω => quantile (value m s.rows.length perm jitter (num e) i ω)) hind
    (fun e => quantile_measurable.comp (value_law h.draws h.method (num e) ⟨i, hi⟩).1)
  have h1 := hgrp.measure_inter_preimage_eq_mul Finset.univ
    (sets := fun j => both r q (upTo N (c j) (a j) (x j)) (upTo N (t j) (b j) (y j))) (fun j _ => both_measurable _ _)
  have h2 : P {ω | ∀ j, (∃ v, Loss (out ω) (c j) i v ∧ v ≤ x j) ∧ ∃ v, Loss (out ω) (t j) i v ∧ v ≤ y j} =
      P (⋂ j ∈ (Finset.univ : Finset (Fin l)), (fun ω (e : Fin 2) => quantile (value m s.rows.length perm jitter (num ⟨j, e⟩) i ω)) ⁻¹'
        both r q (upTo N (c j) (a j) (x j)) (upTo N (t j) (b j) (y j))) := by
    refine measure_congr ?_
    have hae : ∀ᵐ ω ∂P, ∀ j, score s m perm jitter i (c j) ω = quantile (value m s.rows.length perm jitter (number s (c j)) i ω) ∧
        score s m perm jitter i (t j) ω = quantile (value m s.rows.length perm jitter (number s (t j)) i ω) :=
      ae_all_iff.2 fun j => (score_ae h i hi (c j)).and (score_ae h i hi (t j))
    filter_upwards [hae] with ω hω
    refine propext ?_
    change (∀ j, (∃ v, Loss (out ω) (c j) i v ∧ v ≤ x j) ∧ ∃ v, Loss (out ω) (t j) i v ∧ v ≤ y j) ↔
      ω ∈ ⋂ j ∈ (Finset.univ : Finset (Fin l)), (fun ω (e : Fin 2) => quantile (value m s.rows.length perm jitter (num ⟨j, e⟩) i ω)) ⁻¹'
        both r q (upTo N (c j) (a j) (x j)) (upTo N (t j) (b j) (y j))
    simp only [Set.mem_iInter, Finset.mem_univ, forall_true_left, Set.mem_preimage]
    refine forall_congr' fun j => ?_
    obtain ⟨p1, p2⟩ := pair_le h ω (hp j).mates hi
    rw [p1 (hp j).cost_valid _ (ha j).1 (ha j).2 _ (hx j), p2 (hp j).time_valid _ (hb j).1 (hb j).2 _ (hy j), (hω j).1, (hω j).2]
    unfold both
    simp only [Set.mem_setOf_eq, root_mul]
    rfl
  rw [h2, h1]
  refine Finset.prod_congr rfl fun j _ => ?_
  rw [← both_law h.root.2, ← vec_law h.draws h.method ⟨i, hi⟩ _ (pair_inj h ω0 (hp j).mates), Measure.map_apply ?_ (both_measurable _ _)]
  exact measurable_pi_lambda _ fun e => quantile_measurable.comp (value_law h.draws h.method _ ⟨i, hi⟩).1

theorem pairNormal_one (h : r * r + q * q = 1) (e : Fin 2) {p : ℝ} (h0 : 0 ≤ p) (h1 : p ≤ 1) :
    pairNormal r {w | gaussian.cdf (w e) ≤ p} = ENNReal.ofReal p := by
  have hpsd : (!![1, r; r, 1] : Matrix (Fin 2) (Fin 2) ℝ).PosSemidef := by
    rw [← root_gram h]
    exact Copula.posSemidef_gram _
  have hm := (measurePreserving_eval_multivariateGaussian (μ := 0) hpsd (i := e)).hasLaw
  have he : (!![1, r; r, 1] : Matrix (Fin 2) (Fin 2) ℝ) e e = 1 := by fin_cases e <;> simp
  rw [he] at hm
  have h2 := hm.measure_eq (p := fun x => gaussian.cdf x ≤ p) (measurableSet_le cdf_measurable measurable_const)
  unfold pairNormal
  refine Eq.trans h2 ?_
  rw [← uniform_Iic h0 h1, ← map_cdf, Measure.map_apply cdf_measurable measurableSet_Iic]
  simp
  rfl

/-- C124: the correlation does not change the distribution of a loss. -/
theorem C124_one_partial (h : CorrRepair P N s r q m perm jitter σ out) (i : Nat) (hi : i < s.rows.length) (c : Consequence) (hc : c.Valid s)
    (a : ℚ) (ha : Scale s c i a) (ha0 : 0 < a) (z : ℝ) (hz : N.eps ≤ z / a) :
    P {ω | ∃ x, Loss (out ω) c i x ∧ x ≤ z} = ENNReal.ofReal (upTo N c a z) := by
  obtain ⟨ω0⟩ := SampleProb.probability_nonempty h.draws (by omega)
  have hrange : 0 ≤ upTo N c a z ∧ upTo N c a z ≤ 1 := devCdf_range N h.eps hc.center_pos hc.spread_pos hz
  have hpair : ∀ (d t : Consequence) (e : Fin 2), Mates s d t →
      (∀ ω, (∃ x, Loss (out ω) c i x ∧ x ≤ z) ↔
        gaussian.cdf ((root r q *ᵥ ![score s m perm jitter i d ω, score s m perm jitter i t ω]) e) ≤ upTo N c a z) →
      P {ω | ∃ x, Loss (out ω) c i x ∧ x ≤ z} = ENNReal.ofReal (upTo N c a z) := by
    intro d t e hp hiff
    rw [← pairNormal_one h.root.2 e hrange.1 hrange.2, ← pi_map h.root.2, Measure.map_apply (by fun_prop) (pair_measurable e _),
      ← vec_law h.draws h.method ⟨i, hi⟩ _ (pair_inj h ω0 hp), Measure.map_apply]
    · refine measure_congr ?_
      filter_upwards [score_ae h i hi d, score_ae h i hi t] with ω h1 h2
      refine propext ?_
      refine (hiff ω).trans ?_
      rw [h1, h2]
      have : (fun b : Fin 2 => quantile (value m s.rows.length perm jitter (![number s d, number s t] b) i ω)) =
          ![quantile (value m s.rows.length perm jitter (number s d) i ω), quantile (value m s.rows.length perm jitter (number s t) i ω)] := by
        funext b
        fin_cases b <;> rfl
      change _ ↔ gaussian.cdf ((root r q *ᵥ fun b : Fin 2 => quantile (value m s.rows.length perm jitter (![number s d, number s t] b) i ω)) e) ≤ _
      rw [this]
    · exact measurable_pi_lambda _ fun e => quantile_measurable.comp (value_law h.draws h.method _ ⟨i, hi⟩).1
    · exact measurableSet_le (mulVec_measurable e) measurable_const
  have hroot : ∀ u v : ℝ, (root r q *ᵥ ![u, v]) 0 = u ∧ (root r q *ᵥ ![u, v]) 1 = r * u + q * v := fun u v => root_mul _
  by_cases hA : c.dv = str "Cost" ∧ ∃ loss p f, Random s.params s.missing s.cols s.lossMap s.dvs (str "Time") c.k loss p f
  · obtain ⟨hdv, loss, p, f, hr⟩ := hA
    have hm : Mates s c ⟨str "Time", c.k, loss, p, f, 0⟩ := ⟨hdv, rfl, rfl, hc.random, hr⟩
    refine hpair c _ 0 hm fun ω => ?_
    rw [(pair_le h ω hm hi).1 hc a ha ha0 z hz, (hroot _ _).1]
  by_cases hB : c.dv = str "Time" ∧ ∃ loss p f, Random s.params s.missing s.cols s.lossMap s.dvs (str "Cost") c.k loss p f
  · obtain ⟨hdv, loss, p, f, hr⟩ := hB
    have hm : Mates s ⟨str "Cost", c.k, loss, p, f, 0⟩ c := ⟨rfl, hdv, rfl, hr, hc.random⟩
    refine hpair _ c 1 hm fun ω => ?_
    rw [(pair_le h ω hm hi).2 hc a ha ha0 z hz, (hroot _ _).2]
  · have hset : {ω | ∃ x, Loss (out ω) c i x ∧ x ≤ z} = value m s.rows.length perm jitter (number s c) i ⁻¹' Set.Iic (upTo N c a z) := by
      ext ω
      obtain ⟨d, u, dev, hE, -, hU⟩ := correlated_at N s.eco s.params s.spread s.missing s.cols s.lossMap s.dvs _ (gauss2_pairs N.D r q) m _ _ s.rows _
        h.names (h.run ω)
      have hu := hU _ _ _ _ _ hc.random (fun e he => hA ⟨e, he⟩) (fun e he => hB ⟨e, he⟩)
      obtain ⟨g1, -⟩ := hE.2.1 _ _ _ _ _ hc.random
      obtain ⟨v1, v2, v3⟩ := value_get h.draws hi g1
      exact loss_le_of h.eps h.states (h.run ω) hE hc hi ha ha0 hz (by rw [hu]; exact v1) v2 v3
    rw [hset, ← uniform_Iic hrange.1 hrange.2]
    exact (value_law h.draws h.method (number s c) ⟨i, hi⟩).2.measure_eq (p := fun x => x ∈ Set.Iic (upTo N c a z)) measurableSet_Iic

/-! ### A concrete case -/

/-- There are calculations with the correlation 3/5 and the numbers of a random number generator. -/
theorem ex_corr (m : Method) (hm : m = .monteCarlo ∨ m = .lhs) :
    ∃ (Ω : Type) (_ : MeasurableSpace Ω) (P : Measure Ω) (perm : Ω → Nat → List Nat) (jitter : Ω → Nat → List ℝ)
      (σ : Nat → Ω → Equiv.Perm (Fin exSetting.rows.length)) (out : Ω → List (OutKey × List ℝ)),
      CorrRepair P exNum exSetting (3 / 5) (4 / 5) m perm jitter σ out := by
  obtain ⟨Ω, mΩ, P, perm, jitter, σ, h⟩ := SampleProb.draws_exist exSetting.rows.length
  have hm' : m ≠ .other := by rcases hm with rfl | rfl <;> simp
  choose out hout using fun ω => ex_succeeds (some (gauss2 exNum.D (3 / 5) (4 / 5))) m hm' (perm ω) (jitter ω)
  refine ⟨Ω, mΩ, P, perm, jitter, σ, out, ex_eps, rfl, by norm_num, ex_states, ?_, hm, h, hout⟩
  rintro dv k loss p f ⟨hdv, hk, -⟩
  simp only [exSetting, List.mem_cons, List.not_mem_nil, or_false] at hdv
  simp only [exSetting, devCols, List.mem_cons, List.not_mem_nil, or_false] at hk
  unfold NoCost
  rcases hdv with rfl | rfl <;> rcases hk with rfl | rfl | rfl <;> decide

theorem ex_pair : Pair exSetting exCost exTime := ⟨rfl, rfl, rfl, ex_valid.1, ex_valid.2⟩

theorem ex_scale (c : Consequence) (hk : c.k = exCost.k) (hf : c.p.family ≠ none) (hx : ∃ x, c.p.theta = .const x) : Scale exSetting c 0 3 := by
  obtain ⟨x, hx⟩ := hx
  refine ⟨_, 3, 1, rfl, by rw [hk]; rfl, ?_, by norm_num⟩
  unfold UnitMedian
  rw [hx]
  simp [hf]

/-- Three damaged units in the first realization: the probability that the cost is at most 15 and the time at most 6. -/
example {Ω : Type} [MeasurableSpace Ω] {P : Measure Ω} {perm : Ω → Nat → List Nat} {jitter : Ω → Nat → List ℝ}
    {σ : Nat → Ω → Equiv.Perm (Fin exSetting.rows.length)} {out : Ω → List (OutKey × List ℝ)}
    (h : CorrRepair P exNum exSetting (3 / 5) (4 / 5) .lhs perm jitter σ out) :
    P {ω | ∀ _ : Fin 1, (∃ x, Loss (out ω) exCost 0 x ∧ x ≤ 15) ∧ ∃ x, Loss (out ω) exTime 0 x ∧ x ≤ 6} =
      pairNormal (3 / 5) {w | gaussian.cdf (w 0) ≤ upTo exNum exCost 3 15 ∧ gaussian.cdf (w 1) ≤ upTo exNum exTime 3 6} := by
  have he1 : exNum.eps ≤ 1 := by
    have := gaussian.cdf_pos 0
    show 1 - gaussian.cdf 0 ≤ 1
    linarith
  have := C124_joint_partial h 0 (by decide) (fun _ : Fin 1 => exCost) (fun _ => exTime) (fun _ => ex_pair)
    (fun _ _ _ => Subsingleton.elim _ _) (fun _ => 3) (fun _ => 3)
    (fun _ => ⟨ex_scale exCost rfl (by simp [exCost]) ⟨5, rfl⟩, by norm_num⟩)
    (fun _ => ⟨ex_scale exTime rfl (by simp [exTime]) ⟨2, rfl⟩, by norm_num⟩) (fun _ => 15) (fun _ => 6)
    (fun _ => by norm_num; linarith) (fun _ => by norm_num; linarith)
  rw [this, Fin.prod_univ_one]

end Verif.LossCorr
