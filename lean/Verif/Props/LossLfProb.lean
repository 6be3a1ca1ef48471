import Verif.Spec.LossLfProb
import Verif.Props.LossProb

/-!
# C121: probabilities of losses from loss functions

Specification in `Spec/LossLfProb.lean`.
-/

namespace Verif.LossLfProb

open Verif.UQ Verif.LossLf Verif.LossLfDev Verif.DemandReq MeasureTheory ProbabilityTheory
open Verif.LossDev (devCdf devCdf_lt devCdf_range)
open Verif.LossProb (cut_law)
open Verif.SampleProb (RandomGen value value_law value_indep good)
open Verif.Copula (uniform01 uniform_Iic)

variable {Ω : Type} [MeasurableSpace Ω] {P : Measure Ω}

/-! ### Laws of deviations -/

theorem ioi_pos (mean : ℝ) {std : ℝ} (hs : 0 < std) (low : ℝ) : gaussianReal mean (Real.toNNReal (std ^ 2)) (Set.Ioi low) ≠ 0 := by
  have h1 := SampleProb.normal_Iic mean std low hs
  intro h0
  have h2 : gaussianReal mean (Real.toNNReal (std ^ 2)) (Set.Iic low) = 1 := by
    rw [← prob_compl_eq_zero_iff measurableSet_Iic, Set.compl_Iic, h0]
  rw [h1] at h2
  have := gaussian.cdf_lt_one ((low - mean) / std)
  rw [ENNReal.ofReal_eq_one] at h2
  linarith

theorem law_probability (eps : ℝ) (f : Str) {c : ℝ} (hc : 0 < c) : IsProbabilityMeasure (deviationLaw eps f c) := by
  unfold deviationLaw
  split
  · exact cond_isProbabilityMeasure (ioi_pos 1 hc 0)
  · haveI := cond_isProbabilityMeasure (ioi_pos 0 hc (Real.log eps))
    exact Measure.isProbabilityMeasure_map (by fun_prop)

theorem uniform_neg {x : ℝ} (hx : x ≤ 0) : uniform01 (Set.Iic x) = 0 := by
  have h := uniform_Iic (le_refl (0 : ℝ)) zero_le_one
  rw [ENNReal.ofReal_zero] at h
  exact measure_mono_null (Set.Iic_subset_Iic.2 hx) h

variable {N : Num ℝ}

/-- The law of a deviation with a uniform random number as the value of its distribution function. -/
theorem dev_law (hD : N.D = gaussian) (hE : N.E = realExp) (he : 0 < N.eps) {f : Str} (hf : f = str "normal" ∨ f = str "lognormal")
    {c : ℝ} (hc : 0 < c) {Y dev : Ω → ℝ} (hY : Measurable Y) (hlaw : HasLaw Y uniform01 P)
    (hdev : ∀ ω, 0 ≤ dev ω ∧ (f = str "lognormal" → 0 < dev ω) ∧ devCdf N f 1 c (dev ω) = Y ω) (h01 : ∀ ω, 0 ≤ Y ω ∧ Y ω < 1) :
    Measurable[MeasurableSpace.comap Y inferInstance] dev ∧ HasLaw dev (deviationLaw N.eps f c) P := by
  have hpos : ∀ y, 0 < y → dev ⁻¹' Set.Iic y = Y ⁻¹' Set.Iic (devCdf N f 1 c y) := by
    intro y hy
    ext ω
    obtain ⟨b1, b2, b3⟩ := hdev ω
    simp only [Set.mem_preimage, Set.mem_Iic]
    rw [← b3]
    rcases b1.lt_or_eq with hp | hz
    · rw [← not_lt, ← not_lt]
      exact not_congr (devCdf_lt N one_pos hc hp (.inr hy)).symm
    · have hn : f = str "normal" := by
        rcases hf with h | h
        · exact h
        · have := b2 h; rw [← hz] at this; exact absurd this (lt_irrefl _)
      rw [← hz]
      exact ⟨fun _ => ((devCdf_lt N one_pos hc hy (.inl hn)).2 hy).le, fun _ => hy.le⟩
  have hzero : dev ⁻¹' Set.Iic 0 = if f = str "normal" then Y ⁻¹' Set.Iic 0 else ∅ := by
    ext ω
    obtain ⟨b1, b2, b3⟩ := hdev ω
    split
    · rename_i hn
      have h0 : devCdf N f 1 c 0 = 0 := by
        unfold devCdf LossDev.cutCdf
        rw [if_pos hn]
        simp
      simp only [Set.mem_preimage, Set.mem_Iic]
      rw [← b3]
      constructor
      · intro h
        rw [le_antisymm h b1, h0]
      · intro h
        by_contra hlt
        rw [not_le] at hlt
        have := (devCdf_lt N (f := f) one_pos hc hlt (.inl hn)).2 hlt
        rw [h0] at this
        linarith
    · rename_i hn
      have := b2 (hf.resolve_left hn)
      simp only [Set.mem_preimage, Set.mem_Iic, Set.mem_empty_iff_false, iff_false, not_le]
      exact this
  have hneg : ∀ y, y < 0 → dev ⁻¹' Set.Iic y = ∅ := by
    intro y hy
    ext ω
    have := (hdev ω).1
    simp only [Set.mem_preimage, Set.mem_Iic, Set.mem_empty_iff_false, iff_false, not_le]
    linarith
  have hmeas : Measurable[MeasurableSpace.comap Y inferInstance] dev := by
    refine @measurable_of_Iic ℝ Ω _ _ _ (MeasurableSpace.comap Y inferInstance) _ _ _ dev fun y => ?_
    rcases lt_trichotomy y 0 with h | rfl | h
    · rw [hneg y h]; exact @MeasurableSet.empty _ (MeasurableSpace.comap Y inferInstance)
    · rw [hzero]
      split
      · exact ⟨_, measurableSet_Iic, rfl⟩
      · exact @MeasurableSet.empty _ (MeasurableSpace.comap Y inferInstance)
    · rw [hpos y h]; exact ⟨_, measurableSet_Iic, rfl⟩
  have hm : Measurable dev := hmeas.mono hY.comap_le le_rfl
  refine ⟨hmeas, hm.aemeasurable, ?_⟩
  have hP : ∀ z, P (Y ⁻¹' Set.Iic z) = uniform01 (Set.Iic z) := fun z => hlaw.measure_eq (p := fun x => x ∈ Set.Iic z) measurableSet_Iic
  haveI := law_probability N.eps f hc
  haveI : IsProbabilityMeasure P := hlaw.isProbabilityMeasure
  haveI : IsProbabilityMeasure (P.map dev) := Measure.isProbabilityMeasure_map hm.aemeasurable
  refine Measure.ext_of_Iic _ _ fun y => ?_
  rw [Measure.map_apply hm measurableSet_Iic]
  have hnull : ∀ (mean std low x : ℝ), x ≤ low → (gaussianReal mean (Real.toNNReal (std ^ 2)))[Set.Iic x | Set.Ioi low] = 0 := by
    intro mean std low x hx
    rw [cond_apply measurableSet_Ioi, show Set.Ioi low ∩ Set.Iic x = ∅ by
      ext z; simp only [Set.mem_inter_iff, Set.mem_Ioi, Set.mem_Iic, Set.mem_empty_iff_false, iff_false]; intro h; linarith]
    simp
  by_cases hn : f = str "normal"
  · have hl : deviationLaw N.eps f c = (gaussianReal 1 (Real.toNNReal (c ^ 2)))[|Set.Ioi 0] := if_pos hn
    rw [hl]
    rcases lt_trichotomy y 0 with h | rfl | h
    · rw [hneg y h, measure_empty, hnull 1 c 0 y h.le]
    · rw [hzero, if_pos hn, hP, uniform_neg le_rfl, hnull 1 c 0 0 le_rfl]
    · have hcut := cut_law 1 c 0 y hc h.le
      have hd : devCdf N f 1 c y = LossDev.cutCdf gaussian ((0 - 1) / c) ((y - 1) / c) := by
        unfold devCdf; rw [if_pos hn, hD, one_mul]
      rw [hpos y h, hP, ← hcut, ← hd]
      by_cases hle : N.eps ≤ y
      · exact uniform_Iic (devCdf_range N he one_pos hc hle).1 (devCdf_range N he one_pos hc hle).2
      · refine uniform_Iic ?_ ?_
        · have h0 : devCdf N f 1 c 0 = 0 := by
            unfold devCdf LossDev.cutCdf
            rw [if_pos hn]
            simp
          rw [← h0]
          exact ((devCdf_lt N one_pos hc h (.inl hn)).2 h).le
        · rw [not_le] at hle
          exact ((devCdf_lt N one_pos hc he (.inl hn)).2 hle).le.trans (devCdf_range N he one_pos hc le_rfl).2
  · have hl : deviationLaw N.eps f c = ((gaussianReal 0 (Real.toNNReal (c ^ 2)))[|Set.Ioi (Real.log N.eps)]).map Real.exp := if_neg hn
    rw [hl, Measure.map_apply (by fun_prop) measurableSet_Iic]
    have hexp0 : ∀ y, y ≤ 0 → Real.exp ⁻¹' Set.Iic y = ∅ := by
      intro y hy
      ext z
      have := Real.exp_pos z
      simp only [Set.mem_preimage, Set.mem_Iic, Set.mem_empty_iff_false, iff_false, not_le]
      linarith
    rcases lt_trichotomy y 0 with h | rfl | h
    · rw [hneg y h, measure_empty, hexp0 y h.le, measure_empty]
    · rw [hzero, if_neg hn, measure_empty, hexp0 0 le_rfl, measure_empty]
    · have hexp : Real.exp ⁻¹' Set.Iic y = Set.Iic (Real.log y) := by
        ext z
        simp only [Set.mem_preimage, Set.mem_Iic]
        exact (Real.le_log_iff_exp_le h).symm
      rw [hexp, hpos y h, hP]
      by_cases hle : N.eps ≤ y
      · have hcut := cut_law 0 c (Real.log N.eps) (Real.log y) hc (Real.log_le_log he hle)
        have hd : devCdf N f 1 c y = LossDev.cutCdf gaussian ((Real.log N.eps - 0) / c) ((Real.log y - 0) / c) := by
          unfold devCdf; rw [if_neg hn, hD, hE]
          show LossDev.cutCdf gaussian ((Real.log N.eps - Real.log 1) / c) ((Real.log y - Real.log 1) / c) = _
          rw [Real.log_one]
        rw [← hcut, ← hd]
        exact uniform_Iic (devCdf_range N he one_pos hc hle).1 (devCdf_range N he one_pos hc hle).2
      · rw [not_le] at hle
        rw [hnull 0 c _ _ (Real.log_le_log h hle.le)]
        refine uniform_neg ?_
        have h0 : devCdf N f 1 c N.eps = 0 := by
          unfold devCdf LossDev.cutCdf
          rw [if_neg hn]
          simp
        have := (devCdf_lt N (f := f) one_pos hc he (.inr h)).2 hle
        rw [h0] at this
        exact this.le

theorem indep_of_comap {ι : Type} {X Y : ι → Ω → ℝ} (h : iIndepFun Y P)
    (hX : ∀ j, Measurable[MeasurableSpace.comap (Y j) inferInstance] (X j)) : iIndepFun X P := by
  have : ∀ j, ∃ g : ℝ → ℝ, Measurable g ∧ X j = g ∘ Y j := fun j => (hX j).exists_eq_measurable_comp
  choose g hg he using this
  have h2 := h.comp g hg
  have e : X = fun j => g j ∘ Y j := funext he
  rw [e]
  exact h2

/-- Groups of independent variables are independent. -/
theorem group_indep {r : Nat} {κ : Fin r → Type} [∀ j, Fintype (κ j)] {D : (Σ j, κ j) → Ω → ℝ} (hD : iIndepFun D P)
    (hm : ∀ x, Measurable (D x)) : iIndepFun (fun j ω => fun b : κ j => D ⟨j, b⟩ ω) P := by
  classical
  rw [iIndepFun_iff_measure_inter_preimage_eq_mul]
  intro S sets hsets
  induction S using Finset.induction_on with
  | empty =>
    haveI := hD.isProbabilityMeasure
    simp
  | insert j0 S hj ih =>
    rw [Finset.prod_insert hj, ← ih fun j hj' => hsets j (Finset.mem_insert_of_mem hj'), Finset.set_biInter_insert]
    have hdis : Disjoint (Finset.univ.filter fun x : Σ j, κ j => x.1 = j0) (Finset.univ.filter fun x : Σ j, κ j => x.1 ∈ S) := by
      rw [Finset.disjoint_filter]
      rintro x _ h1 h2
      exact hj (h1 ▸ h2)
    have hind := hD.indepFun_finset _ _ hdis hm
    set A : Set ((Finset.univ.filter fun x : Σ j, κ j => x.1 = j0) → ℝ) :=
      {y | (fun b => y ⟨⟨j0, b⟩, by simp⟩) ∈ sets j0} with hA
    set B : Set ((Finset.univ.filter fun x : Σ j, κ j => x.1 ∈ S) → ℝ) :=
      {y | ∀ j, ∀ hj : j ∈ S, (fun b => y ⟨⟨j, b⟩, by simpa using hj⟩) ∈ sets j} with hB
    have hAm : MeasurableSet A := by
      have hf : Measurable fun (y : (Finset.univ.filter fun x : Σ j, κ j => x.1 = j0) → ℝ) (b : κ j0) => y ⟨⟨j0, b⟩, by simp⟩ :=
        measurable_pi_lambda _ fun b => measurable_pi_apply _
      exact hf (hsets j0 (Finset.mem_insert_self _ _))
    have hBm : MeasurableSet B := by
      have e : B = ⋂ j, ⋂ hj : j ∈ S, (fun (y : (Finset.univ.filter fun x : Σ j, κ j => x.1 ∈ S) → ℝ) (b : κ j) =>
          y ⟨⟨j, b⟩, by simpa using hj⟩) ⁻¹' sets j := by
        ext y
        simp [hB]
      rw [e]
      refine MeasurableSet.iInter fun j => MeasurableSet.iInter fun hj => ?_
      have hf : Measurable fun (y : (Finset.univ.filter fun x : Σ j, κ j => x.1 ∈ S) → ℝ) (b : κ j) => y ⟨⟨j, b⟩, by simpa using hj⟩ :=
        measurable_pi_lambda _ fun b => measurable_pi_apply _
      exact hf (hsets j (Finset.mem_insert_of_mem hj))
    have key := hind.measure_inter_preimage_eq_mul _ _ hAm hBm
    have e2 : (⋂ j ∈ S, (fun ω => fun b : κ j => D ⟨j, b⟩ ω) ⁻¹' sets j) =
        (fun a (i : (Finset.univ.filter fun x : Σ j, κ j => x.1 ∈ S)) => D i a) ⁻¹' B := by
      ext ω
      simp [hB]
    rw [e2]
    exact key

/-! ### The losses -/

theorem sum_range (g : Nat → ℝ) (n : Nat) : ((List.range n).map g).sum = ∑ b ∈ Finset.range n, g b := by
  induction n with
  | zero => simp
  | succ n ih => rw [List.range_succ, Finset.sum_range_succ, List.map_append, List.sum_append, ih]; simp

theorem graph_unique {pts : List (ℚ × ℚ)} (hx : (pts.map Prod.fst).Nodup) {x m m' : ℚ} (h : OnGraph pts x m) (h' : OnGraph pts x m') :
    m = m' :=
  onClampedGraph_unique (fun _ ha _ hb e => List.inj_on_of_nodup_map hx ha hb e) (.inl h) (.inl h')

variable {s : Setting} {m : Method} {perm : Ω → Nat → List Nat} {jitter : Ω → Nat → List ℝ}
  {σ : Nat → Ω → Equiv.Perm (Fin s.n)} {out : Ω → List (LossLf.OutKey × List ℝ)}

/-- A block of a loss. -/
def key (l : RandomLoss) (b : Nat) : BlockKey := ⟨l.dv, l.pg.cmp, l.pg, b⟩

theorem random_block {l : RandomLoss} (hl : l.Valid s) {b : Nat} (hb : b < l.blocks) :
    RandomBlock s.params s.inp s.blocks (key l b) l.family :=
  ⟨⟨_, hl.group, hb⟩, hl.asked, hl.available, hl.mapped, _, hl.params, hl.random⟩

/-- C121: in each realization the deviations of the blocks of all random losses are independent and have the laws that the
parameters of the loss functions ask for, and each loss is the value of the loss function at the demand, times the
quantity, times the mean of the deviations of its blocks. -/
theorem C121_blocks (h : Losses P N s m perm jitter σ out) (i : Nat) (hi : i < s.n) : ∃ dev : RandomLoss → Nat → Ω → ℝ,
    (∀ l b, l.Valid s → b < l.blocks → Measurable (dev l b) ∧ HasLaw (dev l b) (deviationLaw N.eps l.family l.spread) P) ∧
    (∀ r (l : Fin r → RandomLoss), (∀ j, (l j).Valid s) → (∀ j j', (l j).dv = (l j').dv → (l j).pg = (l j').pg → j = j') →
      iIndepFun (fun (x : Σ j, Fin (l j).blocks) => dev (l x.1) x.2) P) ∧
    (∀ l, l.Valid s → ∀ t, Scale s l i t → ∀ ω x, Loss (out ω) l i x ↔
      x = t * ((∑ b ∈ Finset.range l.blocks, dev l b ω) / l.blocks)) := by
  have hx := fun ω => explained_at h.dvs h.groups h.positive (h.run ω)
  choose d u dev vars h0 h1 h2 h3 h4 h5 h6 h7 using hx
  have hblock : ∀ l b, l.Valid s → b < l.blocks →
      Measurable[MeasurableSpace.comap (value m s.n perm jitter (numberOf s.params s.spread s.inp s.blocks (key l b)) i) inferInstance]
        (fun ω => dev ω i (key l b)) ∧ HasLaw (fun ω => dev ω i (key l b)) (deviationLaw N.eps l.family l.spread) P := by
    intro l b hl hb
    have hr := random_block hl hb
    obtain ⟨ω0⟩ := SampleProb.probability_nonempty h.draws (by omega)
    have hf := h6 ω0 _ _ hr
    have hvl := value_law h.draws h.method (numberOf s.params s.spread s.inp s.blocks (key l b)) ⟨i, hi⟩
    have hall : ∀ ω, (0 ≤ value m s.n perm jitter (numberOf s.params s.spread s.inp s.blocks (key l b)) i ω ∧
        value m s.n perm jitter (numberOf s.params s.spread s.inp s.blocks (key l b)) i ω < 1) ∧
        (0 ≤ dev ω i (key l b) ∧ (l.family = str "lognormal" → 0 < dev ω i (key l b)) ∧
          devCdf N l.family 1 l.spread (dev ω i (key l b)) =
            value m s.n perm jitter (numberOf s.params s.spread s.inp s.blocks (key l b)) i ω) := by
      intro ω
      obtain ⟨_, g, _⟩ := h2 ω
      obtain ⟨g1, g2⟩ := g _ _ hr
      obtain ⟨c, hc, g3⟩ := g2 hf
      have hce : c = l.spread := by
        have := hl.parameter
        rw [show (s.spread ((key l b).loss, (key l b).dv)).head? = some l.spread from this] at hc
        exact (Option.some.inj hc).symm
      subst hce
      have hu := h3 ω rfl _ ((h0 ω _).2 ⟨_, _, hr, rfl⟩)
      simp only at hu g1 g3
      obtain ⟨hlen, hunit⟩ := DmgProb.drawRow_lt (good h.draws ω) _ g1
      have hget : (d ω (blockLabel (key l b)))[i]? = some ((d ω (blockLabel (key l b)))[i]'(by omega)) := List.getElem?_eq_getElem (by omega)
      have hval : value m s.n perm jitter (numberOf s.params s.spread s.inp s.blocks (key l b)) i ω =
          (d ω (blockLabel (key l b)))[i]'(by omega) := by
        unfold SampleProb.value
        rw [g1]
        simp only [List.getD_eq_getElem?_getD, hget, Option.getD_some]
      obtain ⟨hy0, hy1⟩ := hunit _ (List.getElem_mem (by omega : i < (d ω (blockLabel (key l b))).length))
      rw [← hval] at hget hy0 hy1
      rw [hu] at g3
      exact ⟨⟨hy0, hy1⟩, g3 h.eps hl.spread_pos i _ hi hget hy0 hy1⟩
    exact dev_law h.normal h.exponential h.eps hf hl.spread_pos hvl.1 hvl.2 (fun ω => (hall ω).2) fun ω => (hall ω).1
  refine ⟨fun l b ω => dev ω i (key l b), ?_, ?_, ?_⟩
  · intro l b hl hb
    have := hblock l b hl hb
    exact ⟨this.1.mono (value_law h.draws h.method _ ⟨i, hi⟩).1.comap_le le_rfl, this.2⟩
  · intro r l hl hdiff
    obtain ⟨ω0⟩ := SampleProb.probability_nonempty h.draws (by omega)
    have hf : Function.Injective fun (x : Σ j, Fin (l j).blocks) => numberOf s.params s.spread s.inp s.blocks (key (l x.1) x.2) := by
      rintro ⟨j, b⟩ ⟨j', b'⟩ e
      have := (h2 ω0).1 _ _ _ _ (random_block (hl j) b.2) (random_block (hl j') b'.2) e
      have e1 : (l j).dv = (l j').dv := congrArg BlockKey.dv this
      have e2 : (l j).pg = (l j').pg := congrArg BlockKey.pg this
      have e3 : (b : Nat) = b' := congrArg BlockKey.block this
      obtain rfl := hdiff j j' e1 e2
      have : b = b' := Fin.ext e3
      rw [this]
    exact indep_of_comap ((value_indep h.draws h.method ⟨i, hi⟩).precomp hf) fun x => (hblock _ _ (hl x.1) x.2.2).1
  · intro l hl t ht ω x
    obtain ⟨edp, values, qs, y, q, mm, k1, k2, k3, k4, k5, k6, rfl⟩ := ht
    have hent : ∀ o ∈ out ω, o.1 = ⟨l.dv, l.pg.cmp, l.pg⟩ → o.2[i]? =
        some (((mm * q : ℚ) : ℝ) * ((∑ b ∈ Finset.range l.blocks, dev ω i (key l b)) / l.blocks)) := by
      intro o ho hkey
      obtain ⟨nb, a1, a2, a3, p, pl, edp', values', qs', a4, a5, a6, a7, a8, a9⟩ := (h2 ω).2.2 o ho
      rw [hkey] at a1 a3 a4 a5 a6 a8 a9
      simp only at a1 a3 a4 a5 a6 a8 a9
      have hp : l.p = p := by have := hl.params; rw [a4] at this; exact (Option.some.inj this).symm
      have hpl : l.p = pl := by have := hl.params; rw [a5] at this; exact (Option.some.inj this).symm
      subst hp
      subst hpl
      have hnb : nb = l.blocks := by
        have := List.inj_on_of_nodup_map h.groups a1 hl.group rfl
        exact congrArg Prod.snd this
      subst hnb
      rw [k1] at a6
      obtain rfl := Except.ok.inj a6
      rw [k2] at a7
      obtain rfl := Except.ok.inj a7
      rw [k4] at a8
      obtain rfl := Option.some.inj a8
      obtain ⟨m', hm', hv⟩ := (a9 i q hi k5).1 y k3 hl.points
      obtain rfl := graph_unique hl.points hm' k6
      rw [hv, hl.random, if_neg (by simp), sum_range]
      rfl
    constructor
    · rintro ⟨v, hv, hx⟩
      have := hent _ hv rfl
      simp only at this
      rw [hx] at this
      exact Option.some.inj this
    · rintro rfl
      obtain ⟨v, hv⟩ := (C92_labels_partial N s.params s.spread s.inp none s.n m _ _ s.blocks h.dvs h.groups h.positive h.own _ (h.run ω)
        l.dv l.pg.cmp l.pg).2 ⟨rfl, hl.mapped, ⟨_, hl.group⟩, hl.asked, hl.available, l.dv, by
          simp only [Dict.contains, hl.params, Option.isSome_some]⟩
      exact ⟨v, hv, hent _ hv rfl⟩

/-! ### Mean, variance and independence -/

theorem cond_memLp {μ : Measure ℝ} {f : ℝ → ℝ} (hf : MemLp f 2 μ) (A : Set ℝ) (hA : μ A ≠ 0) : MemLp f 2 (μ[|A]) := by
  unfold ProbabilityTheory.cond
  exact (hf.restrict A).smul_measure (ENNReal.inv_ne_top.2 hA)

theorem law_memLp (eps : ℝ) (f : Str) {c : ℝ} (hc : 0 < c) : MemLp id 2 (deviationLaw eps f c) := by
  unfold deviationLaw
  split
  · exact cond_memLp (memLp_id_gaussianReal' 2 (by simp)) _ (ioi_pos 1 hc 0)
  · rw [memLp_map_measure_iff (by fun_prop) (by fun_prop)]
    refine cond_memLp ?_ _ (ioi_pos 0 hc (Real.log eps))
    rw [memLp_two_iff_integrable_sq (by fun_prop)]
    have := integrable_exp_mul_gaussianReal (μ := 0) (v := Real.toNNReal (c ^ 2)) 2
    refine this.congr (.of_forall fun x => ?_)
    simp only [Function.comp_apply, id_eq]
    rw [← Real.exp_nat_mul]
    norm_num

theorem block_moments {dev : Nat → Ω → ℝ} {eps : ℝ} {f : Str} {c : ℝ} (hc : 0 < c) {b : Nat}
    (h : HasLaw (dev b) (deviationLaw eps f c) P) : MemLp (dev b) 2 P := by
  have := law_memLp eps f hc
  rw [← h.map_eq, memLp_map_measure_iff (by fun_prop) h.aemeasurable] at this
  exact this

/-- C121: the mean of a loss is the loss without deviation times the mean of the law of a deviation, whatever the number of
blocks; its variance is that of the law divided by the number of blocks. -/
theorem C121_moments (h : Losses P N s m perm jitter σ out) (i : Nat) (hi : i < s.n) (l : RandomLoss) (hl : l.Valid s) (t : ℚ)
    (ht : Scale s l i t) (X : Ω → ℝ) (hX : ∀ ω, Loss (out ω) l i (X ω)) :
    MemLp X 2 P ∧ ∫ ω, X ω ∂P = t * ∫ x, x ∂(deviationLaw N.eps l.family l.spread) ∧
      Var[X; P] = t ^ 2 * Var[id; deviationLaw N.eps l.family l.spread] / l.blocks := by
  obtain ⟨dev, h1, h2, h3⟩ := C121_blocks h i hi
  have hX' : X = fun ω => (t / l.blocks : ℝ) * (∑ b ∈ Finset.range l.blocks, dev l b) ω := by
    funext ω
    rw [(h3 l hl t ht ω (X ω)).1 (hX ω), Finset.sum_apply]
    ring
  have hb : 0 < l.blocks := h.positive _ hl.group
  have hb' : (l.blocks : ℝ) ≠ 0 := by positivity
  have hmem : ∀ b ∈ Finset.range l.blocks, MemLp (dev l b) 2 P := fun b hb =>
    block_moments hl.spread_pos (h1 l b hl (Finset.mem_range.1 hb)).2
  haveI : IsProbabilityMeasure P := by
    haveI := law_probability N.eps l.family hl.spread_pos
    exact (h1 l 0 hl hb).2.isProbabilityMeasure
  have hsum : MemLp (∑ b ∈ Finset.range l.blocks, dev l b) 2 P := memLp_finset_sum' _ hmem
  refine ⟨?_, ?_, ?_⟩
  · rw [hX']
    exact hsum.const_mul _
  · rw [hX', integral_const_mul]
    have e : ∫ ω, (∑ b ∈ Finset.range l.blocks, dev l b) ω ∂P = ∑ b ∈ Finset.range l.blocks, ∫ ω, dev l b ω ∂P := by
      simp only [Finset.sum_apply]
      exact integral_finset_sum _ fun b hb => (hmem b hb).integrable (by norm_num)
    rw [e, Finset.sum_congr rfl fun b hb => (h1 l b hl (Finset.mem_range.1 hb)).2.integral_eq, Finset.sum_const, Finset.card_range]
    rw [nsmul_eq_mul]
    field_simp
  · rw [hX', variance_const_mul, IndepFun.variance_sum hmem, Finset.sum_congr rfl fun b hb => (h1 l b hl (Finset.mem_range.1 hb)).2.variance_eq,
      Finset.sum_const, Finset.card_range, nsmul_eq_mul]
    · field_simp
    · intro b hb b' hb' hne
      have hind := h2 1 (fun _ => l) (fun _ => hl) (fun j j' _ _ => Subsingleton.elim _ _)
      exact hind.indepFun (i := ⟨0, ⟨b, Finset.mem_range.1 hb⟩⟩) (j := ⟨0, ⟨b', Finset.mem_range.1 hb'⟩⟩) (by
        intro e
        simp only [Sigma.mk.injEq, heq_eq_eq, true_and, Fin.mk.injEq] at e
        exact hne e)

/-- C121: losses of different decision variables or performance groups are independent in each realization. -/
theorem C121_independent (h : Losses P N s m perm jitter σ out) (i : Nat) (hi : i < s.n) (r : Nat) (l : Fin r → RandomLoss)
    (hl : ∀ j, (l j).Valid s) (hdiff : ∀ j j', (l j).dv = (l j').dv → (l j).pg = (l j').pg → j = j') (t : Fin r → ℚ)
    (ht : ∀ j, Scale s (l j) i (t j)) (X : Fin r → Ω → ℝ) (hX : ∀ j ω, Loss (out ω) (l j) i (X j ω)) : iIndepFun X P := by
  obtain ⟨dev, h1, h2, h3⟩ := C121_blocks h i hi
  have hg := group_indep (h2 r l hl hdiff) (fun x => (h1 _ _ (hl x.1) x.2.2).1)
  have := hg.comp (fun j (y : Fin (l j).blocks → ℝ) => (t j : ℝ) * ((∑ b, y b) / (l j).blocks)) (fun j => by fun_prop)
  have e : X = fun j => (fun (y : Fin (l j).blocks → ℝ) => (t j : ℝ) * ((∑ b, y b) / (l j).blocks)) ∘
      fun ω b => dev (l j) b ω := by
    funext j ω
    rw [(h3 (l j) (hl j) (t j) (ht j) ω (X j ω)).1 (hX j ω), Finset.sum_range]
    rfl
  rw [e]
  exact this

/-- C121: with a single block the loss has the distribution of a deviation, times the loss without deviation. -/
theorem C121_one_block (h : Losses P N s m perm jitter σ out) (i : Nat) (hi : i < s.n) (l : RandomLoss) (hl : l.Valid s)
    (hb : l.blocks = 1) (t : ℚ) (ht : Scale s l i t) (ht0 : 0 < t) (z : ℝ) :
    P {ω | ∃ x, Loss (out ω) l i x ∧ x ≤ z} = deviationLaw N.eps l.family l.spread (Set.Iic (z / t)) := by
  obtain ⟨dev, h1, h2, h3⟩ := C121_blocks h i hi
  have ht' : (0 : ℝ) < t := by exact_mod_cast ht0
  rw [← (h1 l 0 hl (by omega)).2.map_eq, Measure.map_apply (h1 l 0 hl (by omega)).1 measurableSet_Iic]
  congr 1
  ext ω
  simp only [Set.mem_setOf_eq, Set.mem_preimage, Set.mem_Iic, h3 l hl t ht ω, exists_eq_left, hb, Finset.sum_range_one, Nat.cast_one, div_one]
  rw [le_div_iff₀ ht', mul_comm]

/-! ### An example -/

noncomputable def exNum : Num ℝ := LossProb.exNum

/-- Two blocks of a component with random costs and times. -/
noncomputable def exSetting : Setting := ⟨lfParams, fun _ => [1 / 2], lfInp, 3, [(exPg "A" "1", 2)]⟩

noncomputable def exCost : RandomLoss :=
  ⟨str "Cost", exPg "A" "1", ⟨exDemand, [(0, 0), (2, 10)], some (str "normal")⟩, str "normal", 1 / 2, 2⟩

noncomputable def exTime : RandomLoss :=
  ⟨str "Time", exPg "A" "1", ⟨exDemand, [(0, 1), (2, 2)], some (str "lognormal")⟩, str "lognormal", 1 / 2, 2⟩

theorem ex_valid : exCost.Valid exSetting ∧ exTime.Valid exSetting :=
  ⟨⟨by simp [exSetting, exCost], by simp [exSetting, exCost, lfInp], by simp [exSetting, lfInp, exInp], by decide, rfl, rfl, rfl,
    by norm_num [exCost], by simp [exCost]⟩,
  ⟨by simp [exSetting, exTime], by simp [exSetting, exTime, lfInp], by simp [exSetting, lfInp, exInp], by decide, by with_unfolding_all rfl, rfl, rfl,
    by norm_num [exTime], by simp [exTime]⟩⟩

theorem ex_ready {p : LfParam} {dv : Str} (hp : lfParams.get? (str "A", dv) = some p) (hd : p.demand = exDemand)
    (hpts : ∃ a b, p.points = [(0, a), (2, b)]) : Ready lfParams lfInp (exPg "A" "1") dv := by
  obtain ⟨a, b, hab⟩ := hpts
  obtain ⟨d, pts, fam⟩ := p
  simp only at hd hab
  subst hd
  subst hab
  refine ⟨_, ([str "PFA-1-1"], .absent), [some 1, some 2, none], [4, 5, 6], hp, rfl, ?_, by decide +kernel, by decide +kernel, ?_⟩
  · intro e he
    simp only [List.mem_singleton] at he
    subst he
    exact ⟨str "PFA", str "1", str "1", by decide +kernel, str "1", _, List.mem_singleton.2 rfl⟩
  · intro x hx
    refine ⟨⟨(0, a), by simp, ?_⟩, ⟨(2, b), by simp, ?_⟩⟩ <;> simp at hx <;> rcases hx with rfl | rfl <;> norm_num

theorem ex_losses (m : Method) (hm : m = .monteCarlo ∨ m = .lhs) :
    ∃ (Ω : Type) (_ : MeasurableSpace Ω) (P : Measure Ω) (perm : Ω → Nat → List Nat) (jitter : Ω → Nat → List ℝ)
      (σ : Nat → Ω → Equiv.Perm (Fin exSetting.n)) (out : Ω → List (LossLf.OutKey × List ℝ)),
      Losses P exNum exSetting m perm jitter σ out := by
  obtain ⟨Ω, mΩ, P, perm, jitter, σ, h⟩ := SampleProb.draws_exist exSetting.n
  have he : 0 < exNum.eps := by
    have := gaussian.cdf_lt_one 0
    show 0 < 1 - gaussian.cdf 0
    linarith
  have he1 : exNum.eps ≤ 1 := by
    have := gaussian.cdf_pos 0
    show 1 - gaussian.cdf 0 ≤ 1
    linarith
  have hm' : m ≠ .other := by rcases hm with rfl | rfl <;> simp
  have hdvs : exSetting.inp.dvs.Nodup := by show lfInp.dvs.Nodup; decide +kernel
  have hown : ∀ c l, exSetting.inp.lossMap.get? c = some l → l = c := by
    intro c l hl
    change Dict.get? [(str "A", str "A")] c = some l at hl
    have := Dict.mem_of_get? hl
    simp only [List.mem_singleton, Prod.mk.injEq] at this
    rw [this.1, this.2]
  have hrows : ∀ dv p, lfParams.get? (str "A", dv) = some p → p.demand = exDemand ∧ (∃ a b, p.points = [(0, a), (2, b)]) ∧
      (p.family = some (str "normal") ∨ p.family = some (str "lognormal")) ∧ (dv = str "Cost" ∨ dv = str "Time") := by
    intro dv p hp
    have := Dict.mem_of_get? hp
    simp only [lfParams, List.mem_cons, List.not_mem_nil, or_false, Prod.mk.injEq, true_and] at this
    rcases this with ⟨rfl, rfl⟩ | ⟨rfl, rfl⟩
    · exact ⟨rfl, ⟨_, _, rfl⟩, .inl rfl, .inl rfl⟩
    · exact ⟨rfl, ⟨_, _, rfl⟩, .inr rfl, .inr rfl⟩
  choose out hout using fun ω => C92_succeeds exNum he exSetting.params exSetting.spread exSetting.inp none exSetting.n m hm' (perm ω)
    (jitter ω) exSetting.blocks hdvs (by simp [exSetting]) (by simp [exSetting]) hown
    ⟨exPg "A" "1", str "Cost", ⟨2, by simp [exSetting]⟩, ⟨str "A", str "Cost", by decide, by decide⟩, by simp [exSetting, lfInp], by simp [exSetting, lfInp, exInp]⟩
    (by
      rintro pg dv ⟨⟨b, hb⟩, _, hdv, _⟩
      simp only [exSetting, List.mem_singleton, Prod.mk.injEq] at hb
      obtain ⟨rfl, rfl⟩ := hb
      simp only [exSetting, lfInp, List.mem_cons, List.not_mem_nil, or_false] at hdv
      have hp : ∃ p, lfParams.get? (str "A", dv) = some p := by
        rcases hdv with rfl | rfl
        · exact ⟨_, rfl⟩
        · exact ⟨_, by with_unfolding_all rfl⟩
      obtain ⟨p, hp⟩ := hp
      exact ex_ready hp (hrows _ _ hp).1 (hrows _ _ hp).2.1)
    (by
      rintro ⟨dv, loss, pg, b⟩ f ⟨⟨nb, hb, _⟩, hdv, _, hmap, p, hp, hfam⟩
      simp only [exSetting, List.mem_singleton, Prod.mk.injEq] at hb
      obtain ⟨rfl, rfl⟩ := hb
      obtain rfl : loss = str "A" := hown _ _ hmap
      obtain ⟨_, _, h3, h4⟩ := hrows _ _ hp
      constructor
      · refine ⟨1 / 2, rfl, by norm_num, ?_⟩
        have hle : ∀ x : ℝ, x ≤ 0 → exNum.eps ≤ 1 - exNum.D.cdf x := by
          intro x hx
          show 1 - gaussian.cdf 0 ≤ 1 - gaussian.cdf x
          have := gaussian.cdf_mono hx
          linarith
        rw [hfam] at h3
        simp only [Option.some.injEq] at h3
        rcases h3 with rfl | rfl
        · exact .inl ⟨rfl, by norm_num, hle _ (by norm_num)⟩
        · refine .inr ⟨rfl, by norm_num, hle _ ?_⟩
          have : Real.log exNum.eps ≤ Real.log 1 := Real.log_le_log he he1
          exact div_nonpos_of_nonpos_of_nonneg (by
            show Real.log exNum.eps - Real.log 1 ≤ 0
            linarith) (by norm_num)
      · rcases h4 with rfl | rfl <;> simp only [] <;> decide +kernel)
  exact ⟨Ω, mΩ, P, perm, jitter, σ, out, rfl, rfl, he, hdvs, by simp [exSetting], by simp [exSetting], hown, hm, h, hout⟩

/-- A demand of one and four units: half way to a loss of ten per unit. -/
theorem ex_scale : Scale exSetting exCost 0 20 ∧ Scale exSetting exTime 0 6 := by
  refine ⟨⟨([str "PFA-1-1"], .absent), [some 1, some 2, none], [4, 5, 6], 1, 4, 5, by decide +kernel, by decide +kernel, rfl, rfl, rfl,
    ?_, by norm_num⟩, ⟨([str "PFA-1-1"], .absent), [some 1, some 2, none], [4, 5, 6], 1, 4, 3 / 2, by decide +kernel, by decide +kernel, rfl, rfl, rfl,
    ?_, by norm_num⟩⟩
  · exact .inr ⟨(0, 0), by simp [exCost], (2, 10), by simp [exCost], by norm_num, by norm_num, by simp [exCost], by norm_num⟩
  · exact .inr ⟨(0, 1), by simp [exTime], (2, 2), by simp [exTime], by norm_num, by norm_num, by simp [exTime], by norm_num⟩

/-- The mean of the cost: twenty times the mean of the truncated normal distribution; the two blocks halve the variance. -/
example {Ω : Type} [MeasurableSpace Ω] {P : Measure Ω} {perm : Ω → Nat → List Nat} {jitter : Ω → Nat → List ℝ}
    {σ : Nat → Ω → Equiv.Perm (Fin exSetting.n)} {out : Ω → List (LossLf.OutKey × List ℝ)}
    (h : Losses P exNum exSetting .lhs perm jitter σ out) (X : Ω → ℝ) (hX : ∀ ω, Loss (out ω) exCost 0 (X ω)) :
    ∫ ω, X ω ∂P = 20 * ∫ x, x ∂((gaussianReal 1 (Real.toNNReal ((1 / 2) ^ 2)))[|Set.Ioi 0]) ∧
      Var[X; P] = 20 ^ 2 * Var[id; (gaussianReal 1 (Real.toNNReal ((1 / 2) ^ 2)))[|Set.Ioi 0]] / 2 := by
  have := (C121_moments h 0 (by decide) exCost ex_valid.1 20 ex_scale.1 X hX).2
  simpa [deviationLaw, exCost] using this

/-- Cost and time are independent. -/
example {Ω : Type} [MeasurableSpace Ω] {P : Measure Ω} {perm : Ω → Nat → List Nat} {jitter : Ω → Nat → List ℝ}
    {σ : Nat → Ω → Equiv.Perm (Fin exSetting.n)} {out : Ω → List (LossLf.OutKey × List ℝ)}
    (h : Losses P exNum exSetting .lhs perm jitter σ out) (X : Fin 2 → Ω → ℝ) (hX : ∀ ω, Loss (out ω) exCost 0 (X 0 ω))
    (hY : ∀ ω, Loss (out ω) exTime 0 (X 1 ω)) : iIndepFun X P :=
  C121_independent h 0 (by decide) 2 ![exCost, exTime] (by simp [Fin.forall_fin_two, ex_valid])
    (by
      have hne : str "Cost" ≠ str "Time" := by decide
      have hne' := hne.symm
      simp [Fin.forall_fin_two, exCost, exTime, hne, hne'])
    ![20, 6] (by simp [Fin.forall_fin_two, ex_scale]) X (by simpa [Fin.forall_fin_two] using ⟨hX, hY⟩)

end Verif.LossLfProb
