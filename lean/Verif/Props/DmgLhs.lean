import Verif.Lemmas.DmgLhs
import Verif.Props.DmgDist

/-! # Property C117: damage with Latin hypercube sampling -/

namespace Verif.DmgLhs

open Verif.UQ Verif.DmgSample Verif.DmgProb Verif.DmgDist MeasureTheory ProbabilityTheory
open Verif.DmgEval (BlockId numOf)
open Verif.DmgCalc (Assets Sound componentBlocks calculate amount)
open Verif.DemandReq (PGid)
open Verif.DmgRVs (LSRow)
open Verif.DmgQty (Table)
open Verif.Copula (uniform01)

variable {Ω : Type} [MeasurableSpace Ω] {P : Measure Ω} {N NQ : Num ℝ} {x : Input ℝ} {available missing : List Str}
  {size : Int} {dc dl : Ω → Nat → Draws ℝ} {perm : Bool × Nat × Nat → Ω → Equiv.Perm (Fin x.size)}

/-- C117: each number of a Latin hypercube sample is uniform between zero and one. -/
theorem C117_uniform {n : Nat} {perm : Bool × Nat × Nat → Ω → Equiv.Perm (Fin n)} (h : RandomLhs P n dc dl perm)
    (c : Bool × Nat × Nat) (i : Nat) (hi : i < n) (B : Set ℝ) (hB : MeasurableSet B) :
    P {ω | ∃ row y, drawRow .lhs n (((if c.1 then dl ω else dc ω) c.2.1).perm c.2.2)
        (((if c.1 then dl ω else dc ω) c.2.1).jitter c.2.2) = .ok row ∧ row[i]? = some y ∧ y ∈ B} = uniform01 B := by
  refine Eq.trans ?_ ((value_law h (c.1, c.2.1, c.2.2, ⟨i, hi⟩)).measure_eq (p := fun y => y ∈ B) hB)
  congr 1
  ext ω
  simp only [Set.mem_setOf_eq]
  unfold value
  simp only
  constructor
  · rintro ⟨row, y, h1, h2, h3⟩
    rw [h1]
    simp only
    rw [List.getD_eq_getElem?_getD, h2]
    exact h3
  · intro hB
    split at hB
    · rename_i row hrow
      obtain ⟨hl, _⟩ := drawRow_lt (good h c.1 ω c.2.1) c.2.2 hrow
      have hi' : i < row.length := by rw [hl]; exact hi
      rw [List.getD_eq_getElem?_getD, List.getElem?_eq_getElem hi'] at hB
      exact ⟨row, row[i], hrow, List.getElem?_eq_getElem hi', hB⟩
    · rename_i e he
      simp [drawRow] at he

section States
variable {table : List (PGid × Int)} {out : Ω → List (Dict BlockId Int)}

theorem Lhs.toRun (h : Lhs P N NQ x available missing table size dc dl perm out) :
    Run P N NQ x available missing table size dc dl out :=
  ⟨h.batch, h.blocks, h.dashless, h.components, by rw [h.method]; exact values h.draws, h.run⟩

/-- C117: the probability that a block reaches limit state `r` or a higher one is the highest value of the fragility
curves of these limit states at the demand. -/
theorem C117_reached (h : Lhs P N NQ x available missing table size dc dl perm out) (pg : PGid) (n k : Nat)
    (hg : Group available missing table pg n) (hk : k < n) (rows : List (LSCap ℝ)) (hrows : x.caps pg = some rows)
    (i : Nat) (hi : i < x.size) (q : ℚ) (hq : DemandIs x pg i q) (curve : LSCap ℝ → ℝ)
    (hcurve : Curves N x rows k q curve) (r : LSCap ℝ) (p : ℝ) (hp : Highest rows curve (numOf r.id ≤ ·) p) :
    P {ω | ∃ v, stateOf (out ω) (blockId pg k) i = some v ∧ (statesBelow rows r : Int) < v} = ENNReal.ofReal p :=
  run_reached h.toRun pg n k hg hk rows hrows i hi q hq curve hcurve r p hp

/-- C117: the probability that a block stays undamaged is one minus the highest fragility curve. -/
theorem C117_undamaged (h : Lhs P N NQ x available missing table size dc dl perm out) (pg : PGid) (n k : Nat)
    (hg : Group available missing table pg n) (hk : k < n) (rows : List (LSCap ℝ)) (hrows : x.caps pg = some rows)
    (i : Nat) (hi : i < x.size) (q : ℚ) (hq : DemandIs x pg i q) (curve : LSCap ℝ → ℝ)
    (hcurve : Curves N x rows k q curve) (p : ℝ) (hp : Highest rows curve (fun _ => True) p) :
    P {ω | stateOf (out ω) (blockId pg k) i = some 0} = ENNReal.ofReal (1 - p) :=
  run_undamaged h.toRun pg n k hg hk rows hrows i hi q hq curve hcurve p hp

/-- C117: the probability of each damage state, as in C115. -/
theorem C117_state (h : Lhs P N NQ x available missing table size dc dl perm out) (pg : PGid) (n k : Nat)
    (hg : Group available missing table pg n) (hk : k < n) (rows : List (LSCap ℝ)) (hrows : x.caps pg = some rows)
    (i : Nat) (hi : i < x.size) (q : ℚ) (hq : DemandIs x pg i q) (curve : LSCap ℝ → ℝ)
    (hcurve : Curves N x rows k q curve) (r : LSCap ℝ) (hr : r ∈ rows) (hd : r.dist ≠ none) (p p' : ℝ)
    (hp : Highest rows curve (numOf r.id ≤ ·) p) (hp' : Highest rows curve (numOf r.id < ·) p') :
    (r.weights = none → P {ω | stateOf (out ω) (blockId pg k) i = some (statesBelow rows r + 1 : Int)} =
      ENNReal.ofReal (p - p')) ∧
    ∀ s ws, r.weights = some s →
      List.Forall₂ (fun piece w => pyFloat? piece = some (.fin w)) (splitChar '|' (s.filter (· ≠ ' '))) ws →
      ∀ j < ws.length, P {ω | stateOf (out ω) (blockId pg k) i = some (statesBelow rows r + (j + 1) : Int)} =
        ENNReal.ofReal ((p - p') * share ws j) :=
  run_state h.toRun pg n k hg hk rows hrows i hi q hq curve hcurve r hr hd p p' hp hp'

/-- C117: the damage states of different blocks are independent in each realization, given the demands. -/
theorem C117_independent (h : Lhs P N NQ x available missing table size dc dl perm out) (i : Nat) (hi : i < x.size)
    (blocks : Finset (PGid × Nat))
    (hblocks : ∀ b ∈ blocks, (∃ n, Group available missing table b.1 n ∧ b.2 < n) ∧
      ∃ rows q curve, x.caps b.1 = some rows ∧ DemandIs x b.1 i q ∧ Curves N x rows b.2 q curve)
    (A : PGid × Nat → Set Int) :
    P {ω | ∀ b ∈ blocks, ∃ v ∈ A b, stateOf (out ω) (blockId b.1 b.2) i = some v} =
      ∏ b ∈ blocks, P {ω | ∃ v ∈ A b, stateOf (out ω) (blockId b.1 b.2) i = some v} := by
  have hinj : Function.Injective fun b : PGid × Nat => (b.1, b.2, i) := fun b b' hb => by
    simp only [Prod.mk.injEq, and_true] at hb
    exact Prod.ext hb.1 hb.2
  have := run_independent h.toRun (h.toRun.draws.columns ⟨i, hi⟩) (blocks.map ⟨_, hinj⟩) (by
    intro u hu
    obtain ⟨b, hb, rfl⟩ := Finset.mem_map.1 hu
    obtain ⟨h1, h2⟩ := hblocks b hb
    exact ⟨h1, hi, h2⟩) (by
    intro u hu s hs
    obtain ⟨b, hb, rfl⟩ := Finset.mem_map.1 hu
    exact ⟨(s.1, s.2.1, s.2.2.1), Prod.ext rfl (Prod.ext rfl (Prod.ext rfl (Fin.ext hs.symm)))⟩)
    (fun u => A (u.1, u.2.1))
  rw [Finset.prod_map] at this
  refine Eq.trans ?_ this
  congr 1
  ext ω
  simp only [Set.mem_setOf_eq, Finset.mem_map, Function.Embedding.coeFn_mk]
  constructor
  · rintro hb _ ⟨b, hb', rfl⟩
    exact hb b hb'
  · intro hb b hb'
    exact hb _ ⟨b, hb', rfl⟩

end States

section Quantities
variable {a : Assets} {listAll : Bool} {params : List (Str × List LSRow)} {visit : List Str → List Str} {t : Ω → Table}

theorem CalculatedLhs.toCalc (h : CalculatedLhs P N NQ x available missing a size listAll params visit dc dl perm t) :
    Calc P N NQ x available missing a size listAll params visit dc dl t :=
  ⟨h.batch, h.sound, h.dashless, h.components, h.distinct, by rw [h.method]; exact values h.draws, h.run⟩

/-- C117: the distribution, the mean and the variance of the quantity that reaches limit state `r` or a higher one in
a realization are those of C116. -/
theorem C117_quantity_reached (h : CalculatedLhs P N NQ x available missing a size listAll params visit dc dl perm t) (pg : PGid)
    (n : Nat) (hg : Group available missing (componentBlocks a) pg n) (rows : List (LSCap ℝ))
    (hrows : x.caps pg = some rows) (i : Nat) (hi : i < x.size) (q : ℚ) (hq : DemandIs x pg i q) (curve : LSCap ℝ → ℝ)
    (hcurve : ∀ k < n, Curves N x rows k q curve) (Q : PGid → ℚ) (hQ : a.qty[i]? = some Q) (r : LSCap ℝ) (p : ℝ)
    (hp : Highest rows curve (numOf r.id ≤ ·) p) :
    (Q pg ≠ 0 → ∀ m : ℕ, P {ω | amount (t ω) pg (fun v => decide ((statesBelow rows r : Int) < v)) i = Q pg * (m / n)} =
      ENNReal.ofReal (binomial n p m)) ∧
    ∫ ω, (amount (t ω) pg (fun v => decide ((statesBelow rows r : Int) < v)) i : ℝ) ∂P = Q pg * p ∧
    Var[fun ω => (amount (t ω) pg (fun v => decide ((statesBelow rows r : Int) < v)) i : ℝ); P] =
      Q pg ^ 2 * (p * (1 - p)) / n :=
  calc_reached h.toCalc pg n hg rows hrows i hi q hq curve hcurve Q hQ r p hp

/-- C117: the same for the undamaged quantity. -/
theorem C117_quantity_undamaged (h : CalculatedLhs P N NQ x available missing a size listAll params visit dc dl perm t) (pg : PGid)
    (n : Nat) (hg : Group available missing (componentBlocks a) pg n) (rows : List (LSCap ℝ))
    (hrows : x.caps pg = some rows) (i : Nat) (hi : i < x.size) (q : ℚ) (hq : DemandIs x pg i q) (curve : LSCap ℝ → ℝ)
    (hcurve : ∀ k < n, Curves N x rows k q curve) (Q : PGid → ℚ) (hQ : a.qty[i]? = some Q) (p : ℝ)
    (hp : Highest rows curve (fun _ => True) p) :
    (Q pg ≠ 0 → ∀ m : ℕ, P {ω | amount (t ω) pg (fun v => decide (v = 0)) i = Q pg * (m / n)} =
      ENNReal.ofReal (binomial n (1 - p) m)) ∧
    ∫ ω, (amount (t ω) pg (fun v => decide (v = 0)) i : ℝ) ∂P = Q pg * (1 - p) ∧
    Var[fun ω => (amount (t ω) pg (fun v => decide (v = 0)) i : ℝ); P] = Q pg ^ 2 * ((1 - p) * p) / n :=
  calc_undamaged h.toCalc pg n hg rows hrows i hi q hq curve hcurve Q hQ p hp

/-- C117: the same for the quantity in one damage state. -/
theorem C117_quantity_state (h : CalculatedLhs P N NQ x available missing a size listAll params visit dc dl perm t) (pg : PGid)
    (n : Nat) (hg : Group available missing (componentBlocks a) pg n) (rows : List (LSCap ℝ))
    (hrows : x.caps pg = some rows) (i : Nat) (hi : i < x.size) (q : ℚ) (hq : DemandIs x pg i q) (curve : LSCap ℝ → ℝ)
    (hcurve : ∀ k < n, Curves N x rows k q curve) (Q : PGid → ℚ) (hQ : a.qty[i]? = some Q) (r : LSCap ℝ)
    (hr : r ∈ rows) (hd : r.dist ≠ none) (p p' : ℝ)
    (hp : Highest rows curve (numOf r.id ≤ ·) p) (hp' : Highest rows curve (numOf r.id < ·) p')
    (z : Int) (w : ℝ) (hz : (r.weights = none ∧ z = statesBelow rows r + 1 ∧ w = p - p') ∨
      ∃ s ws j, r.weights = some s ∧
        List.Forall₂ (fun piece w => pyFloat? piece = some (.fin w)) (splitChar '|' (s.filter (· ≠ ' '))) ws ∧
        j < ws.length ∧ z = statesBelow rows r + (j + 1 : Int) ∧ w = (p - p') * share ws j) :
    (Q pg ≠ 0 → ∀ m : ℕ, P {ω | amount (t ω) pg (fun v => decide (v = z)) i = Q pg * (m / n)} =
      ENNReal.ofReal (binomial n w m)) ∧
    ∫ ω, (amount (t ω) pg (fun v => decide (v = z)) i : ℝ) ∂P = Q pg * w ∧
    Var[fun ω => (amount (t ω) pg (fun v => decide (v = z)) i : ℝ); P] = Q pg ^ 2 * (w * (1 - w)) / n :=
  calc_state h.toCalc pg n hg rows hrows i hi q hq curve hcurve Q hQ r hr hd p p' hp hp' z w hz

end Quantities

/-! ### A calculation that meets the hypotheses -/

theorem draws_exist (n : Nat) : ∃ (Ω : Type) (_ : MeasurableSpace Ω) (P : Measure Ω) (dc dl : Ω → Nat → Draws ℝ)
    (perm : Bool × Nat × Nat → Ω → Equiv.Perm (Fin n)), RandomLhs P n dc dl perm := by
  let μ : Measure (Equiv.Perm (Fin n)) := uniformOn Set.univ
  haveI : IsProbabilityMeasure μ := uniformOn_isProbabilityMeasure Set.finite_univ Set.univ_nonempty
  obtain ⟨Ω, m, P, X, hX, hlaw, hind, hP⟩ := exists_iid (Bool × Nat × Nat)
    (μ.prod (Measure.pi fun _ : Fin n => uniform01))
  let g : ℝ → ℝ := fun y => if 0 ≤ y ∧ y < 1 then y else 0
  have hg : Measurable g := by
    refine Measurable.ite ?_ measurable_id measurable_const
    exact measurableSet_Ico
  have hg01 : ∀ y, 0 ≤ g y ∧ g y < 1 := by
    intro y
    simp only [g]
    split
    · assumption
    · norm_num
  let mk : Ω → Bool → Nat → Draws ℝ := fun ω c j =>
    ⟨fun v => List.ofFn fun i => ((X (c, j, v) ω).1 i : ℕ), fun v => List.ofFn fun i : Fin n => g ((X (c, j, v) ω).2 i)⟩
  have hnum : ∀ t : Bool × Nat × Nat × Fin n, number (fun ω => mk ω false) (fun ω => mk ω true) t =
      fun ω => g ((X (t.1, t.2.1, t.2.2.1) ω).2 t.2.2.2) := by
    rintro ⟨c, j, v, i⟩
    funext ω
    cases c <;> simp [number, mk, List.getD]
  have hif : ∀ (c : Bool) ω, (if c then mk ω true else mk ω false) = mk ω c := by
    intro c ω
    cases c <;> rfl
  refine ⟨Ω, m, P, fun ω => mk ω false, fun ω => mk ω true, fun c ω => (X c ω).1, ?_, ?_, ?_, ?_, ?_, ?_, ?_, ?_⟩
  · intro c ω
    rw [hif]
  · intro c ω
    rw [hif]
    refine ⟨by simp [mk], ?_⟩
    intro u hu
    obtain ⟨k, rfl⟩ := (List.mem_ofFn' _ _).1 hu
    exact hg01 _
  · intro c
    exact measurable_fst.comp (hX c)
  · intro t
    rw [hnum]
    exact hg.comp ((measurable_pi_apply _).comp (measurable_snd.comp (hX _)))
  · intro c σ
    have h1 : P {ω | (X c ω).1 = σ} = (μ.prod (Measure.pi fun _ : Fin n => uniform01)) {y | y.1 = σ} :=
      (hlaw c).measure_eq (p := fun y => y.1 = σ) (measurable_fst (MeasurableSet.of_discrete (s := {σ})))
    have h2 : {y : Equiv.Perm (Fin n) × (Fin n → ℝ) | y.1 = σ} = {σ} ×ˢ Set.univ := by
      ext y
      simp
    rw [h1, h2, Measure.prod_prod, measure_univ, mul_one]
    simp only [μ]
    rw [uniformOn_univ, Measure.count_singleton, Fintype.card_perm, Fintype.card_fin, one_div]
  · intro t
    rw [hnum]
    have h1 : HasLaw (fun ω => (X (t.1, t.2.1, t.2.2.1) ω).2 t.2.2.2) uniform01 P := by
      refine ⟨((measurable_pi_apply _).comp (measurable_snd.comp (hX _))).aemeasurable, ?_⟩
      have h2 := (hlaw (t.1, t.2.1, t.2.2.1)).map_eq
      have h3 : Measure.map (fun ω => (X (t.1, t.2.1, t.2.2.1) ω).2 t.2.2.2) P =
          Measure.map (Function.eval t.2.2.2) (Measure.map Prod.snd (Measure.map (X (t.1, t.2.1, t.2.2.1)) P)) := by
        rw [Measure.map_map measurable_snd (hX _), Measure.map_map (measurable_pi_apply _) (measurable_snd.comp (hX _))]
        rfl
      rw [h3, h2, measurePreserving_snd.map_eq]
      exact (measurePreserving_eval (fun _ : Fin n => uniform01) t.2.2.2).map_eq
    refine h1.congr ?_
    have h2 : ∀ᵐ y ∂uniform01, g y = y := by
      unfold uniform01
      refine (ae_restrict_iff' measurableSet_Ioo).2 (.of_forall ?_)
      intro y hy
      simp only [g]
      rw [if_pos ⟨hy.1.le, hy.2⟩]
    exact (h1.ae_iff (p := fun y => g y = y) (measurableSet_setOfPred.1 (measurableSet_eq_fun hg measurable_id))).2 h2
  · intro c
    have h1 : IndepFun (fun ω => (X c ω).1) (fun ω => (X c ω).2) P := by
      refine (indepFun_iff_map_prod_eq_prod_map_map (measurable_fst.comp (hX c)).aemeasurable
        (measurable_snd.comp (hX c)).aemeasurable).2 ?_
      have e1 : Measure.map (fun ω => ((X c ω).1, (X c ω).2)) P = μ.prod (Measure.pi fun _ : Fin n => uniform01) :=
        (hlaw c).map_eq
      have e2 : Measure.map (fun ω => (X c ω).1) P = μ := by
        have : Measure.map (fun ω => (X c ω).1) P = Measure.map Prod.fst (Measure.map (X c) P) := by
          rw [Measure.map_map measurable_fst (hX c)]; rfl
        rw [this, (hlaw c).map_eq, measurePreserving_fst.map_eq]
      have e3 : Measure.map (fun ω => (X c ω).2) P = Measure.pi fun _ : Fin n => uniform01 := by
        have : Measure.map (fun ω => (X c ω).2) P = Measure.map Prod.snd (Measure.map (X c) P) := by
          rw [Measure.map_map measurable_snd (hX c)]; rfl
        rw [this, (hlaw c).map_eq, measurePreserving_snd.map_eq]
      exact e1.trans (by rw [← e2, ← e3]; rfl)
    simp only [hnum]
    exact h1.comp measurable_id (measurable_pi_lambda (fun (f : Fin n → ℝ) i => g (f i)) fun i => hg.comp (measurable_pi_apply i))
  · simp only [hnum]
    exact hind.comp (fun _ (y : Equiv.Perm (Fin n) × (Fin n → ℝ)) => (y.1, fun i => g (y.2 i))) fun _ =>
      measurable_fst.prodMk (measurable_pi_lambda _ fun i => hg.comp ((measurable_pi_apply i).comp measurable_snd))

theorem ex_lhs (N : Num ℝ) : ∃ (Ω : Type) (_ : MeasurableSpace Ω) (P : Measure Ω) (dc dl : Ω → Nat → Draws ℝ)
    (perm : Bool × Nat × Nat → Ω → Equiv.Perm (Fin 2)) (out : Ω → List (Dict BlockId Int)) (t : Ω → Table),
    Lhs P N N (exInputOf .lhs) [str "A"] [] DmgProb.exTable 10 dc dl perm out ∧
    CalculatedLhs P N N (exInputOf .lhs) [str "A"] [] exAssets 10 false [] id dc dl perm t := by
  obtain ⟨Ω, m, P, dc, dl, perm, h⟩ := draws_exist 2
  have hd : ∀ ω j, GoodDraws 2 (dl ω j).perm (dl ω j).jitter := fun ω j => good h true ω j
  choose out hout using fun ω => ex_run (m := .lhs) (by simp) N (dc ω) (dl ω) (hd ω)
  choose t ht using fun ω => ex_calculate (m := .lhs) (by simp) N (dc ω) (dl ω) (hd ω)
  have hc : ∀ e ∈ DmgProb.exTable, ∀ rows, (exInputOf .lhs).caps e.1 = some rows → Component rows := by
    intro e _ rows he
    rw [ex_caps he]
    exact ex_component
  exact ⟨Ω, m, P, dc, dl, perm, out, t,
    ⟨by norm_num, by decide, ex_dashless _, hc, rfl, h, hout⟩,
    ⟨by norm_num, ⟨by decide, by decide⟩, ex_dashless _, hc, by simp, rfl, h, ht⟩⟩

/-- At a demand equal to the median of limit state 2, both blocks reach it with probability `Φ(0)²` and the mean of the
quantity is `10 Φ(0)`. -/
example {Ω : Type} [MeasurableSpace Ω] {P : Measure Ω} {dc dl : Ω → Nat → Draws ℝ}
    {perm : Bool × Nat × Nat → Ω → Equiv.Perm (Fin 2)} {t : Ω → Table}
    (h : CalculatedLhs P (realNum 0) (realNum 0) (exInputOf .lhs) [str "A"] [] exAssets 10 false [] id dc dl perm t) :
    ∫ ω, (amount (t ω) exPG (fun v => decide (1 < v)) 0 : ℝ) ∂P = 10 * gaussian.cdf 0 ∧
    P {ω | amount (t ω) exPG (fun v => decide (1 < v)) 0 = 10} = ENNReal.ofReal (gaussian.cdf 0 ^ 2) := by
  have hs : ((statesBelow exRows exRows[1] : Nat) : Int) = 1 := by decide +kernel
  have := C117_quantity_reached h exPG 2 ⟨⟨2, by decide⟩, by decide⟩ exRows (by simp [exInputOf, exPG]) 0
    (by decide) 2 ⟨([str "PFA-1-1"], .absent), [some 2, some 3], by decide +kernel, by decide +kernel, rfl⟩ exCurve
    (fun k _ => ex_curves _ k) (fun _ => 10) rfl exRows[1] (gaussian.cdf 0) ex_highest
  rw [hs] at this
  refine ⟨by rw [this.2.1]; norm_num, ?_⟩
  have h2 := this.1 (by norm_num) 2
  rw [show (10 : ℚ) * (((2 : ℕ) : ℚ) / ((2 : ℕ) : ℚ)) = 10 by norm_num] at h2
  rw [h2]
  norm_num [binomial]

end Verif.DmgLhs
