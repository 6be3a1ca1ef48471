import Verif.Spec.LossProb
import Verif.Props.SampleProb

/-!
# C119: probabilities of repair losses

Specification in `Spec/LossProb.lean`.
-/

namespace Verif.LossProb

open Verif.UQ Verif.LossDs Verif.LossDev MeasureTheory ProbabilityTheory
open Verif.SampleProb (RandomGen value value_law value_indep good)
open Verif.Copula (uniform01 uniform_Iic)

variable {Ω : Type} [MeasurableSpace Ω] {P : Measure Ω} {N : Num ℝ} {s : Setting} {m : Method} {perm : Ω → Nat → List Nat}
  {jitter : Ω → Nat → List ℝ} {σ : Nat → Ω → Equiv.Perm (Fin s.rows.length)} {out : Ω → List (OutKey × List ℝ)}

/-- The row of random numbers of a consequence. -/
noncomputable def number (s : Setting) (c : Consequence) : Nat := numberOf s.params s.spread s.missing s.cols s.lossMap s.dvs c.dv c.k

theorem number_inj (h : Repair P N s m perm jitter σ out) (ω : Ω) {c c' : Consequence} (hc : c.Valid s) (hc' : c'.Valid s)
    (e : number s c = number s c') : c.dv = c'.dv ∧ c.k = c'.k := by
  obtain ⟨d, u, dev, ⟨h1, _, _⟩, _⟩ := explained_at (h.run ω)
  exact h1 _ _ _ _ _ _ _ _ _ _ hc.random hc'.random e

theorem median_unique {p : DsParam} (hcurve : ∀ pts, p.theta = .curve pts → pts ≠ [] ∧ (pts.map Prod.fst).Pairwise (· < ·))
    {q m m' : ℚ} (h : UnitMedian p q m) (h' : UnitMedian p q m') : m = m' := by
  unfold UnitMedian at h h'
  cases ht : p.theta with
  | const x =>
    rw [ht] at h h'
    exact h.trans h'.symm
  | curve pts =>
    rw [ht] at h h'
    obtain ⟨h1, h2⟩ := hcurve pts ht
    exact onClampedGraph_unique (fun a ha b hb e => List.inj_on_of_nodup_map (h2.imp ne_of_lt) ha hb e) (h h1 h2) (h' h1 h2)

/-- The loss is at most `z` exactly if the random number, after the correlation, is at most the value of the distribution function. -/
theorem loss_le_of (heps : 0 < N.eps) (hstates : ∀ key row, s.params.rows.get? key = some row → ∀ ds, row ds ≠ none → ds ∈ s.params.states)
    {corr : Option (List (List ℝ) → List (List ℝ))} {pm : Nat → List Nat} {jt : Nat → List ℝ} {o : List (OutKey × List ℝ)}
    (hrun : calculate N s.eco s.params s.spread s.missing s.cols s.lossMap s.dvs corr m pm jt s.rows = .ok (some o))
    {num : Str → DKey → Nat} {d u : Str → DKey → List ℝ} {dev : Nat → Str → DKey → ℝ}
    (hE : Explained N s.eco s.params s.spread s.missing s.cols s.lossMap s.dvs m pm jt s.rows o num d u dev)
    {c : Consequence} (hc : c.Valid s) {i : Nat}
    (hi : i < s.rows.length) {t : ℚ} (ht : Scale s c i t) (ht0 : 0 < t) {z : ℝ} (hz : N.eps ≤ z / t)
    {y : ℝ} (hy : (u c.dv c.k)[i]? = some y) (hy0 : 0 ≤ y) (hy1 : y < 1) :
    (∃ x, Loss o c i x ∧ x ≤ z) ↔ y ≤ devCdf N c.family (center c.p) c.spread (z / t) := by
  obtain ⟨_, h2, h3⟩ := hE
  obtain ⟨g1, g2, c', g3, g4⟩ := h2 _ _ _ _ _ hc.random
  rw [hc.parameter] at g3
  obtain rfl := Option.some.inj g3
  obtain ⟨b1, b2, b3⟩ := g4 heps hc.center_pos hc.spread_pos i _ hy hy0 hy1
  obtain ⟨row, q, mm, hrow, hq, hm, rfl⟩ := ht
  have hx : ∀ x, Loss (o) c i x ↔ x = ((q * mm : ℚ) : ℝ) * dev i c.dv c.k := by
    have hent : ∀ e ∈ o, e.1 = outKey c.dv c.loss c.k → ∀ x, e.2[i]? = some x → x = ((q * mm : ℚ) : ℝ) * dev i c.dv c.k := by
      intro e he hkey x hx
      obtain ⟨dv', _, k', _, loss', p', hdef, hk', _, hl⟩ := h3 e he
      rw [hkey] at hk'
      have e1 : c.dv = dv' := congrArg OutKey.dv hk'
      have e2 : c.k = k' := by
        have a1 := congrArg OutKey.dmg hk'
        have a2 := congrArg OutKey.ds hk'
        have a3 := congrArg OutKey.loc hk'
        have a4 := congrArg OutKey.dir hk'
        have a5 := congrArg OutKey.uid hk'
        cases hck : c.k
        cases k'
        rw [hck] at a1 a2 a3 a4 a5
        simp only [outKey] at a1 a2 a3 a4 a5
        subst a1 a2 a3 a4 a5
        rfl
      have e3 : c.loss = loss' := congrArg OutKey.loss hk'
      subst e1 e2 e3
      have e4 : c.p = p' := by
        obtain ⟨_, _, _, r1, w1, w2⟩ := hc.random.2.2.1
        obtain ⟨_, _, _, r2, w3, w4⟩ := hdef
        rw [w1] at w3
        obtain rfl := Option.some.inj w3
        rw [w2] at w4
        exact Option.some.inj w4
      subst e4
      have hl' := hl i row x hrow hx
      unfold IsLoss at hl'
      simp only [hq] at hl'
      obtain ⟨m', hm', hv⟩ := hl'
      have : m' = mm := median_unique hc.curve hm' hm
      rw [this, hc.random.2.2.2] at hv
      simpa using hv
    intro x
    constructor
    · rintro ⟨v, hv, hx⟩
      exact hent _ hv rfl x hx
    · rintro rfl
      obtain ⟨v, hv, hl⟩ := C91_complete N s.eco s.params hstates s.spread s.missing s.cols s.lossMap s.dvs corr m _ _ s.rows _
        hrun c.dv hc.random.1 c.k hc.random.2.1 c.loss c.p hc.random.2.2.1
      have hg : v[i]? = some (v[i]'(by omega)) := List.getElem?_eq_getElem (by omega)
      exact ⟨v, hv, by rw [hg, hent _ hv rfl _ hg]⟩
  have ht' : (0 : ℝ) < ((q * mm : ℚ) : ℝ) := by exact_mod_cast ht0
  have hzpos : 0 < z / ((q * mm : ℚ) : ℝ) := lt_of_lt_of_le heps hz
  simp only [hx, exists_eq_left]
  rw [← b3, mul_comm, ← le_div_iff₀ ht']
  rcases b1.lt_or_eq with hpos | hzero
  · rw [← not_lt, ← not_lt]
    exact not_congr (devCdf_lt N hc.center_pos hc.spread_pos hpos (.inr hzpos)).symm
  · rw [← hzero] at b2 ⊢
    have hf : c.family = str "normal" := by
      rcases g2 with g2 | g2
      · exact g2
      · exact absurd (b2 g2) (lt_irrefl _)
    exact ⟨fun _ => ((devCdf_lt N hc.center_pos hc.spread_pos hzpos (.inl hf)).2 hzpos).le, fun _ => hzpos.le⟩

/-- The random number of a realization. -/
theorem value_get {n : Nat} {σ : Nat → Ω → Equiv.Perm (Fin n)} (h : RandomGen P n perm jitter σ) {ω : Ω} {i : Nat} (hi : i < n)
    {a : Nat} {l : List ℝ} (hl : drawRow m n (perm ω a) (jitter ω a) = .ok l) :
    l[i]? = some (value m n perm jitter a i ω) ∧ 0 ≤ value m n perm jitter a i ω ∧ value m n perm jitter a i ω < 1 := by
  obtain ⟨hlen, hunit⟩ := DmgProb.drawRow_lt (good h ω) _ hl
  have hget : l[i]? = some (l[i]'(by omega)) := List.getElem?_eq_getElem (by omega)
  have hval : value m n perm jitter a i ω = l[i]'(by omega) := by
    unfold value
    rw [hl]
    simp only [List.getD_eq_getElem?_getD, hget, Option.getD_some]
  obtain ⟨hy0, hy1⟩ := hunit _ (List.getElem_mem (by omega : i < l.length))
  rw [← hval] at hget hy0 hy1
  exact ⟨hget, hy0, hy1⟩

/-- The loss is at most `z` exactly if the random number is at most the value of the distribution function. -/
theorem loss_le (h : Repair P N s m perm jitter σ out) (ω : Ω) {c : Consequence} (hc : c.Valid s) {i : Nat}
    (hi : i < s.rows.length) {t : ℚ} (ht : Scale s c i t) (ht0 : 0 < t) {z : ℝ} (hz : N.eps ≤ z / t) :
    (∃ x, Loss (out ω) c i x ∧ x ≤ z) ↔
      value m s.rows.length perm jitter (number s c) i ω ≤ devCdf N c.family (center c.p) c.spread (z / t) := by
  obtain ⟨d, u, dev, hE, h4, _⟩ := explained_at (h.run ω)
  obtain ⟨g1, -⟩ := hE.2.1 _ _ _ _ _ hc.random
  have hu := h4 rfl _ ((mem_dsVars s.params s.spread s.missing s.cols s.lossMap s.dvs _).2 ⟨c.dv, c.k, c.loss, c.p, c.family, hc.random, rfl⟩)
  obtain ⟨hy, hy0, hy1⟩ := value_get h.draws hi g1
  exact loss_le_of h.eps h.states (h.run ω) hE hc hi ht ht0 hz (by simp only at hu ⊢; rw [hu]; exact hy) hy0 hy1

/-- C119: in each realization the random losses are independent, and a loss is at most `z` with the probability that the
distribution of its consequence gives to values up to `z` for each unit. -/
theorem C119_joint (h : Repair P N s m perm jitter σ out) (i : Nat) (hi : i < s.rows.length) (S : Finset Nat) (c : Nat → Consequence)
    (hc : ∀ j ∈ S, (c j).Valid s) (hdiff : ∀ j ∈ S, ∀ j' ∈ S, (c j).dv = (c j').dv → (c j).k = (c j').k → j = j')
    (t : Nat → ℚ) (ht : ∀ j ∈ S, Scale s (c j) i (t j) ∧ 0 < t j) (z : Nat → ℝ) (hz : ∀ j ∈ S, N.eps ≤ z j / t j) :
    P {ω | ∀ j ∈ S, ∃ x, Loss (out ω) (c j) i x ∧ x ≤ z j} =
      ENNReal.ofReal (∏ j ∈ S, devCdf N (c j).family (center (c j).p) (c j).spread (z j / t j)) := by
  have hrange : ∀ j ∈ S, 0 ≤ devCdf N (c j).family (center (c j).p) (c j).spread (z j / t j) ∧
      devCdf N (c j).family (center (c j).p) (c j).spread (z j / t j) ≤ 1 :=
    fun j hj => devCdf_range N h.eps (hc j hj).center_pos (hc j hj).spread_pos (hz j hj)
  obtain ⟨ω0⟩ := SampleProb.probability_nonempty h.draws (by omega)
  have hf : Function.Injective fun j : S => number s (c j) := by
    intro j j' e
    obtain ⟨e1, e2⟩ := number_inj h ω0 (hc j j.2) (hc j' j'.2) e
    exact Subtype.ext (hdiff j j.2 j' j'.2 e1 e2)
  have hind := (value_indep h.draws h.method ⟨i, hi⟩).precomp hf
  have h1 := hind.measure_inter_preimage_eq_mul Finset.univ
    (sets := fun j => Set.Iic (devCdf N (c j).family (center (c j).p) (c j).spread (z j / t j))) (fun j _ => measurableSet_Iic)
  have h2 : {ω | ∀ j ∈ S, ∃ x, Loss (out ω) (c j) i x ∧ x ≤ z j} =
      ⋂ j ∈ (Finset.univ : Finset S), value m s.rows.length perm jitter (number s (c j)) i ⁻¹'
        Set.Iic (devCdf N (c j).family (center (c j).p) (c j).spread (z j / t j)) := by
    ext ω
    simp only [Set.mem_setOf_eq, Set.mem_iInter, Finset.mem_univ, forall_true_left, Set.mem_preimage, Set.mem_Iic]
    exact ⟨fun hh j => (loss_le h ω (hc j j.2) hi (ht j j.2).1 (ht j j.2).2 (hz j j.2)).1 (hh j j.2),
      fun hh j hj => (loss_le h ω (hc j hj) hi (ht j hj).1 (ht j hj).2 (hz j hj)).2 (hh ⟨j, hj⟩)⟩
  rw [h2]
  refine Eq.trans h1 ?_
  rw [ENNReal.ofReal_prod_of_nonneg fun j hj => (hrange j hj).1,
    ← Finset.prod_coe_sort S fun j => ENNReal.ofReal (devCdf N (c j).family (center (c j).p) (c j).spread (z j / t j))]
  refine Finset.prod_congr rfl fun j _ => ?_
  rw [← uniform_Iic (hrange j j.2).1 (hrange j j.2).2]
  exact (value_law h.draws h.method (number s (c j)) ⟨i, hi⟩).2.measure_eq
    (p := fun x => x ∈ Set.Iic (devCdf N (c j).family (center (c j).p) (c j).spread (z j / t j))) measurableSet_Iic

/-- C119 for one loss. -/
theorem C119_one (h : Repair P N s m perm jitter σ out) (i : Nat) (hi : i < s.rows.length) (c : Consequence) (hc : c.Valid s)
    (t : ℚ) (ht : Scale s c i t) (ht0 : 0 < t) (z : ℝ) (hz : N.eps ≤ z / t) :
    P {ω | ∃ x, Loss (out ω) c i x ∧ x ≤ z} = ENNReal.ofReal (devCdf N c.family (center c.p) c.spread (z / t)) := by
  have := C119_joint h i hi {0} (fun _ => c) (by simpa using hc) (by simp) (fun _ => t) (by simpa using ⟨ht, ht0⟩) (fun _ => z)
    (by simpa using hz)
  simpa using this

/-- The distribution function of a cut distribution is a conditional probability. -/
theorem cut_law (mean std low x : ℝ) (hs : 0 < std) (hx : low ≤ x) :
    ENNReal.ofReal (cutCdf gaussian ((low - mean) / std) ((x - mean) / std)) =
      (gaussianReal mean (Real.toNNReal (std ^ 2)))[Set.Iic x | Set.Ioi low] := by
  set μ := gaussianReal mean (Real.toNNReal (std ^ 2)) with hμ
  have h1 : ∀ x, μ (Set.Iic x) = ENNReal.ofReal (gaussian.cdf ((x - mean) / std)) := fun x => SampleProb.normal_Iic _ _ x hs
  have hIoi : μ (Set.Ioi low) = ENNReal.ofReal (1 - gaussian.cdf ((low - mean) / std)) := by
    rw [← Set.compl_Iic, prob_compl_eq_one_sub measurableSet_Iic, h1, ENNReal.ofReal_sub _ (gaussian.cdf_pos _).le,
      ENNReal.ofReal_one]
  have hset : Set.Ioi low ∩ Set.Iic x = Set.Iic x \ Set.Iic low := by
    ext y
    simp [and_comm]
  have hIoc : μ (Set.Ioi low ∩ Set.Iic x) = ENNReal.ofReal (gaussian.cdf ((x - mean) / std) - gaussian.cdf ((low - mean) / std)) := by
    rw [ENNReal.ofReal_sub _ (gaussian.cdf_pos _).le, ← h1, ← h1, hset,
      measure_diff (Set.Iic_subset_Iic.2 hx) measurableSet_Iic.nullMeasurableSet (measure_ne_top _ _)]
  have hpos : 0 < 1 - gaussian.cdf ((low - mean) / std) := by
    have := gaussian.cdf_lt_one ((low - mean) / std)
    linarith
  rw [cond_apply measurableSet_Ioi, hIoi, hIoc]
  unfold cutCdf
  rw [div_eq_inv_mul, ENNReal.ofReal_mul (inv_nonneg.2 hpos.le), ENNReal.ofReal_inv_of_pos hpos]

/-- C119: the loss from a consequence with the family `normal` and a coefficient of variation has, for each unit, the
normal distribution of Mathlib under the condition that it is positive. -/
theorem C119_normal (h : Repair P N s m perm jitter σ out) (hD : N.D = gaussian) (i : Nat) (hi : i < s.rows.length) (c : Consequence)
    (hc : c.Valid s) (hf : c.family = str "normal") (t : ℚ) (ht : Scale s c i t) (ht0 : 0 < t) (z : ℝ) (hz : N.eps ≤ z / t) :
    P {ω | ∃ x, Loss (out ω) c i x ∧ x ≤ z} =
      (gaussianReal (center c.p) (Real.toNNReal ((center c.p * c.spread) ^ 2)))[Set.Iic (z / t) | Set.Ioi 0] := by
  rw [C119_one h i hi c hc t ht ht0 z hz]
  unfold devCdf
  rw [if_pos hf, hD]
  exact cut_law _ _ _ _ (mul_pos hc.center_pos hc.spread_pos) (h.eps.le.trans hz)

/-- C119: the logarithm of the loss from a consequence with the family `lognormal` has, for each unit, the normal
distribution around the logarithm of the median under the condition that the loss is above the smallest number. -/
theorem C119_lognormal (h : Repair P N s m perm jitter σ out) (hD : N.D = gaussian) (hE : N.E = realExp) (i : Nat)
    (hi : i < s.rows.length) (c : Consequence)
    (hc : c.Valid s) (hf : c.family = str "lognormal") (t : ℚ) (ht : Scale s c i t) (ht0 : 0 < t) (z : ℝ) (hz : N.eps ≤ z / t) :
    P {ω | ∃ x, Loss (out ω) c i x ∧ x ≤ z} =
      (gaussianReal (Real.log (center c.p)) (Real.toNNReal (c.spread ^ 2)))[Set.Iic (Real.log (z / t)) | Set.Ioi (Real.log N.eps)] := by
  rw [C119_one h i hi c hc t ht ht0 z hz]
  unfold devCdf
  rw [if_neg (by rw [hf]; decide), hD, hE]
  exact cut_law _ _ _ _ hc.spread_pos (Real.log_le_log h.eps hz)

/-! ### A calculation that meets the hypotheses -/

/-- Three damaged quantities of a component in two realizations. -/
noncomputable def exSetting : Setting :=
  ⟨⟨true, false⟩, devParams, fun _ _ => [1 / 2], [], devCols, [(str "A", str "A")], [str "Cost", str "Time"], devRows⟩

/-- The cost of the first damage state, 5 per unit. -/
noncomputable def exCost : Consequence :=
  ⟨str "Cost", ⟨str "A", str "1", str "1", str "0", str "1"⟩, str "A", ⟨.const 5, some (str "normal")⟩, str "normal", 1 / 2⟩

/-- The time of the first damage state, 2 per unit. -/
noncomputable def exTime : Consequence :=
  ⟨str "Time", ⟨str "A", str "1", str "1", str "0", str "1"⟩, str "A", ⟨.const 2, some (str "normal")⟩, str "normal", 1 / 2⟩

theorem ex_params {dv : Str} {row : Str → Option DsParam} (h : devParams.rows.get? (str "A", dv) = some row) :
    (dv = str "Cost" ∨ dv = str "Time") ∧ ∀ ds p, row ds = some p → (ds = str "1" ∨ ds = str "2") ∧
      (p.family = some (str "normal") ∨ p.family = some (str "lognormal")) ∧ 1 ≤ center (F := ℝ) p := by
  simp only [devParams, Dict.get?, Prod.mk.injEq, true_and] at h
  split at h
  · rename_i hd
    simp only [Option.some.injEq] at h
    subst h
    refine ⟨.inl hd.symm, ?_⟩
    intro ds p hp
    beta_reduce at hp
    split at hp
    · simp only [Option.some.injEq] at hp
      subst hp
      exact ⟨.inl ‹_›, .inl rfl, by norm_num [center]⟩
    · split at hp
      · simp only [Option.some.injEq] at hp
        subst hp
        exact ⟨.inr ‹_›, .inr rfl, by norm_num [center]⟩
      · simp at hp
  · split at h
    · rename_i hd
      simp only [Option.some.injEq] at h
      subst h
      refine ⟨.inr hd.symm, ?_⟩
      intro ds p hp
      beta_reduce at hp
      split at hp
      · simp only [Option.some.injEq] at hp
        subst hp
        exact ⟨.inl ‹_›, .inl rfl, by norm_num [center]⟩
      · split at hp
        · simp only [Option.some.injEq] at hp
          subst hp
          exact ⟨.inr ‹_›, .inr rfl, by norm_num [center]⟩
        · simp at hp
    · simp at h

/-- Real arithmetic with the standard normal distribution. -/
noncomputable def exNum : Num ℝ := realNum (1 - gaussian.cdf 0)

theorem ex_eps : 0 < exNum.eps := by
  have := gaussian.cdf_lt_one 0
  show 0 < 1 - gaussian.cdf 0
  linarith

theorem ex_states : ∀ key row, devParams.rows.get? key = some row → ∀ ds, row ds ≠ none → ds ∈ devParams.states := by
  rintro ⟨a, dv⟩ row hr ds hds
  have ha : a = str "A" := by
    by_contra hn
    have : devParams.rows.get? (a, dv) = none := by
      simp [devParams, Dict.get?, Ne.symm hn]
    rw [this] at hr
    simp at hr
  subst ha
  obtain ⟨p, hp⟩ := Option.ne_none_iff_exists'.1 hds
  rcases ((ex_params hr).2 ds p hp).1 with rfl | rfl <;> simp [devParams]

/-- The calculation succeeds with and without correlation. -/
theorem ex_succeeds (corr : Option (List (List ℝ) → List (List ℝ))) (m : Method) (hm' : m ≠ .other) (pm : Nat → List Nat) (jt : Nat → List ℝ) :
    ∃ o, calculate exNum exSetting.eco exSetting.params exSetting.spread exSetting.missing exSetting.cols exSetting.lossMap exSetting.dvs
      corr m pm jt exSetting.rows = .ok (some o) := by
  have he := ex_eps
  have he1 : exNum.eps ≤ 1 := by
    have := gaussian.cdf_pos 0
    show 1 - gaussian.cdf 0 ≤ 1
    linarith
  have hrow1 : ∃ row, devParams.rows.get? (str "A", str "Cost") = some row := ⟨_, rfl⟩
  have hrow2 : ∃ row, devParams.rows.get? (str "A", str "Time") = some row := ⟨_, by with_unfolding_all rfl⟩
  exact C91_succeeds exNum he exSetting.eco devParams ex_states exSetting.spread [] devCols (by decide)
    [(str "A", str "A")] (by decide) [str "Cost", str "Time"] (by decide) corr m hm' pm jt exSetting.rows rfl
    (by
      intro dv hdv cmp loss hl _ _
      simp only [List.mem_singleton, Prod.mk.injEq] at hl
      obtain ⟨rfl, rfl⟩ := hl
      have hrow : ∃ row, devParams.rows.get? (str "A", dv) = some row := by
        simp only [List.mem_cons, List.not_mem_nil, or_false] at hdv
        rcases hdv with rfl | rfl
        · exact hrow1
        · exact hrow2
      obtain ⟨row, hr⟩ := hrow
      refine ⟨row, hr, ?_, ?_, ?_⟩
      · intro ds p _ hp
        rcases ((ex_params hr).2 ds p hp).2.1 with e | e <;> rw [e] <;> simp
      · intro k _ k' _ _ _ _ _ p p' hp _ hn
        rcases ((ex_params hr).2 _ p hp).2.1 with e | e <;> rw [e] at hn <;> simp at hn
      · intro hc
        exact absurd hc (by simp [exSetting]))
    ⟨str "Cost", by simp, ⟨str "A", str "1", str "1", str "0", str "1"⟩, by simp [devCols], str "A", exCost.p, by simp, by simp,
      by decide, _, rfl, rfl⟩
    (by
      rintro dv k loss p f ⟨hdv, hk, ⟨hl, _, _, row, hr, hp⟩, hfam⟩
      simp only [List.mem_singleton, Prod.mk.injEq] at hl
      obtain ⟨hcmp, rfl⟩ := hl
      obtain ⟨_, h2⟩ := ex_params hr
      obtain ⟨_, h4, h5⟩ := h2 _ p hp
      constructor
      · refine ⟨1 / 2, rfl, by norm_num, ?_⟩
        have hle : ∀ x : ℝ, x ≤ 0 → exNum.eps ≤ 1 - exNum.D.cdf x := by
          intro x hx
          show 1 - gaussian.cdf 0 ≤ 1 - gaussian.cdf x
          have := gaussian.cdf_mono hx
          linarith
        rw [hfam] at h4
        simp only [Option.some.injEq] at h4
        rcases h4 with rfl | rfl
        · refine .inl ⟨rfl, le_trans (by norm_num) h5, hle _ ?_⟩
          exact div_nonpos_of_nonpos_of_nonneg (by linarith) (by linarith)
        · refine .inr ⟨rfl, by linarith, hle _ ?_⟩
          have : Real.log exNum.eps ≤ Real.log (center p) := Real.log_le_log he (by linarith)
          exact div_nonpos_of_nonpos_of_nonneg (by
            show Real.log exNum.eps - Real.log (center p) ≤ 0
            linarith) (by norm_num)
      · simp only [List.mem_cons, List.not_mem_nil, or_false] at hdv
        simp only [devCols, List.mem_cons, List.not_mem_nil, or_false] at hk
        rcases hdv with rfl | rfl <;> rcases hk with rfl | rfl | rfl <;> decide)

/-- There are calculations with the numbers of a random number generator. -/
theorem ex_repair (m : Method) (hm : m = .monteCarlo ∨ m = .lhs) :
    ∃ (Ω : Type) (_ : MeasurableSpace Ω) (P : Measure Ω) (perm : Ω → Nat → List Nat) (jitter : Ω → Nat → List ℝ)
      (σ : Nat → Ω → Equiv.Perm (Fin exSetting.rows.length)) (out : Ω → List (OutKey × List ℝ)),
      Repair P exNum exSetting m perm jitter σ out := by
  obtain ⟨Ω, mΩ, P, perm, jitter, σ, h⟩ := SampleProb.draws_exist exSetting.rows.length
  have hm' : m ≠ .other := by rcases hm with rfl | rfl <;> simp
  choose out hout using fun ω => ex_succeeds none m hm' (perm ω) (jitter ω)
  exact ⟨Ω, mΩ, P, perm, jitter, σ, out, ex_eps, ex_states, hm, h, hout⟩

theorem ex_valid : exCost.Valid exSetting ∧ exTime.Valid exSetting := by
  refine ⟨⟨⟨by simp [exSetting, exCost], by simp [exSetting, exCost, devCols], ⟨by simp [exSetting, exCost], by simp [exSetting],
    by decide, _, rfl, rfl⟩, rfl⟩, rfl, by norm_num [exCost], by norm_num [exCost, center], ?_⟩,
    ⟨⟨by simp [exSetting, exTime], by simp [exSetting, exTime, devCols], ⟨by simp [exSetting, exTime], by simp [exSetting],
    by decide, _, by with_unfolding_all rfl, rfl⟩, rfl⟩, rfl, by norm_num [exTime], by norm_num [exTime, center], ?_⟩⟩
  · intro pts h; simp [exCost] at h
  · intro pts h; simp [exTime] at h

/-- Three damaged units in the first realization: the probability that the cost is at most 15 and the time at most 6. -/
example {Ω : Type} [MeasurableSpace Ω] {P : Measure Ω} {perm : Ω → Nat → List Nat} {jitter : Ω → Nat → List ℝ}
    {σ : Nat → Ω → Equiv.Perm (Fin exSetting.rows.length)} {out : Ω → List (OutKey × List ℝ)}
    (h : Repair P exNum exSetting .lhs perm jitter σ out) :
    P {ω | (∃ x, Loss (out ω) exCost 0 x ∧ x ≤ 15) ∧ ∃ x, Loss (out ω) exTime 0 x ∧ x ≤ 6} =
      ENNReal.ofReal (devCdf exNum (str "normal") 5 (1 / 2) 5 * devCdf exNum (str "normal") 2 (1 / 2) 2) := by
  have he1 : exNum.eps ≤ 1 := by
    have := gaussian.cdf_pos 0
    show 1 - gaussian.cdf 0 ≤ 1
    linarith
  have hs : ∀ c : Consequence, c.k = exCost.k → c.p.family ≠ none → (∃ x, c.p.theta = .const x) → Scale exSetting c 0 3 := by
    rintro c hk hf ⟨x, hx⟩
    refine ⟨_, 3, 1, rfl, by rw [hk]; rfl, ?_, by norm_num⟩
    unfold UnitMedian
    rw [hx]
    simp [hf]
  have := C119_joint h 0 (by decide) {0, 1} (fun j => if j = 0 then exCost else exTime)
    (by simp [ex_valid]) (by
      intro j hj j' hj'
      simp only [Finset.mem_insert, Finset.mem_singleton] at hj hj'
      rcases hj with rfl | rfl <;> rcases hj' with rfl | rfl <;> simp [exCost, exTime] <;> decide)
    (fun _ => 3) (by
      intro j hj
      simp only [Finset.mem_insert, Finset.mem_singleton] at hj
      refine ⟨?_, by norm_num⟩
      rcases hj with rfl | rfl
      · exact hs exCost rfl (by simp [exCost]) ⟨5, rfl⟩
      · exact hs exTime rfl (by simp [exTime]) ⟨2, rfl⟩)
    (fun j => if j = 0 then 15 else 6) (by
      intro j hj
      simp only [Finset.mem_insert, Finset.mem_singleton] at hj
      rcases hj with rfl | rfl <;> norm_num <;> linarith)
  rw [Finset.prod_pair (by decide)] at this
  norm_num [exCost, exTime, center] at this ⊢
  exact this

end Verif.LossProb
