import Verif.Spec.DmgDist
import Verif.Props.DmgProb

/-! # Property C116: the distribution of damaged quantities -/

namespace Verif.DmgDist

open Verif.UQ Verif.DmgSample Verif.DmgProb MeasureTheory ProbabilityTheory
open Verif.DmgEval (BlockId numOf)
open Verif.DmgCalc (Assets Sound componentBlocks calculate amount blocksWith)
open Verif.DemandReq (PGid)
open Verif.DmgRVs (LSRow)
open Verif.DmgQty (Table)

variable {Ω : Type} [MeasurableSpace Ω] {P : Measure Ω}

/-! ### Independent events of equal probability -/

open Classical in
/-- The number of events that happen. -/
theorem binomial_of_indep [IsProbabilityMeasure P] {n : Nat} {E : Fin n → Set Ω} (hE : ∀ k, MeasurableSet (E k))
    {p : ℝ} (hp0 : 0 ≤ p) (hp1 : p ≤ 1)
    (hP : ∀ S : Finset (Fin n), P (⋂ k, if k ∈ S then E k else (E k)ᶜ) =
      ∏ k, if k ∈ S then ENNReal.ofReal p else ENNReal.ofReal (1 - p)) (m : Nat) :
    P {ω | (Finset.univ.filter fun k => ω ∈ E k).card = m} = ENNReal.ofReal (binomial n p m) := by
  have e : {ω | (Finset.univ.filter fun k => ω ∈ E k).card = m} =
      ⋃ S ∈ Finset.powersetCard m (Finset.univ : Finset (Fin n)), ⋂ k, if k ∈ S then E k else (E k)ᶜ := by
    ext ω
    simp only [Set.mem_setOf_eq, Set.mem_iUnion, Finset.mem_powersetCard, exists_prop, Set.mem_iInter]
    constructor
    · intro h
      refine ⟨_, ⟨Finset.subset_univ _, h⟩, fun k => ?_⟩
      split
      · rename_i hk
        simpa using hk
      · rename_i hk
        simpa using hk
    · rintro ⟨S, ⟨_, rfl⟩, hS⟩
      congr 1
      ext k
      have := hS k
      simp only [Finset.mem_filter, Finset.mem_univ, true_and]
      split at this
      · rename_i hk
        exact ⟨fun _ => hk, fun _ => this⟩
      · rename_i hk
        exact ⟨fun hh => absurd hh this, fun hh => absurd hh hk⟩
  rw [e, measure_biUnion_finset]
  · have hterm : ∀ S ∈ Finset.powersetCard m (Finset.univ : Finset (Fin n)),
        P (⋂ k, if k ∈ S then E k else (E k)ᶜ) = ENNReal.ofReal (p ^ m * (1 - p) ^ (n - m)) := by
      intro S hS
      rw [hP S, Finset.prod_ite, Finset.prod_const, Finset.prod_const]
      have h1 : (Finset.univ.filter fun k => k ∈ S) = S := by ext; simp
      have h2 : (Finset.univ.filter fun k => k ∉ S) = Sᶜ := by ext; simp
      have h3 := (Finset.mem_powersetCard.1 hS).2
      rw [h1, h2, Finset.card_compl, Fintype.card_fin, h3, ENNReal.ofReal_mul (by positivity),
        ENNReal.ofReal_pow hp0, ENNReal.ofReal_pow (by linarith)]
    rw [Finset.sum_congr rfl hterm, Finset.sum_const, Finset.card_powersetCard, Finset.card_univ, Fintype.card_fin,
      nsmul_eq_mul, binomial, mul_assoc, ENNReal.ofReal_mul (p := ((n.choose m : ℕ) : ℝ)) (by positivity),
      ENNReal.ofReal_natCast]
  · intro S _ S' _ hne
    rw [Function.onFun, Set.disjoint_left]
    intro ω h1 h2
    apply hne
    ext k
    have a1 := Set.mem_iInter.1 h1 k
    have a2 := Set.mem_iInter.1 h2 k
    by_cases hk : k ∈ S <;> by_cases hk' : k ∈ S' <;> simp_all
  · intro S _
    refine MeasurableSet.iInter fun k => ?_
    split
    · exact hE k
    · exact (hE k).compl

variable {N NQ : Num ℝ} {x : Input ℝ} {available missing : List Str} {a : Assets} {size : Int} {listAll : Bool}
  {params : List (Str × List LSRow)} {visit : List Str → List Str} {dc dl : Ω → Nat → Draws ℝ} {t : Ω → Table}

/-- A calculation with any method for which the numbers are uniform. -/
structure Calc (P : Measure Ω) (N NQ : Num ℝ) (x : Input ℝ) (available missing : List Str) (a : Assets)
    (size : Int) (listAll : Bool) (params : List (Str × List LSRow)) (visit : List Str → List Str)
    (dc dl : Ω → Nat → Draws ℝ) (t : Ω → Table) : Prop where
  batch : 0 ≤ size
  sound : Sound a
  dashless : Dashless x (componentBlocks a)
  components : ∀ e ∈ componentBlocks a, ∀ rows, x.caps e.1 = some rows → Component rows
  distinct : (params.map (·.1)).Nodup
  draws : UniformValues P x.method x.size dc dl
  run : ∀ ω, calculate N NQ x available missing a none size listAll params visit (dc ω) (dl ω) = .ok (t ω)

theorem Calculated.toCalc (h : Calculated P N NQ x available missing a size listAll params visit dc dl t) :
    Calc P N NQ x available missing a size listAll params visit dc dl t :=
  ⟨h.batch, h.sound, h.dashless, h.components, h.distinct, by rw [h.method]; exact h.draws.values, h.run⟩

/-- The damage states behind the quantities. -/
theorem sampled (h : Calc P N NQ x available missing a size listAll params visit dc dl t) :
    ∃ out, Run P N NQ x available missing (componentBlocks a) size dc dl out ∧
      ∀ ω, ∀ i < x.size, ∃ row q, (out ω)[i]? = some row ∧ a.qty[i]? = some q ∧
        ∀ pg n A, Group available missing (componentBlocks a) pg n →
          amount (t ω) pg A i = q pg / n * (blocksWith row pg n A : ℕ) := by
  choose out h1 h2 h3 h4 using fun ω => DmgCalc.C90_quantities N NQ x available missing a size listAll params visit
    (dc ω) (dl ω) h.sound h.batch h.dashless (h.draws.states ω) h.distinct (t ω) (h.run ω)
  exact ⟨out, ⟨h.batch, h.sound.pos, h.dashless, h.components, h.draws, h1⟩, h4⟩

section Events
variable {table : List (PGid × Int)} {out : Ω → List (Dict BlockId Int)}

/-- The event that the damage state of a block is one of those selected by `A`. -/
def event (out : Ω → List (Dict BlockId Int)) (pg : PGid) (i : Nat) (A : Int → Bool) (k : Nat) : Set Ω :=
  {ω | ∃ v ∈ {v | A v = true}, stateOf (out ω) (blockId pg k) i = some v}

theorem event_measurable (h : Run P N NQ x available missing table size dc dl out) {pg : PGid} {n k : Nat}
    (hg : Group available missing table pg n) (hk : k < n) {rows : List (LSCap ℝ)} (hrows : x.caps pg = some rows)
    {i : Nat} (hi : i < x.size) {q : ℚ} (hq : DemandIs x pg i q) {curve : LSCap ℝ → ℝ}
    (hcurve : Curves N x rows k q curve) (A : Int → Bool) : MeasurableSet (event out pg i A k) := by
  obtain ⟨slot, lslot, hs⟩ := DmgProb.cells h
  have e : event out pg i A k = ⋃ v ∈ {v | A v = true}, {ω | stateOf (out ω) (blockId pg k) i = some v} := by
    ext ω
    simp [event]
  rw [e]
  refine MeasurableSet.biUnion (Set.to_countable _) fun v _ => ?_
  have := state_measurable h hg hk hrows (i := ⟨i, hi⟩) (curve := curve) (slot := slot) (lslot := lslot)
    (fun ω => (hs ω).2.2 pg n k hg hk rows hrows ⟨i, hi⟩ q curve hq hcurve) v
  refine (?_ : sigma x.method dc dl _ ≤ (inferInstance : MeasurableSpace Ω)) _ this
  exact iSup₂_le fun s _ => (h.draws.measurable s).comap_le

theorem event_compl (h : Run P N NQ x available missing table size dc dl out) {pg : PGid} {n k : Nat}
    (hg : Group available missing table pg n) (hk : k < n) {rows : List (LSCap ℝ)} (hrows : x.caps pg = some rows)
    {i : Nat} (hi : i < x.size) {q : ℚ} (hq : DemandIs x pg i q) {curve : LSCap ℝ → ℝ}
    (hcurve : Curves N x rows k q curve) (A : Int → Bool) :
    (event out pg i A k)ᶜ = event out pg i (fun v => !A v) k := by
  obtain ⟨slot, lslot, hs⟩ := DmgProb.cells h
  ext ω
  obtain ⟨v, hv, _⟩ := (hs ω).2.2 pg n k hg hk rows hrows ⟨i, hi⟩ q curve hq hcurve
  simp only at hv
  simp [event, hv]

theorem events_indep (h : Run P N NQ x available missing table size dc dl out) {pg : PGid} {n : Nat}
    (hg : Group available missing table pg n) {rows : List (LSCap ℝ)} (hrows : x.caps pg = some rows)
    {i : Nat} (hi : i < x.size) {q : ℚ} (hq : DemandIs x pg i q) {curve : LSCap ℝ → ℝ}
    (hcurve : ∀ k < n, Curves N x rows k q curve) (A : Nat → Int → Bool) (S : Finset (Fin n)) :
    P (⋂ k ∈ S, event out pg i (A k) k) = ∏ k ∈ S, P (event out pg i (A k) k) := by
  have hinj : Function.Injective fun k : Fin n => (pg, k.1, i) := fun k k' hkk => by
    simp only [Prod.mk.injEq, true_and, and_true] at hkk
    exact Fin.ext hkk
  have := run_independent h (h.draws.columns ⟨i, hi⟩) (S.map ⟨_, hinj⟩) (by
    intro u hu
    obtain ⟨k, hk, rfl⟩ := Finset.mem_map.1 hu
    exact ⟨⟨n, hg, k.2⟩, hi, rows, q, curve, hrows, hq, hcurve k k.2⟩) (by
    intro u hu s hs
    obtain ⟨k, hk, rfl⟩ := Finset.mem_map.1 hu
    exact ⟨(s.1, s.2.1, s.2.2.1), Prod.ext rfl (Prod.ext rfl (Prod.ext rfl (Fin.ext hs.symm)))⟩) (fun u => {v | A u.2.1 v = true})
  rw [Finset.prod_map] at this
  refine Eq.trans ?_ this
  congr 1
  ext ω
  simp [event]

open Classical in
theorem blocks_card {row : Dict BlockId Int} {ω : Ω} {i : Nat} (hrow : (out ω)[i]? = some row) (pg : PGid) (n : Nat)
    (A : Int → Bool) :
    blocksWith row pg n A = (Finset.univ.filter fun k : Fin n => ω ∈ event out pg i A k).card := by
  have e : ∀ k, ω ∈ event out pg i A k ↔ (row.get? (blockId pg k)).any A = true := by
    intro k
    simp only [event, stateOf, hrow, Option.bind_some, Set.mem_setOf_eq, Option.any_eq_true]
    constructor
    · rintro ⟨v, h1, h2⟩; exact ⟨v, h2, h1⟩
    · rintro ⟨v, h1, h2⟩; exact ⟨v, h2, h1⟩
  rw [Finset.card_filter, Fin.sum_univ_eq_sum_range (fun k => if ω ∈ event out pg i A k then 1 else 0) n]
  unfold blocksWith
  induction n with
  | zero => rfl
  | succ n ih =>
    rw [List.range_succ, List.countP_append, ih, Finset.sum_range_succ]
    congr 1
    rw [List.countP_singleton]
    exact if_congr (e n).symm rfl rfl

end Events

/-! ### The theorems -/

open Classical in
/-- Quantities and events. -/
theorem amount_card (h : Calc P N NQ x available missing a size listAll params visit dc dl t) :
    ∃ out, Run P N NQ x available missing (componentBlocks a) size dc dl out ∧
      ∀ ω, ∀ i < x.size, ∀ Q, a.qty[i]? = some Q →
        ∀ pg n A, Group available missing (componentBlocks a) pg n →
          amount (t ω) pg A i = Q pg / n * ((Finset.univ.filter fun k : Fin n => ω ∈ event out pg i A k).card : ℕ) := by
  obtain ⟨out, h1, h2⟩ := sampled h
  refine ⟨out, h1, fun ω i hi Q hQ pg n A hg => ?_⟩
  obtain ⟨row, q, g1, g2, g3⟩ := h2 ω i hi
  rw [hQ] at g2
  obtain rfl := Option.some.inj g2
  rw [g3 pg n A hg, blocks_card g1]

theorem group_pos (h : Calc P N NQ x available missing a size listAll params visit dc dl t) {pg : PGid} {n : Nat}
    (hg : Group available missing (componentBlocks a) pg n) : 0 < n :=
  (DmgCalc.group_blocks h.sound hg).2

/-- The distribution of the quantity in damage states selected by `A`, each block being in one of them with
probability `p`. -/
theorem dist (h : Calc P N NQ x available missing a size listAll params visit dc dl t) (pg : PGid) (n : Nat)
    (hg : Group available missing (componentBlocks a) pg n) (rows : List (LSCap ℝ)) (hrows : x.caps pg = some rows)
    (i : Nat) (hi : i < x.size) (q : ℚ) (hq : DemandIs x pg i q) (curve : LSCap ℝ → ℝ)
    (hcurve : ∀ k < n, Curves N x rows k q curve) (Q : PGid → ℚ) (hQ : a.qty[i]? = some Q)
    (A : Int → Bool) (p : ℝ) (hp0 : 0 ≤ p) (hp1 : p ≤ 1)
    (hp : ∀ out, Run P N NQ x available missing (componentBlocks a) size dc dl out →
      ∀ k < n, P (event out pg i A k) = ENNReal.ofReal p) :
    (Q pg ≠ 0 → ∀ m : ℕ, P {ω | amount (t ω) pg A i = Q pg * (m / n)} = ENNReal.ofReal (binomial n p m)) ∧
    ∫ ω, (amount (t ω) pg A i : ℝ) ∂P = Q pg * p ∧
    Var[fun ω => (amount (t ω) pg A i : ℝ); P] = Q pg ^ 2 * (p * (1 - p)) / n := by
  classical
  haveI := (h.draws.columns ⟨i, hi⟩).isProbabilityMeasure
  obtain ⟨out, hmc, ham⟩ := amount_card h
  have hn := group_pos h hg
  have hnq : (n : ℚ) ≠ 0 := by exact_mod_cast hn.ne'
  have hnr : (n : ℝ) ≠ 0 := by exact_mod_cast hn.ne'
  have hE : ∀ k : Fin n, MeasurableSet (event out pg i A k) := fun k =>
    event_measurable hmc hg k.2 hrows hi hq (hcurve k k.2) A
  have hpE : ∀ k : Fin n, P (event out pg i A k) = ENNReal.ofReal p := fun k => hp out hmc k k.2
  refine ⟨?_, ?_⟩
  · intro hQ0 m
    rw [← binomial_of_indep (P := P) hE hp0 hp1 ?_ m]
    · congr 1
      ext ω
      simp only [Set.mem_setOf_eq]
      rw [ham ω i hi Q hQ pg n A hg]
      constructor
      · intro e
        have : ((Finset.univ.filter fun k : Fin n => ω ∈ event out pg i A k).card : ℚ) = m := by
          field_simp at e
          exact e
        exact_mod_cast this
      · intro e
        rw [e]
        ring
    · intro S
      have e : (⋂ k : Fin n, if k ∈ S then event out pg i A k else (event out pg i A k)ᶜ) =
          ⋂ k ∈ (Finset.univ : Finset (Fin n)), event out pg i (fun v => if (∃ k' ∈ S, k'.1 = k.1) then A v else !A v) k := by
        simp only [Finset.mem_univ, Set.iInter_true]
        refine Set.iInter_congr fun k => ?_
        have hk : (∃ k' ∈ S, k'.1 = k.1) ↔ k ∈ S := by
          constructor
          · rintro ⟨k', h1, h2⟩
            rwa [Fin.ext h2] at h1
          · intro hk; exact ⟨k, hk, rfl⟩
        rw [event_compl hmc hg k.2 hrows hi hq (hcurve k k.2) A]
        simp only [hk]
        split <;> rfl
      rw [e, events_indep hmc hg hrows hi hq hcurve (fun k v => if (∃ k' ∈ S, k'.1 = k) then A v else !A v)]
      refine Finset.prod_congr rfl fun k _ => ?_
      have hk : (∃ k' ∈ S, k'.1 = k.1) ↔ k ∈ S := by
        constructor
        · rintro ⟨k', h1, h2⟩
          rwa [Fin.ext h2] at h1
        · intro hk; exact ⟨k, hk, rfl⟩
      simp only [hk]
      split
      · exact hpE k
      · rw [← event_compl hmc hg k.2 hrows hi hq (hcurve k k.2) A, prob_compl_eq_one_sub (hE k), hpE k,
          ENNReal.ofReal_sub _ hp0, ENNReal.ofReal_one]
  · let X : Fin n → Ω → ℝ := fun k => (event out pg i A k).indicator fun _ => 1
    have hXm : ∀ k, Measurable (X k) := fun k => measurable_const.indicator (hE k)
    have hX01 : ∀ k ω, X k ω = 0 ∨ X k ω = 1 := fun k ω => by
      simp only [X, Set.indicator_apply]
      split <;> simp [*]
    have hLp : ∀ k, MemLp (X k) 2 P := fun k =>
      MemLp.of_bound (hXm k).aestronglyMeasurable 1 (Filter.Eventually.of_forall fun ω => by
        rcases hX01 k ω with e | e <;> simp [e])
    have hmean : ∀ k, ∫ ω, X k ω ∂P = p := by
      intro k
      have : X k = (event out pg i A k).indicator 1 := rfl
      rw [this, integral_indicator_one (hE k), measureReal_def, hpE k, ENNReal.toReal_ofReal hp0]
    have hvar : ∀ k, Var[X k; P] = p * (1 - p) := by
      intro k
      rw [variance_eq_sub (hLp k)]
      have e : X k ^ 2 = X k := by
        funext ω
        rcases hX01 k ω with e | e <;> simp [e]
      rw [e, hmean k]
      ring
    have hind : iIndepFun X P := iIndepSet.iIndepFun_indicator ((iIndepSet_iff_meas_biInter hE).2 fun S =>
      events_indep hmc hg hrows hi hq hcurve (fun _ => A) S)
    have hsum : (fun ω => (amount (t ω) pg A i : ℝ)) = fun ω => (Q pg / n : ℝ) * (∑ k, X k) ω := by
      funext ω
      rw [ham ω i hi Q hQ pg n A hg, Finset.card_filter]
      push_cast
      rw [Finset.sum_apply]
      congr 1
      refine Finset.sum_congr rfl fun k _ => ?_
      simp only [X, Set.indicator_apply]
      split <;> simp
    constructor
    · rw [hsum, integral_const_mul]
      simp only [Finset.sum_apply]
      rw [integral_finsetSum _ fun k _ => (hLp k).integrable one_le_two]
      simp only [hmean, Finset.sum_const, Finset.card_univ, Fintype.card_fin, nsmul_eq_mul]
      field_simp
    · rw [hsum, variance_const_mul, IndepFun.variance_sum (fun k _ => hLp k) (fun k _ j _ hkj => hind.indepFun hkj)]
      simp only [hvar, Finset.sum_const, Finset.card_univ, Fintype.card_fin, nsmul_eq_mul]
      field_simp

theorem calc_reached (h : Calc P N NQ x available missing a size listAll params visit dc dl t) (pg : PGid)
    (n : Nat) (hg : Group available missing (componentBlocks a) pg n) (rows : List (LSCap ℝ))
    (hrows : x.caps pg = some rows) (i : Nat) (hi : i < x.size) (q : ℚ) (hq : DemandIs x pg i q) (curve : LSCap ℝ → ℝ)
    (hcurve : ∀ k < n, Curves N x rows k q curve) (Q : PGid → ℚ) (hQ : a.qty[i]? = some Q) (r : LSCap ℝ) (p : ℝ)
    (hp : Highest rows curve (numOf r.id ≤ ·) p) :
    (Q pg ≠ 0 → ∀ m : ℕ, P {ω | amount (t ω) pg (fun v => decide ((statesBelow rows r : Int) < v)) i = Q pg * (m / n)} =
      ENNReal.ofReal (binomial n p m)) ∧
    ∫ ω, (amount (t ω) pg (fun v => decide ((statesBelow rows r : Int) < v)) i : ℝ) ∂P = Q pg * p ∧
    Var[fun ω => (amount (t ω) pg (fun v => decide ((statesBelow rows r : Int) < v)) i : ℝ); P] =
      Q pg ^ 2 * (p * (1 - p)) / n := by
  have hn := group_pos h hg
  refine dist h pg n hg rows hrows i hi q hq curve hcurve Q hQ _ p (highest_nonneg hp)
    (highest_one (hcurve 0 hn) hp) ?_
  intro out hmc k hk
  rw [← run_reached hmc pg n k hg hk rows hrows i hi q hq curve (hcurve k hk) r p hp]
  congr 1
  ext ω
  simp only [event, Set.mem_setOf_eq, decide_eq_true_eq]
  constructor
  · rintro ⟨v, h1, h2⟩; exact ⟨v, h2, h1⟩
  · rintro ⟨v, h1, h2⟩; exact ⟨v, h2, h1⟩

/-- C116: in each realization, the quantity of a performance group that reaches limit state `r` or a higher one is
the quantity of the group times the share of its `n` blocks that reach it, and the number of these blocks is binomial,
with the highest fragility curve of these limit states as probability.  Its mean is the quantity times this probability,
whatever the number of blocks; its variance is inversely proportional to the number of blocks. -/
theorem C116_reached (h : Calculated P N NQ x available missing a size listAll params visit dc dl t) (pg : PGid)
    (n : Nat) (hg : Group available missing (componentBlocks a) pg n) (rows : List (LSCap ℝ))
    (hrows : x.caps pg = some rows) (i : Nat) (hi : i < x.size) (q : ℚ) (hq : DemandIs x pg i q) (curve : LSCap ℝ → ℝ)
    (hcurve : ∀ k < n, Curves N x rows k q curve) (Q : PGid → ℚ) (hQ : a.qty[i]? = some Q) (r : LSCap ℝ) (p : ℝ)
    (hp : Highest rows curve (numOf r.id ≤ ·) p) :
    (Q pg ≠ 0 → ∀ m : ℕ, P {ω | amount (t ω) pg (fun v => decide ((statesBelow rows r : Int) < v)) i = Q pg * (m / n)} =
      ENNReal.ofReal (binomial n p m)) ∧
    ∫ ω, (amount (t ω) pg (fun v => decide ((statesBelow rows r : Int) < v)) i : ℝ) ∂P = Q pg * p ∧
    Var[fun ω => (amount (t ω) pg (fun v => decide ((statesBelow rows r : Int) < v)) i : ℝ); P] =
      Q pg ^ 2 * (p * (1 - p)) / n :=
  calc_reached h.toCalc pg n hg rows hrows i hi q hq curve hcurve Q hQ r p hp

theorem event_single (out : Ω → List (Dict BlockId Int)) (pg : PGid) (i k : Nat) (z : Int) :
    event out pg i (fun v => decide (v = z)) k = {ω | stateOf (out ω) (blockId pg k) i = some z} := by
  ext ω
  simp [event]

theorem calc_undamaged (h : Calc P N NQ x available missing a size listAll params visit dc dl t) (pg : PGid)
    (n : Nat) (hg : Group available missing (componentBlocks a) pg n) (rows : List (LSCap ℝ))
    (hrows : x.caps pg = some rows) (i : Nat) (hi : i < x.size) (q : ℚ) (hq : DemandIs x pg i q) (curve : LSCap ℝ → ℝ)
    (hcurve : ∀ k < n, Curves N x rows k q curve) (Q : PGid → ℚ) (hQ : a.qty[i]? = some Q) (p : ℝ)
    (hp : Highest rows curve (fun _ => True) p) :
    (Q pg ≠ 0 → ∀ m : ℕ, P {ω | amount (t ω) pg (fun v => decide (v = 0)) i = Q pg * (m / n)} =
      ENNReal.ofReal (binomial n (1 - p) m)) ∧
    ∫ ω, (amount (t ω) pg (fun v => decide (v = 0)) i : ℝ) ∂P = Q pg * (1 - p) ∧
    Var[fun ω => (amount (t ω) pg (fun v => decide (v = 0)) i : ℝ); P] = Q pg ^ 2 * ((1 - p) * p) / n := by
  have hn := group_pos h hg
  have h0 := highest_nonneg hp
  have h1 := highest_one (hcurve 0 hn) hp
  have := dist h pg n hg rows hrows i hi q hq curve hcurve Q hQ (fun v => decide (v = 0)) (1 - p) (by linarith)
    (by linarith) (fun out hmc k hk => by
      rw [event_single, run_undamaged hmc pg n k hg hk rows hrows i hi q hq curve (hcurve k hk) p hp])
  rw [sub_sub_cancel] at this
  exact this

/-- C116: the same for the undamaged quantity. -/
theorem C116_undamaged (h : Calculated P N NQ x available missing a size listAll params visit dc dl t) (pg : PGid)
    (n : Nat) (hg : Group available missing (componentBlocks a) pg n) (rows : List (LSCap ℝ))
    (hrows : x.caps pg = some rows) (i : Nat) (hi : i < x.size) (q : ℚ) (hq : DemandIs x pg i q) (curve : LSCap ℝ → ℝ)
    (hcurve : ∀ k < n, Curves N x rows k q curve) (Q : PGid → ℚ) (hQ : a.qty[i]? = some Q) (p : ℝ)
    (hp : Highest rows curve (fun _ => True) p) :
    (Q pg ≠ 0 → ∀ m : ℕ, P {ω | amount (t ω) pg (fun v => decide (v = 0)) i = Q pg * (m / n)} =
      ENNReal.ofReal (binomial n (1 - p) m)) ∧
    ∫ ω, (amount (t ω) pg (fun v => decide (v = 0)) i : ℝ) ∂P = Q pg * (1 - p) ∧
    Var[fun ω => (amount (t ω) pg (fun v => decide (v = 0)) i : ℝ); P] = Q pg ^ 2 * ((1 - p) * p) / n :=
  calc_undamaged h.toCalc pg n hg rows hrows i hi q hq curve hcurve Q hQ p hp

theorem calc_state (h : Calc P N NQ x available missing a size listAll params visit dc dl t) (pg : PGid)
    (n : Nat) (hg : Group available missing (componentBlocks a) pg n) (rows : List (LSCap ℝ))
    (hrows : x.caps pg = some rows) (i : Nat) (hi : i < x.size) (q : ℚ) (hq : DemandIs x pg i q) (curve : LSCap ℝ → ℝ)
    (hcurve : ∀ k < n, Curves N x rows k q curve) (Q : PGid → ℚ) (hQ : a.qty[i]? = some Q) (r : LSCap ℝ)
    (hr : r ∈ rows) (hd : r.dist ≠ none) (p p' : ℝ)
    (hp : Highest rows curve (numOf r.id ≤ ·) p) (hp' : Highest rows curve (numOf r.id < ·) p')
    (z : Int) (w : ℝ) (hz : (r.weights = none ∧ z = statesBelow rows r + 1 ∧ w = p - p') ∨
      ∃ s ws j, r.weights = some s ∧
        List.Forall₂ (fun piece w => pyFloat? piece = some (.fin w)) (splitChar '|' (s.filter (· ≠ ' '))) ws ∧
        j < ws.length ∧ z = statesBelow rows r + (j + 1 : Int) ∧ w = (p - p') * share ws j) :
    (Q pg ≠ 0 → ∀ m : ℕ, P {ω | amount (t ω) pg (fun v => decide (v = z)) i = Q pg * (m / n)} =
      ENNReal.ofReal (binomial n w m)) ∧
    ∫ ω, (amount (t ω) pg (fun v => decide (v = z)) i : ℝ) ∂P = Q pg * w ∧
    Var[fun ω => (amount (t ω) pg (fun v => decide (v = z)) i : ℝ); P] = Q pg ^ 2 * (w * (1 - w)) / n := by
  have hn := group_pos h hg
  haveI := (h.draws.columns ⟨i, hi⟩).isProbabilityMeasure
  have hne : Nonempty Ω := P.nonempty_of_neZero
  have h00 := highest_nonneg hp'
  have h1 := highest_one (hcurve 0 hn) hp
  have hle : p' ≤ p := highest_le hp hp' fun n hn => le_of_lt hn
  have hw : 0 ≤ w ∧ w ≤ 1 := by
    rcases hz with ⟨_, _, rfl⟩ | ⟨s, ws, j, hs, hws, hj, _, rfl⟩
    · constructor <;> linarith
    · obtain ⟨out, hmc, _⟩ := amount_card h
      obtain ⟨hnn, hsum⟩ := weights_le_one hmc (Classical.arbitrary Ω) hg hn hrows hr hd hs hws
      have hs : 0 ≤ share ws j ∧ share ws j ≤ 1 := by
        have a0 : (0 : ℚ) ≤ (ws.take j).sum := by
          have := sum_take_mono hnn (Nat.zero_le j)
          simpa using this
        have a1 : (ws.take (j + 1)).sum ≤ 1 := by
          have := sum_take_mono hnn (show j + 1 ≤ ws.length by omega)
          rw [List.take_length] at this
          linarith
        have e1 : (ws.take (j + 1)).sum = (ws.take j).sum + ws.getD j 0 := by
          rw [List.take_add_one, List.sum_append, List.getElem?_eq_getElem hj, List.getD_eq_getElem?_getD,
            List.getElem?_eq_getElem hj]
          simp
        have a2 : 0 ≤ ws.getD j 0 := by
          rw [List.getD_eq_getElem?_getD, List.getElem?_eq_getElem hj]
          exact hnn _ (List.getElem_mem hj)
        unfold share
        split
        · constructor <;> linarith
        · exact ⟨a2, by linarith⟩
      have b0 : (0 : ℝ) ≤ share ws j := by exact_mod_cast hs.1
      have b1 : (share ws j : ℝ) ≤ 1 := by exact_mod_cast hs.2
      exact ⟨mul_nonneg (by linarith) b0, mul_le_one₀ (by linarith) b0 b1⟩
  refine dist h pg n hg rows hrows i hi q hq curve hcurve Q hQ (fun v => decide (v = z)) w hw.1 hw.2
    fun out hmc k hk => ?_
  rw [event_single]
  have := run_state hmc pg n k hg hk rows hrows i hi q hq curve (hcurve k hk) r hr hd p p' hp hp'
  rcases hz with ⟨h2, rfl, rfl⟩ | ⟨s, ws, j, hs, hws, hj, rfl, rfl⟩
  · exact this.1 h2
  · exact this.2 s ws hs hws j hj

/-- C116: the same for the quantity in one damage state: `p - p'` is the probability of the damage states of limit
state `r`, and the share of each of several damage states is given by the weights. -/
theorem C116_state (h : Calculated P N NQ x available missing a size listAll params visit dc dl t) (pg : PGid)
    (n : Nat) (hg : Group available missing (componentBlocks a) pg n) (rows : List (LSCap ℝ))
    (hrows : x.caps pg = some rows) (i : Nat) (hi : i < x.size) (q : ℚ) (hq : DemandIs x pg i q) (curve : LSCap ℝ → ℝ)
    (hcurve : ∀ k < n, Curves N x rows k q curve) (Q : PGid → ℚ) (hQ : a.qty[i]? = some Q) (r : LSCap ℝ)
    (hr : r ∈ rows) (hd : r.dist ≠ none) (p p' : ℝ)
    (hp : Highest rows curve (numOf r.id ≤ ·) p) (hp' : Highest rows curve (numOf r.id < ·) p')
    (z : Int) (w : ℝ) (hz : (r.weights = none ∧ z = statesBelow rows r + 1 ∧ w = p - p') ∨
      ∃ s ws j, r.weights = some s ∧
        List.Forall₂ (fun piece w => pyFloat? piece = some (.fin w)) (splitChar '|' (s.filter (· ≠ ' '))) ws ∧
        j < ws.length ∧ z = statesBelow rows r + (j + 1 : Int) ∧ w = (p - p') * share ws j) :
    (Q pg ≠ 0 → ∀ m : ℕ, P {ω | amount (t ω) pg (fun v => decide (v = z)) i = Q pg * (m / n)} =
      ENNReal.ofReal (binomial n w m)) ∧
    ∫ ω, (amount (t ω) pg (fun v => decide (v = z)) i : ℝ) ∂P = Q pg * w ∧
    Var[fun ω => (amount (t ω) pg (fun v => decide (v = z)) i : ℝ); P] = Q pg ^ 2 * (w * (1 - w)) / n :=
  calc_state h.toCalc pg n hg rows hrows i hi q hq curve hcurve Q hQ r hr hd p p' hp hp' z w hz

/-! ### A calculation that meets the hypotheses -/

/-- Ten units in two blocks. -/
def exAssets : Assets := ⟨some DmgProb.exTable, [exPG], [fun _ => 10, fun _ => 12]⟩

theorem ex_dashless (m : Method) : Dashless (exInputOf m) DmgProb.exTable := by
  refine ⟨by decide, ?_⟩
  intro e _ rows he r hr
  rw [ex_caps he] at hr
  simp only [exRows, List.mem_cons, List.not_mem_nil, or_false] at hr
  rcases hr with rfl | rfl <;> decide

theorem ex_calculate {m : Method} (hm : m ≠ .other) (N : Num ℝ) (dc dl : Nat → Draws ℝ) (hd : ∀ j, GoodDraws 2 (dl j).perm (dl j).jitter) :
    ∃ t, calculate N N (exInputOf m) [str "A"] [] exAssets none 10 false [] id dc dl = .ok t := by
  obtain ⟨out, hout⟩ := ex_run hm N dc dl hd
  have hz : (0 : Int) ≤ 10 := by norm_num
  have hpos : ∀ e ∈ DmgProb.exTable, 0 < e.2 := by decide
  obtain ⟨hlen, hkeys⟩ := C89_one_state_per_block N N (exInputOf m) [str "A"] [] DmgProb.exTable 10 dc dl hz hpos
    (ex_dashless m) out hout
  replace hlen : out.length = 2 := hlen
  have hg : Group [str "A"] [] DmgProb.exTable exPG 2 := ⟨⟨2, by decide⟩, by decide⟩
  match out, hlen with
  | [r1, r2], _ =>
    have h1 := hkeys r1 (by simp)
    have hb : blockId exPG 0 ∈ r1.keys := (h1.2 _).2 ⟨exPG, 2, 0, hg, by norm_num, rfl⟩
    obtain ⟨v, hv⟩ : ∃ v, r1.get? (blockId exPG 0) = some v := by
      cases hv : r1.get? (blockId exPG 0) with
      | none => exact absurd hb ((Dict.get?_eq_none_iff _ _).1 hv)
      | some v => exact ⟨v, rfl⟩
    have hv0 := DmgCalc.obtain_nonneg hz hpos (ex_dashless m) hd hout (List.mem_cons_self) hv
    have hmem : (blockId exPG 0, v) ∈ DmgQty.seriesKeys false (DmgCalc.toSample [r1, r2]) := by
      unfold DmgQty.seriesKeys
      rw [List.mem_flatMap]
      refine ⟨blockId exPG 0, hb, List.mem_map.2 ⟨v, (DmgQty.mem_dsKept ..).2 ⟨⟨_, List.mem_cons_self, ?_⟩, by omega, by simp⟩, rfl⟩⟩
      simp [hv]
    have hall : ((DmgQty.seriesKeys false (DmgCalc.toSample [r1, r2])).all
        fun k => decide (DmgQty.pgOf k.1 ∈ exAssets.groups)) = true := by
      rw [List.all_eq_true]
      intro k hk
      unfold DmgQty.seriesKeys at hk
      obtain ⟨b, hb, hk⟩ := List.mem_flatMap.1 hk
      obtain ⟨d, _, rfl⟩ := List.mem_map.1 hk
      obtain ⟨pg, n, j, hpg, _, rfl⟩ := (h1.2 b).1 hb
      obtain ⟨e, he, hee⟩ := group_mem hpg
      simp only [DmgProb.exTable, List.mem_singleton] at he
      subst he
      subst hee
      simp [exAssets, DmgQty.pgOf, blockId, exPG]
    unfold calculate
    have hc : componentBlocks exAssets = DmgProb.exTable := rfl
    rw [hc, hout]
    simp only [DmgCalc.applyProcess, DmgCalc.quantities, hall, if_true]
    rw [if_pos (by rfl)]
    unfold DmgQty.prepare
    cases hs : DmgQty.seriesKeys false (DmgCalc.toSample [r1, r2]) with
    | nil => rw [hs] at hmem; simp at hmem
    | cons k ks => exact ⟨_, rfl⟩

theorem ex_calculated (N : Num ℝ) : ∃ (Ω : Type) (_ : MeasurableSpace Ω) (P : Measure Ω) (dc dl : Ω → Nat → Draws ℝ)
    (t : Ω → Table), Calculated P N N DmgProb.exInput [str "A"] [] exAssets 10 false [] id dc dl t := by
  obtain ⟨Ω, m, P, dc, dl, _, h⟩ := draws_exist 2
  choose t ht using fun ω => ex_calculate (m := .monteCarlo) (by simp) N (dc ω) (dl ω) (h.states ω)
  refine ⟨Ω, m, P, dc, dl, t, by norm_num, ⟨by decide, by decide⟩, ex_dashless _, ?_, by simp, rfl, h, ht⟩
  intro e _ rows he
  rw [ex_caps he]
  exact ex_component

theorem ex_highest : Highest exRows exCurve (numOf (exRows[1]).id ≤ ·) (gaussian.cdf 0) := by
  have hcurve : exCurve exRows[1] = gaussian.cdf 0 := by
    unfold exCurve
    rw [if_neg (by decide)]
    simp
  refine ⟨.inr ⟨exRows[1], by simp [exRows], by simp [exRows], le_refl _, hcurve.symm⟩, ?_⟩
  rintro y (rfl | ⟨a, ha, _, hn, rfl⟩)
  · exact (gaussian.cdf_pos 0).le
  · simp only [exRows, List.mem_cons, List.not_mem_nil, or_false] at ha
    rcases ha with rfl | rfl
    · exact absurd hn (by decide)
    · exact hcurve.le

/-- At a demand equal to the median of limit state 2, the mean of the quantity that reaches it is `10 Φ(0)`, and the
probability that it is 5 (one of the two blocks) is `2 Φ(0) (1 - Φ(0))`. -/
example {Ω : Type} [MeasurableSpace Ω] {P : Measure Ω} {dc dl : Ω → Nat → Draws ℝ} {t : Ω → Table}
    (h : Calculated P (realNum 0) (realNum 0) DmgProb.exInput [str "A"] [] exAssets 10 false [] id dc dl t) :
    ∫ ω, (amount (t ω) exPG (fun v => decide (1 < v)) 0 : ℝ) ∂P = 10 * gaussian.cdf 0 ∧
    P {ω | amount (t ω) exPG (fun v => decide (1 < v)) 0 = 5} =
      ENNReal.ofReal (2 * gaussian.cdf 0 * (1 - gaussian.cdf 0)) := by
  have hs : ((statesBelow exRows exRows[1] : Nat) : Int) = 1 := by decide +kernel
  have := C116_reached h exPG 2 ⟨⟨2, by decide⟩, by decide⟩ exRows (by simp [exInputOf, exPG]) 0
    (by decide) 2 ⟨([str "PFA-1-1"], .absent), [some 2, some 3], by decide +kernel, by decide +kernel, rfl⟩ exCurve
    (fun k _ => ex_curves _ k) (fun _ => 10) rfl exRows[1] (gaussian.cdf 0) ex_highest
  rw [hs] at this
  refine ⟨by rw [this.2.1]; norm_num, ?_⟩
  have h2 := this.1 (by norm_num) 1
  rw [show (10 : ℚ) * (((1 : ℕ) : ℚ) / ((2 : ℕ) : ℚ)) = 5 by norm_num] at h2
  rw [h2]
  norm_num [binomial]

end Verif.DmgDist
