import Verif.Lemmas.DmgProb
import Mathlib.Probability.Moments.Variance
import Mathlib.Probability.HasLawExists
import Verif.Lemmas.DmgRuns

/-! # Property C115: the probability of damage states -/

namespace Verif.DmgProb

open Verif.UQ Verif.DmgSample MeasureTheory ProbabilityTheory
open Verif.DmgEval (BlockId numOf)
open Verif.DemandReq (PGid)
open Verif.Copula (uniform01)

variable {Ω : Type} [MeasurableSpace Ω] {P : Measure Ω} {N NQ : Num ℝ} {x : Input ℝ} {available missing : List Str}
  {table : List (PGid × Int)} {size : Int} {dc dl : Ω → Nat → Draws ℝ} {out : Ω → List (Dict BlockId Int)}

/-- The weights of a limit state do not exceed one if the calculation succeeds. -/
theorem weights_le_one (h : Run P N NQ x available missing table size dc dl out) (ω : Ω) {pg : PGid} {n k : Nat}
    (hg : Group available missing table pg n) (hk : k < n) {rows : List (LSCap ℝ)} (hrows : x.caps pg = some rows)
    {r : LSCap ℝ} (hr : r ∈ rows) (hd : r.dist ≠ none) {s : Str} {ws : List ℚ} (hs : r.weights = some s)
    (hws : List.Forall₂ (fun piece q => pyFloat? piece = some (.fin q)) (splitChar '|' (s.filter (· ≠ ' '))) ws) :
    (∀ q ∈ ws, 0 ≤ q) ∧ ws.sum ≤ 1 := by
  obtain ⟨e, he, hee⟩ := group_mem hg
  have hc := h.components e he rows (by rw [hee]; exact hrows)
  have hnn : ∀ q ∈ ws, 0 ≤ q := by
    intro q hq
    obtain ⟨piece, hp, hpq⟩ := forall₂_mem_right hws hq
    exact hc.weights r hr s hs piece hp q hpq
  refine ⟨hnn, ?_⟩
  obtain ⟨g, j, _, _, h2, h3⟩ := group_vars h.batch h.blocks (h.run ω) hg
  obtain ⟨vars, _, _, _, h4, _⟩ := runBatch_ok h3
  obtain ⟨v, _, hv⟩ := (batchVars_ok h4).2 pg n rows r k h2 hrows hr hd hk
  obtain ⟨head, rest, d, kd, a, ds, o, h5, h6, h7, h8, h9, h10, h11, rfl⟩ := hv
  exact (DmgRVs.C39_state_weights (F := ℝ) (rows.map LSCap.toRow) o h10 r.toRow (List.mem_map_of_mem hr)
    (by simp [LSCap.toRow, h7]) s hs ws hws hnn).1

theorem run_reached (h : Run P N NQ x available missing table size dc dl out) (pg : PGid) (n k : Nat)
    (hg : Group available missing table pg n) (hk : k < n) (rows : List (LSCap ℝ)) (hrows : x.caps pg = some rows)
    (i : Nat) (hi : i < x.size) (q : ℚ) (hq : DemandIs x pg i q) (curve : LSCap ℝ → ℝ)
    (hcurve : Curves N x rows k q curve) (r : LSCap ℝ) (p : ℝ) (hp : Highest rows curve (numOf r.id ≤ ·) p) :
    P {ω | ∃ v, stateOf (out ω) (blockId pg k) i = some v ∧ (statesBelow rows r : Int) < v} = ENNReal.ofReal p := by
  obtain ⟨slot, lslot, hs⟩ := cells h
  set t : Bool × Nat × Nat × Fin x.size := (false, (slot (blockId pg k)).1, (slot (blockId pg k)).2, ⟨i, hi⟩) with ht
  have e : {ω | ∃ v, stateOf (out ω) (blockId pg k) i = some v ∧ (statesBelow rows r : Int) < v} =
      {ω | value x.method dc dl t ω ∈ Set.Ico 0 p} := by
    ext ω
    obtain ⟨v, hv, hcell⟩ := (hs ω).2.2 pg n k hg hk rows hrows ⟨i, hi⟩ q curve hq hcurve
    have h0 := (value_nonneg h.draws t ω).1
    simp only [Set.mem_setOf_eq, Set.mem_Ico, h0, true_and]
    rw [highest_lt hp h0, ← hcell.above r]
    simp only at hv
    constructor
    · rintro ⟨v', hv', hlt⟩
      rw [hv] at hv'
      obtain rfl := Option.some.inj hv'
      exact hlt
    · intro hlt
      exact ⟨v, hv, hlt⟩
  rw [e, law h.draws t measurableSet_Ico]
  exact (uniform_Ico le_rfl (highest_one hcurve hp)).trans (by rw [sub_zero])

/-- C115: the probability that a block reaches limit state `r` or a higher one in a realization is the highest value
of their fragility curves at the demand of that realization. -/
theorem C115_reached (h : MonteCarlo P N NQ x available missing table size dc dl out) (pg : PGid) (n k : Nat)
    (hg : Group available missing table pg n) (hk : k < n) (rows : List (LSCap ℝ)) (hrows : x.caps pg = some rows)
    (i : Nat) (hi : i < x.size) (q : ℚ) (hq : DemandIs x pg i q) (curve : LSCap ℝ → ℝ)
    (hcurve : Curves N x rows k q curve) (r : LSCap ℝ) (p : ℝ) (hp : Highest rows curve (numOf r.id ≤ ·) p) :
    P {ω | ∃ v, stateOf (out ω) (blockId pg k) i = some v ∧ (statesBelow rows r : Int) < v} = ENNReal.ofReal p :=
  run_reached h.toRun pg n k hg hk rows hrows i hi q hq curve hcurve r p hp

theorem run_undamaged (h : Run P N NQ x available missing table size dc dl out) (pg : PGid) (n k : Nat)
    (hg : Group available missing table pg n) (hk : k < n) (rows : List (LSCap ℝ)) (hrows : x.caps pg = some rows)
    (i : Nat) (hi : i < x.size) (q : ℚ) (hq : DemandIs x pg i q) (curve : LSCap ℝ → ℝ)
    (hcurve : Curves N x rows k q curve) (p : ℝ) (hp : Highest rows curve (fun _ => True) p) :
    P {ω | stateOf (out ω) (blockId pg k) i = some 0} = ENNReal.ofReal (1 - p) := by
  obtain ⟨slot, lslot, hs⟩ := cells h
  set t : Bool × Nat × Nat × Fin x.size := (false, (slot (blockId pg k)).1, (slot (blockId pg k)).2, ⟨i, hi⟩) with ht
  have e : {ω | stateOf (out ω) (blockId pg k) i = some 0} = {ω | value x.method dc dl t ω ∈ Set.Ici p} := by
    ext ω
    obtain ⟨v, hv, hcell⟩ := (hs ω).2.2 pg n k hg hk rows hrows ⟨i, hi⟩ q curve hq hcurve
    have h0 := (value_nonneg h.draws t ω).1
    simp only at hv
    simp only [Set.mem_setOf_eq, Set.mem_Ici, hv, Option.some.injEq]
    rw [← not_lt, highest_lt hp h0]
    constructor
    · rintro rfl ⟨a, ha, hd, _, hlt⟩
      have := (hcell.above a).2 ⟨a, ha, hd, le_rfl, hlt⟩
      omega
    · intro hno
      exact hcell.unharmed fun a ha hd hlt => hno ⟨a, ha, hd, trivial, hlt⟩
  rw [e, law h.draws t measurableSet_Ici]
  exact uniform_Ici (highest_nonneg hp)

/-- C115: the probability that a block stays undamaged is one minus the highest fragility curve. -/
theorem C115_undamaged (h : MonteCarlo P N NQ x available missing table size dc dl out) (pg : PGid) (n k : Nat)
    (hg : Group available missing table pg n) (hk : k < n) (rows : List (LSCap ℝ)) (hrows : x.caps pg = some rows)
    (i : Nat) (hi : i < x.size) (q : ℚ) (hq : DemandIs x pg i q) (curve : LSCap ℝ → ℝ)
    (hcurve : Curves N x rows k q curve) (p : ℝ) (hp : Highest rows curve (fun _ => True) p) :
    P {ω | stateOf (out ω) (blockId pg k) i = some 0} = ENNReal.ofReal (1 - p) :=
  run_undamaged h.toRun pg n k hg hk rows hrows i hi q hq curve hcurve p hp

theorem run_state (h : Run P N NQ x available missing table size dc dl out) (pg : PGid) (n k : Nat)
    (hg : Group available missing table pg n) (hk : k < n) (rows : List (LSCap ℝ)) (hrows : x.caps pg = some rows)
    (i : Nat) (hi : i < x.size) (q : ℚ) (hq : DemandIs x pg i q) (curve : LSCap ℝ → ℝ)
    (hcurve : Curves N x rows k q curve) (r : LSCap ℝ) (hr : r ∈ rows) (hd : r.dist ≠ none) (p p' : ℝ)
    (hp : Highest rows curve (numOf r.id ≤ ·) p) (hp' : Highest rows curve (numOf r.id < ·) p') :
    (r.weights = none → P {ω | stateOf (out ω) (blockId pg k) i = some (statesBelow rows r + 1 : Int)} =
      ENNReal.ofReal (p - p')) ∧
    ∀ s ws, r.weights = some s →
      List.Forall₂ (fun piece w => pyFloat? piece = some (.fin w)) (splitChar '|' (s.filter (· ≠ ' '))) ws →
      ∀ j < ws.length, P {ω | stateOf (out ω) (blockId pg k) i = some (statesBelow rows r + (j + 1) : Int)} =
        ENNReal.ofReal ((p - p') * share ws j) := by
  obtain ⟨e, he, hee⟩ := group_mem hg
  have hc := h.components e he rows (by rw [hee]; exact hrows)
  obtain ⟨slot, lslot, hs⟩ := cells h
  set t : Bool × Nat × Nat × Fin x.size := (false, (slot (blockId pg k)).1, (slot (blockId pg k)).2, ⟨i, hi⟩) with ht
  have hle : p' ≤ p := highest_le hp hp' fun n hn => le_of_lt hn
  have h01 := highest_one hcurve hp
  have h00 := highest_nonneg hp'
  constructor
  · intro hw
    have e : {ω | stateOf (out ω) (blockId pg k) i = some (statesBelow rows r + 1 : Int)} =
        {ω | value x.method dc dl t ω ∈ Set.Ico p' p} := by
      ext ω
      obtain ⟨v, hv, hcell⟩ := (hs ω).2.2 pg n k hg hk rows hrows ⟨i, hi⟩ q curve hq hcurve
      have h0 := (value_nonneg h.draws t ω).1
      simp only at hv
      simp only [Set.mem_setOf_eq, Set.mem_Ico, hv, Option.some.injEq]
      rw [← hcell.range_iff hc h0 hr hd hp hp']
      have : states r = 1 := by simp [states, hw]
      rw [this]
      push_cast
      omega
    rw [e, law h.draws t measurableSet_Ico]
    exact uniform_Ico h00 h01
  · intro s ws hw hws j hj
    set t' : Bool × Nat × Nat × Fin x.size :=
      (true, (lslot (blockId pg k) r.id).1, (lslot (blockId pg k) r.id).2, ⟨i, hi⟩) with ht'
    have hne : ((false, (slot (blockId pg k)).1, (slot (blockId pg k)).2) : Bool × Nat × Nat) ≠
        (true, (lslot (blockId pg k) r.id).1, (lslot (blockId pg k) r.id).2) := by
      intro hh
      simp at hh
    have hind : IndepFun (value x.method dc dl t) (value x.method dc dl t') P :=
      (h.draws.columns ⟨i, hi⟩).indepFun hne
    haveI : Nonempty Ω := by
      by_contra hno
      rw [not_nonempty_iff] at hno
      have h1 := (h.draws.uniform t).measure_eq (p := fun _ => True) (by simp)
      have h2 : uniform01 {z | True} = 1 := by
        have : ({z : ℝ | True} : Set ℝ) = Set.univ := by ext; simp
        rw [this]
        exact measure_univ
      rw [h2] at h1
      have : ({ω : Ω | True} : Set Ω) = ∅ := Set.eq_empty_of_isEmpty _
      rw [this] at h1
      simp at h1
    obtain ⟨hnn, hsum⟩ := weights_le_one h (Classical.arbitrary Ω) hg hk hrows hr hd hw hws
    have hW : ∀ m, (0 : ℝ) ≤ (((ws.take m).sum : ℚ) : ℝ) ∧ (((ws.take m).sum : ℚ) : ℝ) ≤ 1 := by
      intro m
      have a0 : (0 : ℚ) ≤ (ws.take m).sum := by
        have := sum_take_mono hnn (Nat.zero_le m)
        simpa using this
      have a1 : (ws.take m).sum ≤ 1 := by
        rcases Nat.le_total m ws.length with hm | hm
        · have := sum_take_mono hnn hm
          rw [List.take_length] at this
          linarith
        · rw [List.take_of_length_le hm]
          exact hsum
      exact ⟨by exact_mod_cast a0, by exact_mod_cast a1⟩
    let B : Set ℝ := if j + 1 = ws.length then Set.Ici (((ws.take j).sum : ℚ) : ℝ)
      else Set.Ico (((ws.take j).sum : ℚ) : ℝ) (((ws.take (j + 1)).sum : ℚ) : ℝ)
    have hBm : MeasurableSet B := by
      simp only [B]
      split
      · exact measurableSet_Ici
      · exact measurableSet_Ico
    have hBs : uniform01 B = ENNReal.ofReal (share ws j) := by
      simp only [B, share]
      split
      · rw [uniform_Ici (hW j).1]
        push_cast
        rfl
      · rename_i hl
        rw [uniform_Ico (hW j).1 (hW (j + 1)).2]
        congr 1
        have e1 : (ws.take (j + 1)).sum = (ws.take j).sum + ws.getD j 0 := by
          rw [List.take_add_one, List.sum_append, List.getElem?_eq_getElem hj, List.getD_eq_getElem?_getD,
            List.getElem?_eq_getElem hj]
          simp
        rw [e1]
        push_cast
        ring
    have e : {ω | stateOf (out ω) (blockId pg k) i = some (statesBelow rows r + (j + 1) : Int)} =
        value x.method dc dl t ⁻¹' Set.Ico p' p ∩ value x.method dc dl t' ⁻¹' B := by
      ext ω
      obtain ⟨v, hv, hcell⟩ := (hs ω).2.2 pg n k hg hk rows hrows ⟨i, hi⟩ q curve hq hcurve
      have h0 := (value_nonneg h.draws t ω).1
      simp only at hv
      simp only [Set.mem_setOf_eq, hv, Option.some.injEq, Set.mem_inter_iff, Set.mem_preimage, Set.mem_Ico]
      rw [hcell.state_iff hc h0 hr hd hp hp' hw hws hj]
      refine and_congr_right fun _ => ?_
      simp only [B]
      split
      · rename_i hl
        simp [hl, ht']
      · rename_i hl
        simp [hl, ht']
    rw [e, hind.measure_inter_preimage_eq_mul _ _ measurableSet_Ico hBm]
    have m1 : P (value x.method dc dl t ⁻¹' Set.Ico p' p) = uniform01 (Set.Ico p' p) :=
      law h.draws t measurableSet_Ico
    have m2 : P (value x.method dc dl t' ⁻¹' B) = uniform01 B := law h.draws t' hBm
    rw [m1, m2, uniform_Ico h00 h01, hBs, ENNReal.ofReal_mul (by linarith)]

/-- C115: the probability of each damage state.  `p` is the highest fragility curve of limit state `r` and those above
it, `p'` that of those above it only.  The damage state of a limit state that has one has probability `p - p'`; if it
has several, this is divided among them by the weights. -/
theorem C115_state (h : MonteCarlo P N NQ x available missing table size dc dl out) (pg : PGid) (n k : Nat)
    (hg : Group available missing table pg n) (hk : k < n) (rows : List (LSCap ℝ)) (hrows : x.caps pg = some rows)
    (i : Nat) (hi : i < x.size) (q : ℚ) (hq : DemandIs x pg i q) (curve : LSCap ℝ → ℝ)
    (hcurve : Curves N x rows k q curve) (r : LSCap ℝ) (hr : r ∈ rows) (hd : r.dist ≠ none) (p p' : ℝ)
    (hp : Highest rows curve (numOf r.id ≤ ·) p) (hp' : Highest rows curve (numOf r.id < ·) p') :
    (r.weights = none → P {ω | stateOf (out ω) (blockId pg k) i = some (statesBelow rows r + 1 : Int)} =
      ENNReal.ofReal (p - p')) ∧
    ∀ s ws, r.weights = some s →
      List.Forall₂ (fun piece w => pyFloat? piece = some (.fin w)) (splitChar '|' (s.filter (· ≠ ' '))) ws →
      ∀ j < ws.length, P {ω | stateOf (out ω) (blockId pg k) i = some (statesBelow rows r + (j + 1) : Int)} =
        ENNReal.ofReal ((p - p') * share ws j) :=
  run_state h.toRun pg n k hg hk rows hrows i hi q hq curve hcurve r hr hd p p' hp hp'

theorem highest_exists (rows : List (LSCap ℝ)) (curve : LSCap ℝ → ℝ) (S : Nat → Prop) : ∃ p, Highest rows curve S p := by
  have hfin : Set.Finite {y | y = 0 ∨ ∃ a ∈ rows, a.dist ≠ none ∧ S (numOf a.id) ∧ y = curve a} := by
    refine Set.Finite.subset ((rows.map curve).toFinset.finite_toSet.insert 0) ?_
    rintro y (rfl | ⟨a, ha, _, _, rfl⟩)
    · exact Set.mem_insert _ _
    · refine Set.mem_insert_of_mem _ ?_
      simp only [List.coe_toFinset, Set.mem_setOf_eq]
      exact List.mem_map_of_mem ha
  exact hfin.isCompact.exists_isGreatest ⟨0, Or.inl rfl⟩

theorem weights_parsed (h : Run P N NQ x available missing table size dc dl out) (ω : Ω) {pg : PGid} {n k : Nat}
    (hg : Group available missing table pg n) (hk : k < n) {rows : List (LSCap ℝ)} (hrows : x.caps pg = some rows)
    {r : LSCap ℝ} (hr : r ∈ rows) (hd : r.dist ≠ none) {s : Str} (hs : r.weights = some s) :
    ∃ ws, ws.length = states r ∧
      List.Forall₂ (fun piece q => pyFloat? piece = some (.fin q)) (splitChar '|' (s.filter (· ≠ ' '))) ws := by
  obtain ⟨g, j, _, _, h2, h3⟩ := group_vars h.batch h.blocks (h.run ω) hg
  obtain ⟨vars, _, _, _, h4, _⟩ := runBatch_ok h3
  obtain ⟨v, _, hv⟩ := (batchVars_ok h4).2 pg n rows r k h2 hrows hr hd hk
  obtain ⟨head, rest, d, kd, a, ds, o, h5, h6, h7, h8, h9, h10, h11, rfl⟩ := hv
  obtain ⟨ws, first, _, h12, _⟩ := DmgRVs.lsdsLoop_weights _ _ o h10 r.toRow
    ((pySort_perm _ _).mem_iff.2 (List.mem_map_of_mem hr)) (by simp [LSCap.toRow, h7]) s hs
  refine ⟨ws, ?_, ?_⟩
  · rw [DmgRVs.parseWeights_length h12, states, hs]
  · unfold DmgRVs.parseWeights at h12
    rw [mapE_ok_iff] at h12
    refine h12.imp fun a b hab => ?_
    split at hab
    · rename_i q hq
      simp only [Except.ok.injEq] at hab
      rw [hq, hab]
    · simp at hab

/-- The events that the numbers in `S` decide. -/
noncomputable def sigma (m : Method) (dc dl : Ω → Nat → Draws ℝ) {n : Nat} (S : Set (Bool × Nat × Nat × Fin n)) : MeasurableSpace Ω :=
  ⨆ t ∈ S, MeasurableSpace.comap (value m dc dl t) inferInstance

theorem measurable_sigma {m : Method} {n : Nat} {S : Set (Bool × Nat × Nat × Fin n)} {t : Bool × Nat × Nat × Fin n} (ht : t ∈ S)
    {B : Set ℝ} (hB : MeasurableSet B) : MeasurableSet[sigma m dc dl S] {ω | value m dc dl t ω ∈ B} := by
  have h1 : MeasurableSpace.comap (value m dc dl t) inferInstance ≤ sigma m dc dl S :=
    le_iSup₂_of_le (f := fun t (_ : t ∈ S) => MeasurableSpace.comap (value m dc dl t) inferInstance) t ht le_rfl
  exact h1 _ ⟨B, hB, rfl⟩

/-- The damage state of a block in a realization is decided by its own numbers. -/
theorem state_measurable (h : Run P N NQ x available missing table size dc dl out)
    {slot : BlockId → Nat × Nat} {lslot : BlockId → Str → Nat × Nat} {pg : PGid} {n k : Nat}
    (hg : Group available missing table pg n) (hk : k < n) {rows : List (LSCap ℝ)} (hrows : x.caps pg = some rows)
    {i : Fin x.size} {curve : LSCap ℝ → ℝ}
    (hcell : ∀ ω, ∃ v, stateOf (out ω) (blockId pg k) i = some v ∧
      Cell rows curve (value x.method dc dl (false, (slot (blockId pg k)).1, (slot (blockId pg k)).2, i) ω)
        (fun id => value x.method dc dl (true, (lslot (blockId pg k) id).1, (lslot (blockId pg k) id).2, i) ω) v)
    (z : Int) :
    MeasurableSet[sigma x.method dc dl ({(false, (slot (blockId pg k)).1, (slot (blockId pg k)).2, i)} ∪
      {t | ∃ r ∈ rows, r.dist ≠ none ∧ t = (true, (lslot (blockId pg k) r.id).1, (lslot (blockId pg k) r.id).2, i)})]
      {ω | stateOf (out ω) (blockId pg k) i = some z} := by
  rcases isEmpty_or_nonempty Ω with hE | hE
  · have : ({ω : Ω | stateOf (out ω) (blockId pg k) i = some z} : Set Ω) = ∅ := Set.eq_empty_of_isEmpty _
    rw [this]
    exact @MeasurableSet.empty _ (_)
  obtain ⟨e, he, hee⟩ := group_mem hg
  have hc := h.components e he rows (by rw [hee]; exact hrows)
  set t : Bool × Nat × Nat × Fin x.size := (false, (slot (blockId pg k)).1, (slot (blockId pg k)).2, i) with ht
  set S : Set (Bool × Nat × Nat × Fin x.size) := {t} ∪ {t | ∃ r ∈ rows, r.dist ≠ none ∧
    t = (true, (lslot (blockId pg k) r.id).1, (lslot (blockId pg k) r.id).2, i)} with hS
  have htS : t ∈ S := Or.inl rfl
  by_cases hz0 : z = 0
  · subst hz0
    obtain ⟨p, hp⟩ := highest_exists rows curve (fun _ => True)
    have e : {ω | stateOf (out ω) (blockId pg k) i = some 0} = {ω | value x.method dc dl t ω ∈ Set.Ici p} := by
      ext ω
      obtain ⟨v, hv, hcell⟩ := hcell ω
      have h0 := (value_nonneg h.draws t ω).1
      simp only [Set.mem_setOf_eq, Set.mem_Ici, hv, Option.some.injEq]
      rw [← not_lt, highest_lt hp h0]
      constructor
      · rintro rfl ⟨a, ha, hd, _, hlt⟩
        have := (hcell.above a).2 ⟨a, ha, hd, le_rfl, hlt⟩
        omega
      · intro hno
        exact hcell.unharmed fun a ha hd hlt => hno ⟨a, ha, hd, trivial, hlt⟩
    rw [e]
    exact measurable_sigma htS measurableSet_Ici
  by_cases hex : ∃ r ∈ rows, r.dist ≠ none ∧ (statesBelow rows r : Int) < z ∧ z ≤ statesBelow rows r + states r
  · obtain ⟨r, hr, hd, hz1, hz2⟩ := hex
    obtain ⟨p, hp⟩ := highest_exists rows curve (numOf r.id ≤ ·)
    obtain ⟨p', hp'⟩ := highest_exists rows curve (numOf r.id < ·)
    cases hw : r.weights with
    | none =>
      have h1 : states r = 1 := by simp [states, hw]
      have e : {ω | stateOf (out ω) (blockId pg k) i = some z} = {ω | value x.method dc dl t ω ∈ Set.Ico p' p} := by
        ext ω
        obtain ⟨v, hv, hcell⟩ := hcell ω
        have h0 := (value_nonneg h.draws t ω).1
        simp only [Set.mem_setOf_eq, Set.mem_Ico, hv, Option.some.injEq]
        rw [← hcell.range_iff hc h0 hr hd hp hp']
        omega
      rw [e]
      exact measurable_sigma htS measurableSet_Ico
    | some s =>
      obtain ⟨ws, hlen, hws⟩ := weights_parsed h (Classical.arbitrary Ω) hg hk hrows hr hd hw
      obtain ⟨j, hj⟩ : ∃ j : Nat, z = statesBelow rows r + (j + 1) :=
        ⟨(z - statesBelow rows r - 1).toNat, by omega⟩
      have hj' : j < ws.length := by omega
      let B : Set ℝ := {y | (((ws.take j).sum : ℚ) : ℝ) ≤ y ∧ (j + 1 = ws.length ∨ y < (((ws.take (j + 1)).sum : ℚ) : ℝ))}
      have hB : MeasurableSet B :=
        (measurableSet_le measurable_const measurable_id).inter
          ((MeasurableSet.const _).union (measurableSet_lt measurable_id measurable_const))
      have e : {ω | stateOf (out ω) (blockId pg k) i = some z} = {ω | value x.method dc dl t ω ∈ Set.Ico p' p} ∩
          {ω | value x.method dc dl (true, (lslot (blockId pg k) r.id).1, (lslot (blockId pg k) r.id).2, i) ω ∈ B} := by
        ext ω
        obtain ⟨v, hv, hcell⟩ := hcell ω
        have h0 := (value_nonneg h.draws t ω).1
        simp only [Set.mem_setOf_eq, hv, Option.some.injEq, Set.mem_inter_iff, Set.mem_Ico, hj]
        rw [hcell.state_iff hc h0 hr hd hp hp' hw hws hj']
        rfl
      rw [e]
      exact MeasurableSet.inter (measurable_sigma htS measurableSet_Ico)
        (measurable_sigma (Or.inr ⟨r, hr, hd, rfl⟩) hB)
  · have : {ω | stateOf (out ω) (blockId pg k) i = some z} = ∅ := by
      refine Set.eq_empty_of_forall_notMem fun ω hω => ?_
      obtain ⟨v, hv, hcell⟩ := hcell ω
      simp only [Set.mem_setOf_eq, hv, Option.some.injEq] at hω
      subst hω
      by_cases hy : ∃ r ∈ rows, r.dist ≠ none ∧ value x.method dc dl t ω < curve r
      · obtain ⟨r, hr, hd, hlt⟩ := hy
        obtain ⟨c, hc1, hc2, _, hmax⟩ := exists_highest (fun a => a.dist ≠ none ∧ value x.method dc dl t ω < curve a) rows hr
          ⟨hd, hlt⟩
        refine hex ⟨c, hc1, hc2.1, (hcell.above c).2 ⟨c, hc1, hc2.1, le_rfl, hc2.2⟩, ?_⟩
        exact (hcell.own c hc1 hc2.1 hc2.2 fun a ha hda hlt hya => hmax a ha hlt ⟨hda, hya⟩).1
      · exact hz0 (hcell.unharmed fun r hr hd hlt => hy ⟨r, hr, hd, hlt⟩)
    rw [this]
    exact @MeasurableSet.empty _ (_)

theorem sigma_eq {m : Method} {n : Nat} {ι : Type} {g : ι → Bool × Nat × Nat × Fin n} {S : Set (Bool × Nat × Nat × Fin n)}
    (hS : S ⊆ Set.range g) :
    sigma m dc dl S = ⨆ c ∈ g ⁻¹' S, MeasurableSpace.comap (value m dc dl (g c)) inferInstance := by
  apply le_antisymm
  · refine iSup₂_le fun t ht => ?_
    obtain ⟨c, rfl⟩ := hS ht
    exact le_iSup₂_of_le (f := fun c (_ : c ∈ g ⁻¹' S) => MeasurableSpace.comap (value m dc dl (g c)) inferInstance)
      c ht le_rfl
  · refine iSup₂_le fun c hc => ?_
    exact le_iSup₂_of_le (f := fun t (_ : t ∈ S) => MeasurableSpace.comap (value m dc dl t) inferInstance)
      (g c) hc le_rfl

theorem run_independent {ι : Type} {g : ι → Bool × Nat × Nat × Fin x.size}
    (h : Run P N NQ x available missing table size dc dl out)
    (hind : iIndepFun (fun c => value x.method dc dl (g c)) P)
    (cells : Finset (PGid × Nat × Nat))
    (hcells : ∀ t ∈ cells, (∃ n, Group available missing table t.1 n ∧ t.2.1 < n) ∧ t.2.2 < x.size ∧
      ∃ rows q curve, x.caps t.1 = some rows ∧ DemandIs x t.1 t.2.2 q ∧ Curves N x rows t.2.1 q curve)
    (hrange : ∀ t ∈ cells, ∀ s : Bool × Nat × Nat × Fin x.size, s.2.2.2.1 = t.2.2 → s ∈ Set.range g)
    (A : PGid × Nat × Nat → Set Int) :
    P {ω | ∀ t ∈ cells, ∃ v ∈ A t, stateOf (out ω) (blockId t.1 t.2.1) t.2.2 = some v} =
      ∏ t ∈ cells, P {ω | ∃ v ∈ A t, stateOf (out ω) (blockId t.1 t.2.1) t.2.2 = some v} := by
  haveI := hind.isProbabilityMeasure
  have hne : Nonempty Ω := P.nonempty_of_neZero
  obtain ⟨slot, lslot, hs⟩ := DmgProb.cells h
  have hinj := hs (Classical.arbitrary Ω)
  -- the numbers of a cell
  let own : PGid × Nat × Nat → Set (Bool × Nat × Nat × Fin x.size) := fun t =>
    {s | s.2.2.2.1 = t.2.2 ∧ (s.1 = false ∧ (s.2.1, s.2.2.1) = slot (blockId t.1 t.2.1) ∨
      s.1 = true ∧ ∃ rows, x.caps t.1 = some rows ∧ ∃ r ∈ rows, r.dist ≠ none ∧
        (s.2.1, s.2.2.1) = lslot (blockId t.1 t.2.1) r.id)}
  have hmeas : ∀ t ∈ cells, MeasurableSet[sigma x.method dc dl (own t)]
      {ω | ∃ v ∈ A t, stateOf (out ω) (blockId t.1 t.2.1) t.2.2 = some v} := by
    intro t ht
    obtain ⟨⟨n, hg, hk⟩, hi, rows, q, curve, hrows, hq, hcurve⟩ := hcells t ht
    have := state_measurable h hg hk hrows (i := ⟨t.2.2, hi⟩) (curve := curve) (slot := slot) (lslot := lslot)
      (fun ω => (hs ω).2.2 t.1 n t.2.1 hg hk rows hrows ⟨t.2.2, hi⟩ q curve hq hcurve)
    have e : {ω | ∃ v ∈ A t, stateOf (out ω) (blockId t.1 t.2.1) t.2.2 = some v} =
        ⋃ v ∈ A t, {ω | stateOf (out ω) (blockId t.1 t.2.1) t.2.2 = some v} := by
      ext ω
      simp
    rw [e]
    refine MeasurableSet.biUnion (A t).to_countable fun v _ => ?_
    refine (?_ : sigma x.method dc dl _ ≤ sigma x.method dc dl (own t)) _ (this v)
    refine biSup_mono ?_
    rintro s (rfl | ⟨r, hr, hd, rfl⟩)
    · exact ⟨rfl, Or.inl ⟨rfl, rfl⟩⟩
    · exact ⟨rfl, Or.inr ⟨rfl, rows, hrows, r, hr, hd, rfl⟩⟩
  have hdisj : ∀ t ∈ cells, ∀ t' ∈ cells, t ≠ t' → Disjoint (own t) (own t') := by
    intro t ht t' ht' hne
    rw [Set.disjoint_left]
    rintro s ⟨hi, hsl⟩ ⟨hi', hsl'⟩
    obtain ⟨⟨n, hg, hk⟩, _⟩ := hcells t ht
    obtain ⟨⟨n', hg', hk'⟩, _⟩ := hcells t' ht'
    have hb : blockId t.1 t.2.1 = blockId t'.1 t'.2.1 := by
      rcases hsl with ⟨e1, e2⟩ | ⟨e1, rows, e2, r, e3, e4, e5⟩ <;>
        rcases hsl' with ⟨f1, f2⟩ | ⟨f1, rows', f2, r', f3, f4, f5⟩
      · exact hinj.1 t.1 n t.2.1 t'.1 n' t'.2.1 hg hk hg' hk' (e2.symm.trans f2)
      · rw [e1] at f1; simp at f1
      · rw [e1] at f1; simp at f1
      · exact (hinj.2.1 t.1 n t.2.1 t'.1 n' t'.2.1 hg hk hg' hk' rows rows' e2 f2 r e3 r' f3 e4 f4
          (e5.symm.trans f5)).1
    obtain ⟨h1, h2⟩ := blockId_inj hb
    apply hne
    obtain ⟨a, b, c⟩ := t
    obtain ⟨a', b', c'⟩ := t'
    simp only at h1 h2 hi hi'
    subst h1 h2
    rw [← hi, ← hi']
  have hle : ∀ s : Bool × Nat × Nat × Fin x.size, MeasurableSpace.comap (value x.method dc dl s) inferInstance ≤
      (inferInstance : MeasurableSpace Ω) := fun s => (h.draws.measurable s).comap_le
  have hown : ∀ t ∈ cells, own t ⊆ Set.range g := fun t ht s hs => hrange t ht s hs.1
  clear hcells hrange
  induction cells using Finset.induction_on with
  | empty => simp
  | insert t cells hnot ih =>
    rw [Finset.prod_insert hnot, ← ih (fun a ha => hmeas a (Finset.mem_insert_of_mem ha))
      (fun a ha b hb => hdisj a (Finset.mem_insert_of_mem ha) b (Finset.mem_insert_of_mem hb))
      (fun a ha => hown a (Finset.mem_insert_of_mem ha))]
    have e : {ω | ∀ a ∈ insert t cells, ∃ v ∈ A a, stateOf (out ω) (blockId a.1 a.2.1) a.2.2 = some v} =
        {ω | ∃ v ∈ A t, stateOf (out ω) (blockId t.1 t.2.1) t.2.2 = some v} ∩
        {ω | ∀ a ∈ cells, ∃ v ∈ A a, stateOf (out ω) (blockId a.1 a.2.1) a.2.2 = some v} := by
      ext ω
      simp only [Set.mem_setOf_eq, Finset.forall_mem_insert, Set.mem_inter_iff]
    rw [e]
    have hd : Disjoint (own t) (⋃ a ∈ cells, own a) := by
      rw [Set.disjoint_iUnion₂_right]
      intro a ha
      exact hdisj t (Finset.mem_insert_self _ _) a (Finset.mem_insert_of_mem ha) (by
        rintro rfl
        exact hnot ha)
    have hind : Indep (sigma x.method dc dl (own t)) (sigma x.method dc dl (⋃ a ∈ cells, own a)) P := by
      rw [sigma_eq (hown t (Finset.mem_insert_self _ _)), sigma_eq (g := g)
        (Set.iUnion₂_subset fun a ha => hown a (Finset.mem_insert_of_mem ha))]
      exact indep_iSup_of_disjoint (fun c => hle (g c)) hind.iIndep (hd.preimage g)
    refine (Indep_iff _ _ _).1 hind _ _ (hmeas t (Finset.mem_insert_self _ _)) ?_
    have e2 : {ω | ∀ a ∈ cells, ∃ v ∈ A a, stateOf (out ω) (blockId a.1 a.2.1) a.2.2 = some v} =
        ⋂ a ∈ cells, {ω | ∃ v ∈ A a, stateOf (out ω) (blockId a.1 a.2.1) a.2.2 = some v} := by
      ext ω
      simp
    rw [e2]
    refine Finset.measurableSet_biInter _ fun a ha => ?_
    refine (?_ : sigma x.method dc dl (own a) ≤ sigma x.method dc dl (⋃ a ∈ cells, own a)) _ (hmeas a (Finset.mem_insert_of_mem ha))
    refine biSup_mono fun s hsa => ?_
    exact Set.mem_iUnion₂.2 ⟨a, ha, hsa⟩

/-- C115: the damage states of different blocks, and those of one block in different realizations, are independent
given the demands: the probability that the damage state of each of them is in a set of its own is the product of the
probabilities. -/
theorem C115_independent (h : MonteCarlo P N NQ x available missing table size dc dl out)
    (cells : Finset (PGid × Nat × Nat))
    (hcells : ∀ t ∈ cells, (∃ n, Group available missing table t.1 n ∧ t.2.1 < n) ∧ t.2.2 < x.size ∧
      ∃ rows q curve, x.caps t.1 = some rows ∧ DemandIs x t.1 t.2.2 q ∧ Curves N x rows t.2.1 q curve)
    (A : PGid × Nat × Nat → Set Int) :
    P {ω | ∀ t ∈ cells, ∃ v ∈ A t, stateOf (out ω) (blockId t.1 t.2.1) t.2.2 = some v} =
      ∏ t ∈ cells, P {ω | ∃ v ∈ A t, stateOf (out ω) (blockId t.1 t.2.1) t.2.2 = some v} :=
  run_independent (g := id) h.toRun (by rw [h.method]; exact h.draws.independent) cells hcells
    (fun _ _ s _ => ⟨s, rfl⟩) A

theorem countP_eq_sum {α : Type} (l : List α) (f : α → Bool) (n : Nat) (hn : l.length = n) :
    ((l.countP f : Nat) : ℝ) = ∑ i : Fin n, if (l[i.1]?.any f) then (1 : ℝ) else 0 := by
  subst hn
  induction l with
  | nil => simp
  | cons a l ih =>
    rw [List.countP_cons, Nat.cast_add, ih]
    simp only [List.length_cons]
    rw [Fin.sum_univ_succ]
    simp only [Fin.val_zero, List.getElem?_cons_zero, Option.any_some, Fin.val_succ, List.getElem?_cons_succ]
    rw [add_comm]
    congr 1
    split <;> simp [*]

/-- C115: the share of realizations in which a block reaches limit state `r` or a higher one estimates the probability
`p` given by the fragility curves, with the accuracy of Chebyshev's inequality: it is off by `eps` or more with
probability at most `p (1 - p) / (size eps ^ 2)`. -/
theorem C115_accuracy (h : MonteCarlo P N NQ x available missing table size dc dl out) (pg : PGid) (n k : Nat)
    (hg : Group available missing table pg n) (hk : k < n) (rows : List (LSCap ℝ)) (hrows : x.caps pg = some rows)
    (hn : 0 < x.size) (q : ℚ) (hq : ∀ i < x.size, DemandIs x pg i q) (curve : LSCap ℝ → ℝ)
    (hcurve : Curves N x rows k q curve) (r : LSCap ℝ) (p : ℝ) (hp : Highest rows curve (numOf r.id ≤ ·) p)
    (eps : ℝ) (heps : 0 < eps) :
    P {ω | eps ≤ |((out ω).countP (stateAbove (blockId pg k) (statesBelow rows r)) : ℝ) / x.size - p|} ≤
      ENNReal.ofReal (p * (1 - p) / (x.size * eps ^ 2)) := by
  haveI := h.draws.independent.isProbabilityMeasure
  obtain ⟨slot, lslot, hs⟩ := cells h.toRun
  rw [h.method] at hs
  have hp0 := highest_nonneg hp
  have hp1 := highest_one hcurve hp
  let t : Fin x.size → Bool × Nat × Nat × Fin x.size := fun i =>
    (false, (slot (blockId pg k)).1, (slot (blockId pg k)).2, i)
  have htinj : Function.Injective t := fun i j hij => by
    simp only [t, Prod.mk.injEq, true_and] at hij
    exact hij
  let g : ℝ → ℝ := Set.indicator (Set.Iio p) 1
  have hgm : Measurable g := measurable_one.indicator measurableSet_Iio
  let X : Fin x.size → Ω → ℝ := fun i ω => g (value .monteCarlo dc dl (t i) ω)
  have hXm : ∀ i, Measurable (X i) := fun i => hgm.comp (h.draws.measurable (t i))
  have hX01 : ∀ i ω, X i ω = 0 ∨ X i ω = 1 := fun i ω => by
    simp only [X, g, Set.indicator_apply, Pi.one_apply]
    split <;> simp [*]
  have hLp : ∀ i, MemLp (X i) 2 P := fun i =>
    MemLp.of_bound (hXm i).aestronglyMeasurable 1 (Filter.Eventually.of_forall fun ω => by
      rcases hX01 i ω with e | e <;> simp [e])
  have hmean : ∀ i, ∫ ω, X i ω ∂P = p := by
    intro i
    have e : X i = Set.indicator {ω | value .monteCarlo dc dl (t i) ω ∈ Set.Ico 0 p} 1 := by
      funext ω
      have h0 := (value_nonneg h.draws.values (t i) ω).1
      simp only [X, g, Set.indicator_apply, Set.mem_Iio, Set.mem_setOf_eq, Set.mem_Ico, h0, true_and]
      rfl
    have hm : MeasurableSet {ω | value .monteCarlo dc dl (t i) ω ∈ Set.Ico 0 p} := h.draws.measurable (t i) measurableSet_Ico
    rw [e, integral_indicator_one hm, measureReal_def, law h.draws.values (t i) measurableSet_Ico, uniform_Ico le_rfl hp1,
      sub_zero, ENNReal.toReal_ofReal hp0]
  have hvar : ∀ i, Var[X i; P] = p * (1 - p) := by
    intro i
    rw [variance_eq_sub (hLp i)]
    have e : X i ^ 2 = X i := by
      funext ω
      rcases hX01 i ω with e | e <;> simp [e]
    rw [e, hmean i]
    ring
  have hind : iIndepFun X P := by
    have h1 : iIndepFun (fun i => value .monteCarlo dc dl (t i)) P := h.draws.independent.precomp htinj
    exact h1.comp (fun _ => g) (fun _ => hgm)
  have hsum : ∀ ω, ((out ω).countP (stateAbove (blockId pg k) (statesBelow rows r)) : ℝ) = ∑ i, X i ω := by
    intro ω
    obtain ⟨hlen, _⟩ := C89_one_state_per_block N NQ x available missing table size (dc ω) (dl ω) h.batch h.blocks
      h.dashless (out ω) (h.run ω)
    rw [countP_eq_sum _ _ _ hlen]
    refine Finset.sum_congr rfl fun i _ => ?_
    obtain ⟨v, hv, hcell⟩ := (hs ω).2.2 pg n k hg hk rows hrows i q curve (hq i i.2) hcurve
    have h0 := (value_nonneg h.draws.values (t i) ω).1
    have hany : (out ω)[i.1]?.any (stateAbove (blockId pg k) (statesBelow rows r)) = true ↔
        (statesBelow rows r : Int) < v := by
      unfold stateOf at hv
      cases hrow : (out ω)[i.1]? with
      | none => rw [hrow] at hv; simp at hv
      | some row =>
        rw [hrow, Option.bind_some] at hv
        simp [stateAbove, hv]
    simp only [X, g, Set.indicator_apply, Set.mem_Iio, Pi.one_apply]
    have key : (value .monteCarlo dc dl (t i) ω < p) ↔ (statesBelow rows r : Int) < v := by
      rw [highest_lt hp h0, hcell.above r]
    by_cases hlt : (statesBelow rows r : Int) < v
    · rw [if_pos (hany.2 hlt), if_pos (key.2 hlt)]
    · rw [if_neg (fun hh => hlt (hany.1 hh)), if_neg (fun hh => hlt (key.1 hh))]
  have hnr : (0 : ℝ) < x.size := by exact_mod_cast hn
  have hLpS : MemLp (∑ i, X i) 2 P := memLp_finsetSum' _ fun i _ => hLp i
  have hvS : Var[∑ i, X i; P] = x.size * (p * (1 - p)) := by
    rw [IndepFun.variance_sum (fun i _ => hLp i) (fun i _ j _ hij => hind.indepFun hij)]
    simp [hvar]
  have hmS : P[∑ i, X i] = x.size * p := by
    simp only [Finset.sum_apply]
    rw [integral_finsetSum _ fun i _ => (hLp i).integrable one_le_two]
    simp [hmean]
  have hch := meas_ge_le_variance_div_sq hLpS (c := x.size * eps) (by positivity)
  rw [hvS, hmS] at hch
  have hset : {ω | eps ≤ |((out ω).countP (stateAbove (blockId pg k) (statesBelow rows r)) : ℝ) / x.size - p|} =
      {ω | (x.size : ℝ) * eps ≤ |(∑ i, X i) ω - x.size * p|} := by
    ext ω
    simp only [Set.mem_setOf_eq, hsum ω, Finset.sum_apply]
    have e : (∑ i, X i ω) - x.size * p = x.size * ((∑ i, X i ω) / x.size - p) := by
      field_simp
    rw [e, abs_mul, abs_of_pos hnr, mul_le_mul_iff_right₀ hnr]
  rw [hset]
  refine hch.trans (le_of_eq ?_)
  congr 1
  field_simp

/-! ### A calculation that meets the hypotheses -/

noncomputable def exRows : List (LSCap ℝ) :=
  [⟨str "1", some (.dist (.lognormal (.const 1 (1 / 2)) none none)), none⟩,
   ⟨str "2", some (.dist (.lognormal (.const 2 (1 / 2)) none none)), some (str "0.25 | 0.75")⟩]

noncomputable def exInputOf (m : Method) : Input ℝ where
  caps pg := if pg.cmp = str "A" then some exRows else none
  nvars _ := .ok 1
  eval _ _ := .error .valueError
  params := [(str "A", ⟨[⟨str "Peak Floor Acceleration", some 0, some 1⟩], .absent⟩)]
  offsets := []
  mults := []
  sample := [((str "PFA", str "1", str "1"), [some 2, some 3])]
  size := 2
  method := m

noncomputable abbrev exInput : Input ℝ := exInputOf .monteCarlo

def exTable : List (PGid × Int) := [(⟨str "A", str "1", str "1", str "0"⟩, 2)]


theorem draws_exist (n : Nat) : ∃ (Ω : Type) (_ : MeasurableSpace Ω) (P : Measure Ω) (dc dl : Ω → Nat → Draws ℝ),
    IsProbabilityMeasure P ∧ RandomDraws P n dc dl := by
  obtain ⟨Ω, m, P, X, hX, hlaw, hind, hP⟩ := exists_iid (Bool × Nat × Nat × Fin n) uniform01
  let g : ℝ → ℝ := fun y => if 0 ≤ y ∧ y < 1 then y else 0
  have hg : Measurable g := by
    refine Measurable.ite ?_ measurable_id measurable_const
    exact measurableSet_Ico
  have hg01 : ∀ y, 0 ≤ g y ∧ g y < 1 := by
    intro y
    simp only [g]
    split
    · assumption
    · norm_num
  let mk : Ω → Bool → Nat → Draws ℝ := fun ω c j =>
    ⟨fun _ => List.range n, fun v => List.ofFn fun i : Fin n => g (X (c, j, v, i) ω)⟩
  have hgood : ∀ ω c j, GoodDraws n (mk ω c j).perm (mk ω c j).jitter := by
    intro ω c j i
    refine ⟨.refl _, by simp [mk], ?_⟩
    intro u hu
    obtain ⟨k, rfl⟩ := (List.mem_ofFn' _ _).1 hu
    exact hg01 _
  have hnum : ∀ t : Bool × Nat × Nat × Fin n, number (fun ω => mk ω false) (fun ω => mk ω true) t = g ∘ X t := by
    rintro ⟨c, j, v, i⟩
    funext ω
    cases c <;> simp [number, mk, List.getD]
  refine ⟨Ω, m, P, fun ω => mk ω false, fun ω => mk ω true, hP, fun ω => hgood ω false, fun ω => hgood ω true, ?_, ?_, ?_⟩
  · intro t
    rw [hnum]
    exact hg.comp (hX t)
  · intro t
    rw [hnum]
    refine (hlaw t).congr ?_
    have : ∀ᵐ y ∂uniform01, g y = y := by
      unfold uniform01
      refine (ae_restrict_iff' measurableSet_Ioo).2 (.of_forall ?_)
      intro y hy
      simp only [g]
      rw [if_pos ⟨hy.1.le, hy.2⟩]
    exact ((hlaw t).ae_iff (p := fun y => g y = y) (measurableSet_setOfPred.1 (measurableSet_eq_fun hg measurable_id))).2 this
  · simp only [hnum]
    exact hind.comp (fun _ => g) fun _ => hg

def exPG : PGid := ⟨str "A", str "1", str "1", str "0"⟩

noncomputable def exVars : List (BlockVar ℝ) :=
  let k1 : RVKind ℝ := .lognormal (.const 1 (1 / 2)) none none
  let k2 : RVKind ℝ := .lognormal (.const 2 (1 / 2)) none none
  let l := blockLabel exPG
  let t b := DemandGen.tag (str "FRG") (l b (str "1"))
  [⟨l 0 (str "1"), .mk (t 0) k1 none, .fixed 1⟩,
   ⟨l 1 (str "1"), .mk (t 1) k1 none, .fixed 1⟩,
   ⟨l 0 (str "2"), .mk (DemandGen.tag (str "FRG") (l 0 (str "2"))) k2 (some (.mk (t 0) k1 none)), .drawn [1 / 4, 3 / 4] 2⟩,
   ⟨l 1 (str "2"), .mk (DemandGen.tag (str "FRG") (l 1 (str "2"))) k2 (some (.mk (t 1) k1 none)), .drawn [1 / 4, 3 / 4] 2⟩]

theorem ex_batchVars (m : Method) : batchVars (exInputOf m).caps [(exPG, 2)] = .ok exVars := by
  have h1 : DmgRVs.lsds (exRows.map LSCap.toRow) = .ok [(str "1", .fixed 1), (str "2", .drawn [1 / 4, 3 / 4] 2)] := by
    have : exRows.map LSCap.toRow = [{ id := str "1", theta0 := some 0 }, { id := str "2", theta0 := some 0, weights := some (str "0.25 | 0.75") }] := rfl
    rw [this]
    decide +kernel
  have h2 : pySort lsLe exRows = exRows := by
    have : lsLe exRows[0] exRows[1] = true := by
      show strLe (str "LS1") (str "LS2") = true
      decide
    show (if lsLe exRows[0] exRows[1] = true then exRows else [exRows[1], exRows[0]]) = exRows
    exact if_pos this
  have h3 : (exInputOf m).caps exPG = some exRows := by
    simp [exInputOf, exPG]
  unfold batchVars
  simp only [mapE, h3, pgVars, h1, h2]
  rfl

theorem ex_demand (m : Method) : ∃ d, batchDemand (exInputOf m) ([(exPG, 2)].map Prod.fst) = .ok d := ⟨_, rfl⟩

theorem able_lognormal (N : Num ℝ) (n : Nat) (name : Str) (a : Option (RV ℝ)) (theta beta : ℝ) (ht : 0 < theta) :
    Able N n (.mk name (.lognormal (.const theta beta) none none) a) := by
  unfold Able
  simp only [RV.kind, RVKind.utility, Bool.false_eq_true, if_false, RVKind.inverse]
  intro u
  rw [transformRows_const (f := fun y => (normPpf N.D (some y) (.fin (N.E.log theta)) beta).exp N.E)]
  · exact ⟨_, rfl⟩
  · intro y
    unfold lognormalInverse
    simp [Ext.log, ht, truncated]

theorem ex_run {m : Method} (hm : m ≠ .other) (N : Num ℝ) (dc dl : Nat → Draws ℝ) (hd : ∀ j, GoodDraws 2 (dl j).perm (dl j).jitter) :
    ∃ out, obtainDs N N (exInputOf m) [str "A"] [] exTable 10 dc dl = .ok out := by
  have h1 : DmgBatch.pgBatches [str "A"] [] exTable 10 = .ok [(1, exPG, 2)] := by decide +kernel
  have h2 : groupBatches [(1, exPG, 2)] = [[(exPG, 2)]] := by decide +kernel
  obtain ⟨d, hdem⟩ := ex_demand m
  obtain ⟨rows, hrows⟩ := runBatch_total N (exInputOf m) [(exPG, 2)] (ex_batchVars m) (by simp [exVars])
    (by simp only [exVars, List.forall_mem_cons]; exact ⟨rfl, rfl, rfl, rfl, by simp⟩)
    (show [blockLabel exPG 0 (str "1"), blockLabel exPG 1 (str "1"), blockLabel exPG 0 (str "2"), blockLabel exPG 1 (str "2")].Nodup by decide +kernel)
    (show DemandGen.Tidy 6 [blockLabel exPG 0 (str "1"), blockLabel exPG 1 (str "1"), blockLabel exPG 0 (str "2"), blockLabel exPG 1 (str "2")] by
      unfold DemandGen.Tidy; decide +kernel)
    (by
      simp only [exVars, List.forall_mem_cons, List.exists_mem_cons_iff]
      exact ⟨.inl rfl, .inr (.inl rfl), .inl rfl, .inr (.inl rfl), by simp⟩)
    (by
      simp only [exVars, List.forall_mem_cons]
      refine ⟨able_lognormal _ _ _ _ _ _ ?_, able_lognormal _ _ _ _ _ _ ?_, able_lognormal _ _ _ _ _ _ ?_, able_lognormal _ _ _ _ _ _ ?_, by simp⟩ <;> norm_num)
    hm hdem (by
      simp only [List.map_cons, List.map_nil, List.mem_singleton]
      rintro pg rfl
      exact ⟨_, List.mem_cons_self, rfl⟩) (dc 0) (dl 0) (hd 0)
  unfold obtainDs
  rw [h1]
  simp only [h2, List.zipIdx, mapE, hrows, concatBatches]
  exact ⟨_, rfl⟩

theorem ex_component : Component exRows where
  distinct := by simp only [exRows, List.map_cons, List.map_nil]; decide
  numbered := by
    intro r hr
    simp only [exRows, List.mem_cons, List.not_mem_nil, or_false] at hr
    rcases hr with rfl | rfl
    · exact ⟨1, by omega, by omega, by decide⟩
    · exact ⟨2, by omega, by omega, by decide⟩
  noGap := by
    intro r hr _ j h1 h2
    have hj : j = 1 ∨ j = 2 := by
      simp only [exRows, List.mem_cons, List.not_mem_nil, or_false] at hr
      rcases hr with rfl | rfl
      · have : numOf (str "1") = 1 := by decide
        simp only [this] at h2
        omega
      · have : numOf (str "2") = 2 := by decide
        simp only [this] at h2
        omega
    rcases hj with rfl | rfl
    · exact ⟨exRows[0], by simp [exRows], by simp [exRows], by decide⟩
    · exact ⟨exRows[1], by simp [exRows], by simp [exRows], by decide⟩
  weights := by
    intro r hr s hs w hw q hq
    simp only [exRows, List.mem_cons, List.not_mem_nil, or_false] at hr
    rcases hr with rfl | rfl
    · simp at hs
    · simp only [Option.some.injEq] at hs
      subst hs
      have : splitChar '|' ((str "0.25 | 0.75").filter (· ≠ ' ')) = [str "0.25", str "0.75"] := by decide
      rw [this] at hw
      simp only [List.mem_cons, List.not_mem_nil, or_false] at hw
      rcases hw with rfl | rfl
      · have h : pyFloat? (str "0.25") = some (.fin (1 / 4)) := by decide +kernel
        rw [h] at hq
        simp only [Option.some.injEq, PyFloat.fin.injEq] at hq
        rw [← hq]; norm_num
      · have h : pyFloat? (str "0.75") = some (.fin (3 / 4)) := by decide +kernel
        rw [h] at hq
        simp only [Option.some.injEq, PyFloat.fin.injEq] at hq
        rw [← hq]; norm_num
  capacity := by
    intro r hr k hk
    simp only [exRows, List.mem_cons, List.not_mem_nil, or_false] at hr
    rcases hr with rfl | rfl <;> · simp only [Option.some.injEq, CapDist.dist.injEq] at hk; subst hk; rfl

theorem ex_caps {m : Method} {e : PGid × Int} {rows : List (LSCap ℝ)} (h : (exInputOf m).caps e.1 = some rows) : rows = exRows := by
  simp only [exInputOf] at h
  split at h
  · exact (Option.some.inj h).symm
  · simp at h

/-- There is a calculation with random draws that meets the hypotheses of C115. -/
theorem ex_monteCarlo (N : Num ℝ) : ∃ (Ω : Type) (_ : MeasurableSpace Ω) (P : Measure Ω) (dc dl : Ω → Nat → Draws ℝ)
    (out : Ω → List (Dict BlockId Int)), MonteCarlo P N N exInput [str "A"] [] exTable 10 dc dl out := by
  obtain ⟨Ω, m, P, dc, dl, _, h⟩ := draws_exist 2
  choose out hout using fun ω => ex_run (m := .monteCarlo) (by simp) N (dc ω) (dl ω) (h.states ω)
  refine ⟨Ω, m, P, dc, dl, out, by norm_num, by decide, ⟨by decide, ?_⟩, ?_, rfl, h, hout⟩
  · intro e _ rows he r hr
    rw [ex_caps he] at hr
    simp only [exRows, List.mem_cons, List.not_mem_nil, or_false] at hr
    rcases hr with rfl | rfl <;> decide
  · intro e _ rows he
    rw [ex_caps he]
    exact ex_component

noncomputable def exCurve (r : LSCap ℝ) : ℝ :=
  if r.id = str "1" then gaussian.cdf ((Real.log 2 - Real.log 1) / (1 / 2))
  else gaussian.cdf ((Real.log 2 - Real.log 2) / (1 / 2))

theorem ex_curves (m : Method) (k : Nat) : Curves (realNum 0) (exInputOf m) exRows k 2 exCurve := by
  intro r hr _
  simp only [exRows, List.mem_cons, List.not_mem_nil, or_false] at hr
  have h2 : ((2 : ℚ) : ℝ) = 2 := by norm_num
  rw [h2]
  rcases hr with rfl | rfl
  · have := C89_curve_lognormal (realNum 0) 2 exRows[0] 1 (1 / 2) rfl (by norm_num) (by norm_num) k 2
    rw [if_pos (by norm_num)] at this
    unfold exCurve
    simp only [if_true]
    exact this
  · have := C89_curve_lognormal (realNum 0) 2 exRows[1] 2 (1 / 2) rfl (by norm_num) (by norm_num) k 2
    rw [if_pos (by norm_num)] at this
    unfold exCurve
    rw [if_neg (show ¬ str "2" = str "1" by decide)]
    exact this

/-- At a demand equal to the median of limit state 2, the third damage state has three quarters of the probability
`Φ(0)` of that limit state. -/
example {Ω : Type} [MeasurableSpace Ω] {P : Measure Ω} {dc dl : Ω → Nat → Draws ℝ} {out : Ω → List (Dict BlockId Int)}
    (h : MonteCarlo P (realNum 0) (realNum 0) exInput [str "A"] [] exTable 10 dc dl out) :
    P {ω | stateOf (out ω) (blockId exPG 1) 0 = some 3} = ENNReal.ofReal (gaussian.cdf 0 * (3 / 4)) := by
  have hw : List.Forall₂ (fun piece w => pyFloat? piece = some (.fin w))
      (splitChar '|' ((str "0.25 | 0.75").filter (· ≠ ' '))) [(1 / 4 : ℚ), 3 / 4] :=
    .cons (by decide +kernel) (.cons (by decide +kernel) .nil)
  have hcurve : exCurve exRows[1] = gaussian.cdf 0 := by
    unfold exCurve
    rw [if_neg (by decide)]
    simp
  have := (C115_state h exPG 2 1 ⟨⟨2, by decide⟩, by decide⟩ (by norm_num) exRows (by simp [exInputOf, exPG]) 0
    (by decide) 2 ⟨([str "PFA-1-1"], .absent), [some 2, some 3], by decide +kernel, by decide +kernel, rfl⟩ exCurve
    (ex_curves _ 1) exRows[1] (by simp [exRows]) (by simp [exRows]) (gaussian.cdf 0) 0 ?_ ?_).2 _ _ rfl hw 1 (by simp)
  · have hs : statesBelow exRows exRows[1] = 1 := by decide +kernel
    rw [hs] at this
    rw [show ((1 : ℕ) : Int) + (((1 : ℕ) : Int) + 1) = 3 by norm_num] at this
    rw [this]
    norm_num [share]
  · refine ⟨.inr ⟨exRows[1], by simp [exRows], by simp [exRows], le_refl _, hcurve.symm⟩, ?_⟩
    rintro y (rfl | ⟨a, ha, _, hn, rfl⟩)
    · exact (gaussian.cdf_pos 0).le
    · simp only [exRows, List.mem_cons, List.not_mem_nil, or_false] at ha
      rcases ha with rfl | rfl
      · exact absurd hn (by decide)
      · exact hcurve.le
  · refine ⟨.inl rfl, ?_⟩
    rintro y (rfl | ⟨a, ha, _, hn, rfl⟩)
    · exact le_refl _
    · simp only [exRows, List.mem_cons, List.not_mem_nil, or_false] at ha
      rcases ha with rfl | rfl <;> exact absurd hn (by decide)


end Verif.DmgProb
