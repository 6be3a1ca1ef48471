import Verif.Spec.DmgProb
import Verif.Lemmas.Copula

/-! # Lemmas for C115 -/

namespace Verif.DmgProb

open Verif.UQ Verif.DmgSample MeasureTheory ProbabilityTheory
open Verif.DmgEval (BlockId numOf)
open Verif.DemandReq (PGid)
open Verif.Copula (uniform01)

theorem uniform_Ico {a b : ℝ} (h0 : 0 ≤ a) (h1 : b ≤ 1) : uniform01 (Set.Ico a b) = ENNReal.ofReal (b - a) := by
  unfold uniform01
  rw [Measure.restrict_apply measurableSet_Ico]
  have e : (Set.Ico a b ∩ Set.Ioo 0 1 : Set ℝ) =ᵐ[volume] Set.Ioo a b := by
    have h1' : (Set.Ico a b : Set ℝ) =ᵐ[volume] Set.Ioo a b := Ioo_ae_eq_Ico.symm
    refine (h1'.inter (ae_eq_refl _)).trans ?_
    have : Set.Ioo a b ∩ Set.Ioo 0 1 = Set.Ioo a b := by
      refine Set.inter_eq_left.2 fun z hz => ⟨lt_of_le_of_lt h0 hz.1, lt_of_lt_of_le hz.2 h1⟩
    rw [this]
    exact ae_eq_refl _
  rw [measure_congr e, Real.volume_Ioo]

theorem uniform_Ici {a : ℝ} (h0 : 0 ≤ a) : uniform01 (Set.Ici a) = ENNReal.ofReal (1 - a) := by
  rw [← uniform_Ico h0 le_rfl]
  unfold uniform01
  rw [Measure.restrict_apply measurableSet_Ici, Measure.restrict_apply measurableSet_Ico]
  congr 1
  ext z
  simp only [Set.mem_inter_iff, Set.mem_Ici, Set.mem_Ioo, Set.mem_Ico]
  constructor
  · rintro ⟨a, b, c⟩; exact ⟨⟨a, c⟩, b, c⟩
  · rintro ⟨⟨a, _⟩, b, c⟩; exact ⟨a, b, c⟩

/-- What the uniform numbers `y` (capacities) and `w` (damage state of each limit state) say about the damage state. -/
structure Cell (rows : List (LSCap ℝ)) (curve : LSCap ℝ → ℝ) (y : ℝ) (w : Str → ℝ) (v : Int) : Prop where
  above : ∀ r, (statesBelow rows r : Int) < v ↔
    ∃ a ∈ rows, a.dist ≠ none ∧ numOf r.id ≤ numOf a.id ∧ y < curve a
  unharmed : (∀ r ∈ rows, r.dist ≠ none → ¬ y < curve r) → v = 0
  own : ∀ r ∈ rows, r.dist ≠ none → y < curve r →
    (∀ a ∈ rows, a.dist ≠ none → numOf r.id < numOf a.id → ¬ y < curve a) →
    v ≤ statesBelow rows r + states r ∧ ∀ s ws, r.weights = some s →
      List.Forall₂ (fun piece q => pyFloat? piece = some (.fin q)) (splitChar '|' (s.filter (· ≠ ' '))) ws →
      ∃ k, k < ws.length ∧ v = statesBelow rows r + (k + 1) ∧ (((ws.take k).sum : ℚ) : ℝ) ≤ w r.id ∧
        (k + 1 = ws.length ∨ w r.id < (((ws.take (k + 1)).sum : ℚ) : ℝ))

theorem drawRow_lt {m : Method} {n : Nat} {perm : Nat → List Nat} {jitter : Nat → List ℝ}
    (hd : GoodDraws n perm jitter) (i : Nat) {row : List ℝ}
    (h : drawRow m n (perm i) (jitter i) = .ok row) : row.length = n ∧ ∀ u ∈ row, 0 ≤ u ∧ u < 1 := by
  obtain ⟨h1, h2, h3⟩ := hd i
  have hp : (perm i).length = n := by rw [h1.length_eq, List.length_range]
  have hl := drawRow_length hp h2 h
  refine ⟨hl, ?_⟩
  rcases Nat.eq_zero_or_pos n with rfl | hn
  · intro u hu
    rw [List.length_eq_zero_iff.1 hl] at hu
    simp at hu
  cases m with
  | other => simp [drawRow] at h
  | monteCarlo => simp only [drawRow, Except.ok.injEq] at h; subst h; exact h3
  | lhs => exact DemandGen.stratified_nonneg hn (drawRow_stratified hn (.inl rfl) h1 h2 h3 h).1
  | lhsMidpoint => exact DemandGen.stratified_nonneg hn (drawRow_stratified hn (.inr rfl) h1 h2 h3 h).1

/-- A number that a variable is given for its uniform sample: for capacities (`false`) or for damage states (`true`), in
batch `t.2.1`, for variable `t.2.2.1` and realization `t.2.2.2`. -/
noncomputable def value {Ω : Type} {n : Nat} (m : Method) (dc dl : Ω → Nat → Draws ℝ) (t : Bool × Nat × Nat × Fin n) (ω : Ω) : ℝ :=
  match drawRow m n (((if t.1 then dl ω else dc ω) t.2.1).perm t.2.2.1)
      (((if t.1 then dl ω else dc ω) t.2.1).jitter t.2.2.1) with
  | .ok row => row.getD t.2.2.2 0
  | .error _ => 0

theorem value_monteCarlo {Ω : Type} {n : Nat} (dc dl : Ω → Nat → Draws ℝ) (t : Bool × Nat × Nat × Fin n) :
    value .monteCarlo dc dl t = number dc dl t := rfl

/-- All numbers are uniform, and those of different variables are independent in each realization. -/
structure UniformValues {Ω : Type} [MeasurableSpace Ω] (P : Measure Ω) (m : Method) (n : Nat)
    (dc dl : Ω → Nat → Draws ℝ) : Prop where
  capacities : ∀ ω j, GoodDraws n (dc ω j).perm (dc ω j).jitter
  states : ∀ ω j, GoodDraws n (dl ω j).perm (dl ω j).jitter
  measurable : ∀ t : Bool × Nat × Nat × Fin n, Measurable (value m dc dl t)
  uniform : ∀ t : Bool × Nat × Nat × Fin n, HasLaw (value m dc dl t) uniform01 P
  columns : ∀ i : Fin n, iIndepFun (fun c : Bool × Nat × Nat => value m dc dl (c.1, c.2.1, c.2.2, i)) P

/-- A damage calculation with such numbers. -/
structure Run {Ω : Type} [MeasurableSpace Ω] (P : Measure Ω) (N NQ : Num ℝ) (x : Input ℝ) (available missing : List Str)
    (table : List (PGid × Int)) (size : Int) (dc dl : Ω → Nat → Draws ℝ)
    (out : Ω → List (Dict BlockId Int)) : Prop where
  batch : 0 ≤ size
  blocks : ∀ e ∈ table, 0 < e.2
  dashless : Dashless x table
  components : ∀ e ∈ table, ∀ rows, x.caps e.1 = some rows → Component rows
  draws : UniformValues P x.method x.size dc dl
  run : ∀ ω, obtainDs N NQ x available missing table size (dc ω) (dl ω) = .ok (out ω)

variable {Ω : Type} [MeasurableSpace Ω] {P : Measure Ω} {N NQ : Num ℝ} {x : Input ℝ} {available missing : List Str}
  {table : List (PGid × Int)} {size : Int} {dc dl : Ω → Nat → Draws ℝ} {out : Ω → List (Dict BlockId Int)}

/-- The numbers that decide on the damage state of each block. -/
theorem cells (h : Run P N NQ x available missing table size dc dl out) :
    ∃ (slot : BlockId → Nat × Nat) (lslot : BlockId → Str → Nat × Nat), ∀ ω : Ω,
      (∀ pg n k pg' n' k', Group available missing table pg n → k < n →
        Group available missing table pg' n' → k' < n' →
        slot (blockId pg k) = slot (blockId pg' k') → blockId pg k = blockId pg' k') ∧
      (∀ pg n k pg' n' k', Group available missing table pg n → k < n →
        Group available missing table pg' n' → k' < n' →
        ∀ rows rows', x.caps pg = some rows → x.caps pg' = some rows' →
        ∀ r ∈ rows, ∀ r' ∈ rows', r.dist ≠ none → r'.dist ≠ none →
        lslot (blockId pg k) r.id = lslot (blockId pg' k') r'.id →
        blockId pg k = blockId pg' k' ∧ r.id = r'.id) ∧
      ∀ pg n k, Group available missing table pg n → k < n → ∀ rows, x.caps pg = some rows →
        ∀ (i : Fin x.size) q curve, DemandIs x pg i q → Curves N x rows k q curve →
        ∃ v, stateOf (out ω) (blockId pg k) i = some v ∧
          Cell rows curve (value x.method dc dl (false, (slot (blockId pg k)).1, (slot (blockId pg k)).2, i) ω)
            (fun id => value x.method dc dl (true, (lslot (blockId pg k) id).1, (lslot (blockId pg k) id).2, i) ω) v := by
  obtain ⟨slot, lslot, hs⟩ := C89_highest_exceeded_partial N NQ x available missing table size h.batch h.blocks
    h.dashless h.components
  refine ⟨slot, lslot, fun ω => ?_⟩
  obtain ⟨h1, h2, h3⟩ := hs (dc ω) (dl ω) (h.draws.capacities ω) (h.draws.states ω) (out ω) (h.run ω)
  refine ⟨h1, h2, ?_⟩
  intro pg n k hg hk rows hrows i q curve hq hcurve
  obtain ⟨rows', u, e1, e2, e3⟩ := h3 pg n k hg hk
  rw [hrows] at e1
  obtain rfl := Option.some.inj e1
  obtain ⟨hlen, hunit⟩ := drawRow_lt (h.draws.capacities ω (slot (blockId pg k)).1) (slot (blockId pg k)).2 e2
  obtain ⟨row, v, g1, g2, g3, g4⟩ := e3 i i.2
  set y := value x.method dc dl (false, (slot (blockId pg k)).1, (slot (blockId pg k)).2, i) ω with hy
  have huy : u[i.1]? = some y := by
    have hi : i.1 < u.length := by rw [hlen]; exact i.2
    rw [hy]
    simp only [value, Bool.false_eq_true, if_false, e2]
    rw [List.getD_eq_getElem?_getD, List.getElem?_eq_getElem hi]
    rfl
  have hex : ∀ a ∈ rows, a.dist ≠ none → (Exceeded N x u pg k i a ↔ y < curve a) := by
    intro a ha hd
    rw [← (hcurve a ha hd).2.2 u hlen hunit i y huy]
    constructor
    · rintro ⟨c, q', hc, hq', hb⟩
      obtain rfl := hq'.unique hq
      exact ⟨c, hc, hb⟩
    · rintro ⟨c, hc, hb⟩
      exact ⟨c, q, hc, hq, hb⟩
  have hdef : ∀ a, Exceeded N x u pg k i a → a.dist ≠ none := by
    rintro a ⟨_, _, ⟨d, _, _, hd, _⟩, _⟩
    rw [hd]
    simp
  refine ⟨v, by rw [stateOf, g1]; exact g2, ?_, ?_, ?_⟩
  · intro r
    rw [g3.above_iff r]
    constructor
    · rintro ⟨a, ha, hle, he⟩
      exact ⟨a, ha, hdef a he, hle, (hex a ha (hdef a he)).1 he⟩
    · rintro ⟨a, ha, hd, hle, hlt⟩
      exact ⟨a, ha, hle, (hex a ha hd).2 hlt⟩
  · intro hno
    exact g3.1 fun r hr he => hno r hr (hdef r he) ((hex r hr (hdef r he)).1 he)
  · intro r hr hd hlt hmax
    have he := (hex r hr hd).2 hlt
    have hm : ∀ a ∈ rows, numOf r.id < numOf a.id → ¬ Exceeded N x u pg k i a := fun a ha hl hea =>
      hmax a ha (hdef a hea) hl ((hex a ha (hdef a hea)).1 hea)
    refine ⟨(g3.2 r hr he hm).2, ?_⟩
    intro s ws hs hws
    obtain ⟨w, hw, hdraw⟩ := g4 r hr he hm
    obtain ⟨z, j, j0, j1, j2, j3, j4⟩ := hdraw s ws hs hws
    have hz : value x.method dc dl (true, (lslot (blockId pg k) r.id).1, (lslot (blockId pg k) r.id).2, i) ω = z := by
      simp only [value, if_true, hw]
      rw [List.getD_eq_getElem?_getD, j0]
      rfl
    rw [hz]
    exact ⟨j, j1, j2, j3, j4⟩

theorem value_nonneg {m : Method} (h : UniformValues P m x.size dc dl) (t : Bool × Nat × Nat × Fin x.size) (ω : Ω) :
    0 ≤ value m dc dl t ω ∧ value m dc dl t ω < 1 := by
  have key : ∀ l : List ℝ, l.length = x.size → (∀ u ∈ l, 0 ≤ u ∧ u < 1) →
      0 ≤ l.getD t.2.2.2 0 ∧ l.getD t.2.2.2 0 < 1 := by
    intro l hl hu
    have hi : t.2.2.2.1 < l.length := by rw [hl]; exact t.2.2.2.2
    rw [List.getD_eq_getElem?_getD, List.getElem?_eq_getElem hi]
    exact hu _ (List.getElem_mem hi)
  unfold value
  split
  · rename_i row hrow
    have hd : GoodDraws x.size ((if t.1 then dl ω else dc ω) t.2.1).perm ((if t.1 then dl ω else dc ω) t.2.1).jitter := by
      split
      · exact h.states ω _
      · exact h.capacities ω _
    obtain ⟨h1, h2⟩ := drawRow_lt hd _ hrow
    exact key row h1 h2
  · norm_num

theorem law {m : Method} (h : UniformValues P m x.size dc dl) (t : Bool × Nat × Nat × Fin x.size) {B : Set ℝ}
    (hB : MeasurableSet B) :
    P {ω | value m dc dl t ω ∈ B} = uniform01 B := (h.uniform t).measure_eq (p := fun z => z ∈ B) hB

theorem RandomDraws.values {n : Nat} (h : RandomDraws P n dc dl) : UniformValues P .monteCarlo n dc dl where
  capacities := h.capacities
  states := h.states
  measurable := h.measurable
  uniform := h.uniform
  columns i := h.independent.precomp (g := fun c : Bool × Nat × Nat => (c.1, c.2.1, c.2.2, i)) fun c c' hc => by
    simp only [Prod.mk.injEq, and_true] at hc
    exact Prod.ext hc.1 (Prod.ext hc.2.1 hc.2.2)

theorem MonteCarlo.toRun (h : MonteCarlo P N NQ x available missing table size dc dl out) :
    Run P N NQ x available missing table size dc dl out :=
  ⟨h.batch, h.blocks, h.dashless, h.components, by rw [h.method]; exact h.draws.values, h.run⟩

theorem highest_nonneg {rows : List (LSCap ℝ)} {curve : LSCap ℝ → ℝ} {S : Nat → Prop} {p : ℝ}
    (hp : Highest rows curve S p) : 0 ≤ p := hp.2 (Or.inl rfl)

theorem highest_lt {rows : List (LSCap ℝ)} {curve : LSCap ℝ → ℝ} {S : Nat → Prop} {p y : ℝ}
    (hp : Highest rows curve S p) (hy : 0 ≤ y) :
    y < p ↔ ∃ a ∈ rows, a.dist ≠ none ∧ S (numOf a.id) ∧ y < curve a := by
  constructor
  · intro hlt
    rcases hp.1 with rfl | ⟨a, ha, hd, hS, rfl⟩
    · exact absurd hlt (not_lt.2 hy)
    · exact ⟨a, ha, hd, hS, hlt⟩
  · rintro ⟨a, ha, hd, hS, hlt⟩
    exact lt_of_lt_of_le hlt (hp.2 (Or.inr ⟨a, ha, hd, hS, rfl⟩))

theorem highest_le {rows : List (LSCap ℝ)} {curve : LSCap ℝ → ℝ} {S S' : Nat → Prop} {p p' : ℝ}
    (hp : Highest rows curve S p) (hp' : Highest rows curve S' p') (h : ∀ n, S' n → S n) : p' ≤ p := by
  rcases hp'.1 with rfl | ⟨a, ha, hd, hS, rfl⟩
  · exact highest_nonneg hp
  · exact hp.2 (Or.inr ⟨a, ha, hd, h _ hS, rfl⟩)

theorem highest_one {rows : List (LSCap ℝ)} {curve : LSCap ℝ → ℝ} {S : Nat → Prop} {p : ℝ} {k : Nat} {q : ℚ}
    (hc : Curves N x rows k q curve) (hp : Highest rows curve S p) : p ≤ 1 := by
  rcases hp.1 with rfl | ⟨a, ha, hd, hS, rfl⟩
  · exact zero_le_one
  · exact (hc a ha hd).2.1

theorem numOf_inj {rows : List (LSCap ℝ)} (hc : Component rows) {a r : LSCap ℝ} (ha : a ∈ rows) (hr : r ∈ rows)
    (h : numOf a.id = numOf r.id) : a = r := by
  have h1 := (numOf_id hc ha).2.2
  have h2 := (numOf_id hc hr).2.2
  rw [h, ← h2] at h1
  exact List.inj_on_of_nodup_map hc.distinct ha hr h1

/-- The numbers for which the damage state is one of those of limit state `r`. -/
theorem Cell.range_iff {rows : List (LSCap ℝ)} (hc : Component rows) {curve : LSCap ℝ → ℝ} {y : ℝ} {w : Str → ℝ}
    {v : Int} (h : Cell rows curve y w v) (hy : 0 ≤ y) {r : LSCap ℝ} (hr : r ∈ rows) (hd : r.dist ≠ none) {p p' : ℝ}
    (hp : Highest rows curve (numOf r.id ≤ ·) p) (hp' : Highest rows curve (numOf r.id < ·) p') :
    ((statesBelow rows r : Int) < v ∧ v ≤ statesBelow rows r + states r) ↔ p' ≤ y ∧ y < p := by
  rw [h.above r, highest_lt hp hy, ← not_lt (a := y) (b := p'), highest_lt hp' hy]
  constructor
  · rintro ⟨h1, h2⟩
    refine ⟨?_, h1⟩
    rintro ⟨a, ha, hda, hlt, hya⟩
    have h3 := (h.above a).2 ⟨a, ha, hda, le_rfl, hya⟩
    have := statesBelow_add hr hd hlt
    omega
  · rintro ⟨h1, a, ha, hda, hle, hya⟩
    refine ⟨⟨a, ha, hda, hle, hya⟩, ?_⟩
    have e : numOf a.id = numOf r.id := by
      by_contra hne
      exact h1 ⟨a, ha, hda, by omega, hya⟩
    obtain rfl := numOf_inj hc ha hr e
    exact (h.own a ha hda hya fun b hb hdb hlt hyb => h1 ⟨b, hb, hdb, hlt, hyb⟩).1

theorem sum_take_mono {ws : List ℚ} (h : ∀ w ∈ ws, 0 ≤ w) {i j : Nat} (hij : i ≤ j) : (ws.take i).sum ≤ (ws.take j).sum :=
  UQ.take_sum_mono h hij

/-- The numbers that pick one damage state of limit state `r`. -/
theorem Cell.state_iff {rows : List (LSCap ℝ)} (hc : Component rows) {curve : LSCap ℝ → ℝ} {y : ℝ} {w : Str → ℝ}
    {v : Int} (h : Cell rows curve y w v) (hy : 0 ≤ y) {r : LSCap ℝ} (hr : r ∈ rows) (hd : r.dist ≠ none) {p p' : ℝ}
    (hp : Highest rows curve (numOf r.id ≤ ·) p) (hp' : Highest rows curve (numOf r.id < ·) p')
    {s : Str} {ws : List ℚ} (hs : r.weights = some s)
    (hws : List.Forall₂ (fun piece q => pyFloat? piece = some (.fin q)) (splitChar '|' (s.filter (· ≠ ' '))) ws)
    {j : Nat} (hj : j < ws.length) :
    v = statesBelow rows r + (j + 1) ↔ (p' ≤ y ∧ y < p) ∧ (((ws.take j).sum : ℚ) : ℝ) ≤ w r.id ∧
      (j + 1 = ws.length ∨ w r.id < (((ws.take (j + 1)).sum : ℚ) : ℝ)) := by
  have hnn : ∀ q ∈ ws, 0 ≤ q := by
    intro q hq
    obtain ⟨piece, hp, hpq⟩ := forall₂_mem_right hws hq
    exact hc.weights r hr s hs piece hp q hpq
  have hlen : ws.length = states r := by
    unfold states
    rw [hs]
    simp only
    refine DmgRVs.parseWeights_length ?_
    unfold DmgRVs.parseWeights
    rw [mapE_ok_iff]
    refine hws.imp fun a b hab => ?_
    simp only [hab]
  have hrange := h.range_iff hc hy hr hd hp hp'
  have hown : p' ≤ y ∧ y < p → ∃ k, k < ws.length ∧ v = statesBelow rows r + (k + 1) ∧
      (((ws.take k).sum : ℚ) : ℝ) ≤ w r.id ∧ (k + 1 = ws.length ∨ w r.id < (((ws.take (k + 1)).sum : ℚ) : ℝ)) := by
    rintro ⟨h1, h2⟩
    rw [highest_lt hp hy] at h2
    rw [← not_lt, highest_lt hp' hy] at h1
    obtain ⟨a, ha, hda, hle, hya⟩ := h2
    have e : numOf a.id = numOf r.id := by
      by_contra hne
      exact h1 ⟨a, ha, hda, by omega, hya⟩
    obtain rfl := numOf_inj hc ha hr e
    exact (h.own a ha hda hya fun b hb hdb hlt hyb => h1 ⟨b, hb, hdb, hlt, hyb⟩).2 s ws hs hws
  constructor
  · intro hv
    have h1 := hrange.1 ⟨by omega, by omega⟩
    obtain ⟨k, k1, k2, k3, k4⟩ := hown h1
    have : k = j := by omega
    subst this
    exact ⟨h1, k3, k4⟩
  · rintro ⟨h1, h2, h3⟩
    obtain ⟨k, k1, k2, k3, k4⟩ := hown h1
    have : k = j := by
      rcases Nat.lt_trichotomy k j with hlt | heq | hgt
      · rcases k4 with k4 | k4
        · omega
        · have : (((ws.take (k + 1)).sum : ℚ) : ℝ) ≤ (((ws.take j).sum : ℚ) : ℝ) := by
            exact_mod_cast sum_take_mono hnn (show k + 1 ≤ j by omega)
          linarith
      · exact heq
      · rcases h3 with h3 | h3
        · omega
        · have : (((ws.take (j + 1)).sum : ℚ) : ℝ) ≤ (((ws.take k).sum : ℚ) : ℝ) := by
            exact_mod_cast sum_take_mono hnn (show j + 1 ≤ k by omega)
          linarith
    rw [k2, this]

end Verif.DmgProb
