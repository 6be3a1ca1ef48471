import Verif.Model.DmgQty
import Verif.Props.DmgTasks
import Verif.Props.DmgRVs

/-! # Properties C41, C46 and C48: damaged quantities, all damage states, probabilities -/

namespace Verif.DmgQty

open Verif.DmgEval (BlockId)
open Verif.DmgTasks (Sample)
open Verif.DmgRVs (LSRow width defined)
open Verif.DemandReq (PGid)
open Verif.FileIO (uniqueVals labelLe uniqueVals_mem uniqueVals_nodup)

/-! ## C41 -/


theorem mem_dsSet (s : Sample) (b : BlockId) (v : Int) : v ∈ dsSet s b ↔ ∃ row ∈ s.rows, row b = v := by
  unfold dsSet
  rw [uniqueVals_mem]
  simp

theorem mem_dsKept (dropzero : Bool) (s : Sample) (b : BlockId) (v : Int) :
    v ∈ dsKept dropzero s b ↔ (∃ row ∈ s.rows, row b = v) ∧ v ≠ -1 ∧ (dropzero = true → v ≠ 0) := by
  unfold dsKept
  rw [List.mem_filter, mem_dsSet]
  cases dropzero <;> simp

theorem filter_pairs {α β : Type} [DecidableEq β] (b : α) (D : List β) (hD : D.Nodup) (ds : β) :
    (D.map fun d => (b, d)).filter (fun k => decide (k.2 = ds)) = if ds ∈ D then [(b, ds)] else [] := by
  induction D with
  | nil => rfl
  | cons d D ih =>
    rw [List.nodup_cons] at hD
    rw [List.map_cons]
    by_cases h : d = ds
    · subst h
      rw [List.filter_cons_of_pos (by simp), ih hD.2, if_neg hD.1, if_pos (by simp)]
    · rw [List.filter_cons_of_neg (by simpa using h), ih hD.2]
      have : ¬ ds = d := fun x => h x.symm
      by_cases h2 : ds ∈ D
      · rw [if_pos h2, if_pos (by simp [h2])]
      · rw [if_neg h2, if_neg (by simp [h2, this])]

theorem series_filter (dropzero : Bool) (s : Sample) (pg : PGid) (ds : Int) :
    (seriesKeys dropzero s).filter (fun k => decide (pgOf k.1 = pg ∧ k.2 = ds)) =
      (s.cols.filter fun b => decide (pgOf b = pg ∧ ds ∈ dsKept dropzero s b)).map fun b => (b, ds) := by
  unfold seriesKeys
  generalize s.cols = cols
  induction cols with
  | nil => rfl
  | cons b cols ih =>
    rw [List.flatMap_cons, List.filter_append, ih]
    have hb : ((dsKept dropzero s b).map fun d => (b, d)).filter (fun k => decide (pgOf k.1 = pg ∧ k.2 = ds)) =
        if pgOf b = pg ∧ ds ∈ dsKept dropzero s b then [(b, ds)] else [] := by
      by_cases hpg : pgOf b = pg
      · have : ((dsKept dropzero s b).map fun d => (b, d)).filter (fun k => decide (pgOf k.1 = pg ∧ k.2 = ds)) =
            ((dsKept dropzero s b).map fun d => (b, d)).filter (fun k => decide (k.2 = ds)) := by
          apply List.filter_congr
          intro k hk
          obtain ⟨d, _, rfl⟩ := List.mem_map.1 hk
          simp [hpg]
        have hnd : (dsKept dropzero s b).Nodup := (uniqueVals_nodup _ _).filter _
        rw [this, filter_pairs b _ hnd ds]
        simp [hpg]
      · rw [if_neg fun h => hpg h.1, List.filter_eq_nil_iff]
        intro k hk
        obtain ⟨d, _, rfl⟩ := List.mem_map.1 hk
        simp [hpg]
    rw [hb]
    by_cases h : pgOf b = pg ∧ ds ∈ dsKept dropzero s b
    · rw [if_pos h, List.filter_cons_of_pos (by simpa using h)]
      rfl
    · rw [if_neg h, List.filter_cons_of_neg (by simpa using h)]
      rfl

theorem cell_eq (s : Sample) (b : BlockId) (q n : ℚ) (ds : Int) (row : BlockId → Int) (hrow : row ∈ s.rows) :
    cell (decide (-1 ∈ dsSet s b)) q n ds (row b) = if row b = -1 then none else some (if row b = ds then q / n else 0) := by
  unfold cell
  by_cases h : row b = -1
  · have : -1 ∈ dsSet s b := (mem_dsSet s b _).2 ⟨row, hrow, h⟩
    simp [this, h]
  · by_cases h2 : -1 ∈ dsSet s b <;> simp [h, h2]

theorem sum_cells (l : List BlockId) (row : BlockId → Int) (ds : Int) (x : ℚ) (hds : ds ≠ -1) :
    (l.filterMap fun b => if row b = -1 then none else some (if row b = ds then x else 0)).sum =
      x * (l.countP fun b => decide (row b = ds) : ℕ) := by
  induction l with
  | nil => simp
  | cons b l ih =>
    by_cases h1 : row b = -1
    · have : ¬ row b = ds := fun h => hds (h ▸ h1)
      rw [List.filterMap_cons_none (by simp [h1]), ih, List.countP_cons_of_neg (by simpa using this)]
    · rw [List.filterMap_cons_some (b := if row b = ds then x else 0) (by simp [h1]), List.sum_cons, ih]
      by_cases h2 : row b = ds
      · rw [if_pos h2, List.countP_cons_of_pos (by simpa using h2)]
        push_cast
        ring
      · rw [if_neg h2, List.countP_cons_of_neg (by simpa using h2)]
        ring

/-- The number of blocks of the performance group in damage state `ds`. -/
def blocksInGroup (cols : List BlockId) (pg : PGid) (row : BlockId → Int) (ds : Int) : ℕ :=
  cols.countP fun b => decide (pgOf b = pg ∧ row b = ds)

theorem quantity_spec (dropzero : Bool) (s : Sample) (blocks : PGid → ℚ) (pg : PGid) (ds : Int)
    (row : BlockId → Int) (hrow : row ∈ s.rows) (qty : PGid → ℚ) (hds : ds ≠ -1) (hz : dropzero = true → ds ≠ 0) :
    (quantity dropzero s blocks pg ds row qty = none ↔
      ∀ b ∈ s.cols, pgOf b = pg → (∃ r ∈ s.rows, r b = ds) → row b = -1) ∧
    ∀ x, quantity dropzero s blocks pg ds row qty = some x →
      x = qty pg / blocks pg * (blocksInGroup s.cols pg row ds : ℕ) := by
  unfold quantity
  rw [series_filter, List.map_map]
  have hmap : (s.cols.filter fun b => decide (pgOf b = pg ∧ ds ∈ dsKept dropzero s b)).map
        ((fun k : BlockId × Int => cell (decide (-1 ∈ dsSet s k.1)) (qty (pgOf k.1)) (blocks (pgOf k.1)) k.2 (row k.1)) ∘
          fun b => (b, ds)) =
      (s.cols.filter fun b => decide (pgOf b = pg ∧ ds ∈ dsKept dropzero s b)).map
        fun b => if row b = -1 then none else some (if row b = ds then qty pg / blocks pg else 0) := by
    apply List.map_congr_left
    intro b hb
    rw [List.mem_filter, decide_eq_true_eq] at hb
    simp only [Function.comp]
    rw [cell_eq s b _ _ ds row hrow, hb.2.1]
  rw [hmap]
  unfold sumMin1
  rw [List.filterMap_map, Function.id_comp]
  have hnil : (s.cols.filter fun b => decide (pgOf b = pg ∧ ds ∈ dsKept dropzero s b)).filterMap
      (fun b => if row b = -1 then none else some (if row b = ds then qty pg / blocks pg else 0)) = [] ↔
      ∀ b ∈ s.cols, pgOf b = pg → (∃ r ∈ s.rows, r b = ds) → row b = -1 := by
    rw [List.filterMap_eq_nil_iff]
    constructor
    · intro h b hb hpg hr
      have := h b (List.mem_filter.2 ⟨hb, by simp only [decide_eq_true_eq]; exact ⟨hpg, (mem_dsKept ..).2 ⟨hr, hds, hz⟩⟩⟩)
      by_contra hne
      simp [hne] at this
    · intro h b hb
      rw [List.mem_filter, decide_eq_true_eq, mem_dsKept] at hb
      rw [if_pos (h b hb.1 hb.2.1 hb.2.2.1)]
  constructor
  · rw [← hnil]
    split
    · rename_i h; simpa using h
    · rename_i h; simpa using h
  · intro x hx
    split at hx
    · simp at hx
    · cases hx
      rw [sum_cells _ _ _ _ hds]
      congr 2
      unfold blocksInGroup
      rw [List.countP_filter]
      apply List.countP_congr
      intro b hb
      simp only [Bool.and_eq_true, decide_eq_true_eq, mem_dsKept]
      constructor
      · rintro ⟨h1, h2, _⟩; exact ⟨h2, h1⟩
      · rintro ⟨h1, h2⟩; exact ⟨h2, h1, ⟨row, hrow, h2⟩, hds, hz⟩

theorem prepare_ok {dropzero : Bool} {s : Sample} {blocks : PGid → ℚ} {qty : List (PGid → ℚ)} {t : Table}
    (h : prepare dropzero s blocks qty = .ok t) :
    t = (pySort keyLe (uniqueVals [] ((seriesKeys dropzero s).map fun k => (pgOf k.1, k.2)))).map fun key =>
      (key, (s.rows.zip qty).map fun r => quantity dropzero s blocks key.1 key.2 r.1 r.2) := by
  unfold prepare at h
  cases hk : seriesKeys dropzero s with
  | nil => rw [hk] at h; simp at h
  | cons k ks => rw [hk] at h; simp only [Except.ok.injEq] at h; rw [← h]

theorem mem_keys (dropzero : Bool) (s : Sample) (pg : PGid) (ds : Int) :
    (pg, ds) ∈ pySort keyLe (uniqueVals [] ((seriesKeys dropzero s).map fun k => (pgOf k.1, k.2))) ↔
      ds ≠ -1 ∧ (dropzero = true → ds ≠ 0) ∧ ∃ b ∈ s.cols, pgOf b = pg ∧ ∃ row ∈ s.rows, row b = ds := by
  rw [mem_pySort, uniqueVals_mem]
  simp only [List.mem_map, List.not_mem_nil, not_false_eq_true, and_true, seriesKeys, List.mem_flatMap, Prod.mk.injEq]
  constructor
  · rintro ⟨k, ⟨b, hb, d, hd, rfl⟩, h1, h2⟩
    simp only at h1 h2
    subst h2
    obtain ⟨h3, h4, h5⟩ := (mem_dsKept ..).1 hd
    exact ⟨h4, h5, b, hb, h1, h3⟩
  · rintro ⟨h1, h2, b, hb, hpg, hr⟩
    exact ⟨(b, ds), ⟨b, hb, ds, (mem_dsKept ..).2 ⟨hr, h1, h2⟩, rfl⟩, hpg, rfl⟩

theorem q_columns (dropzero : Bool) (s : Sample) (blocks : PGid → ℚ) (qty : List (PGid → ℚ)) (t : Table)
    (h : prepare dropzero s blocks qty = .ok t) :
    (t.map (·.1)).Nodup ∧ ∀ pg ds, (pg, ds) ∈ t.map (·.1) ↔
      ds ≠ -1 ∧ (dropzero = true → ds ≠ 0) ∧ ∃ b ∈ s.cols, pgOf b = pg ∧ ∃ row ∈ s.rows, row b = ds := by
  rw [prepare_ok h, List.map_map]
  have : ((fun c : (PGid × Int) × List (Option ℚ) => c.1) ∘ fun key : PGid × Int =>
      (key, (s.rows.zip qty).map fun r => quantity dropzero s blocks key.1 key.2 r.1 r.2)) = id := rfl
  rw [this, List.map_id]
  exact ⟨(pySort_perm _ _).nodup_iff.2 (uniqueVals_nodup _ _), fun pg ds => mem_keys dropzero s pg ds⟩

theorem q_quantity (dropzero : Bool) (s : Sample) (blocks : PGid → ℚ) (qty : List (PGid → ℚ)) (t : Table)
    (h : prepare dropzero s blocks qty = .ok t) (pg : PGid) (ds : Int) (vals : List (Option ℚ)) (hv : ((pg, ds), vals) ∈ t)
    (i : Nat) (row : BlockId → Int) (q : PGid → ℚ) (hr : s.rows[i]? = some row) (hq : qty[i]? = some q) :
    ∃ v, vals[i]? = some v ∧
      (v = none ↔ ∀ b ∈ s.cols, pgOf b = pg → (∃ r ∈ s.rows, r b = ds) → row b = -1) ∧
      ∀ x, v = some x → x = q pg / blocks pg * (blocksInGroup s.cols pg row ds : ℕ) := by
  have hkey := ((q_columns dropzero s blocks qty t h).2 pg ds).1 (List.mem_map.2 ⟨_, hv, rfl⟩)
  rw [prepare_ok h] at hv
  obtain ⟨key, _, hk⟩ := List.mem_map.1 hv
  simp only [Prod.mk.injEq] at hk
  obtain ⟨rfl, rfl⟩ := hk
  refine ⟨quantity dropzero s blocks pg ds row q, ?_, ?_⟩
  · rw [List.getElem?_map, List.getElem?_zip_eq_some (z := (row, q)) |>.2 ⟨hr, hq⟩]
    rfl
  · exact quantity_spec dropzero s blocks pg ds row (List.mem_of_getElem? hr) q hkey.1 hkey.2.1

/-- The total of a performance group over the damage states in realization `i`; missing values count
as zero. -/
def total (t : Table) (pg : PGid) (i : Nat) : ℚ :=
  ((t.filter fun c => decide (c.1.1 = pg)).map fun c => ((c.2[i]?).join).getD 0).sum

theorem sum_counts {α : Type} (l : List α) (D : List Int) (hD : D.Nodup) (f : α → Int) (p : α → Prop) [DecidablePred p] :
    (D.map fun d => (l.countP fun b => decide (p b ∧ f b = d))).sum = l.countP fun b => decide (p b ∧ f b ∈ D) := by
  induction D with
  | nil => simp
  | cons d D ih =>
    rw [List.nodup_cons] at hD
    rw [List.map_cons, List.sum_cons, ih hD.2]
    clear ih
    induction l with
    | nil => simp
    | cons b l ih =>
      simp only [List.countP_cons]
      rw [← ih]
      generalize List.countP (fun b => decide (p b ∧ f b = d)) l = A
      generalize List.countP (fun b => decide (p b ∧ f b ∈ D)) l = B
      by_cases h1 : p b
      · by_cases h2 : f b = d
        · have : d ∉ D := hD.1
          simp [h1, h2, this]
          omega
        · by_cases h3 : f b ∈ D
          · simp [h1, h2, h3]
            omega
          · simp [h1, h2, h3]
      · simp [h1]

theorem q_total (s : Sample) (blocks : PGid → ℚ) (qty : List (PGid → ℚ)) (t : Table)
    (h : prepare false s blocks qty = .ok t) (pg : PGid)
    (i : Nat) (row : BlockId → Int) (q : PGid → ℚ) (hr : s.rows[i]? = some row) (hq : qty[i]? = some q) :
    total t pg i = q pg / blocks pg * (s.cols.countP fun b => decide (pgOf b = pg ∧ row b ≠ -1) : ℕ) := by
  obtain ⟨hnd, hkeys⟩ := q_columns false s blocks qty t h
  have hcell : ∀ c ∈ t.filter (fun c => decide (c.1.1 = pg)),
      ((c.2[i]?).join).getD 0 = q pg / blocks pg * (blocksInGroup s.cols pg row c.1.2 : ℕ) := by
    intro c hc
    rw [List.mem_filter, decide_eq_true_eq] at hc
    obtain ⟨⟨⟨pg', ds⟩, vals⟩, rfl⟩ : ∃ x, x = c := ⟨c, rfl⟩
    simp only at hc
    obtain ⟨hc, rfl⟩ := hc
    obtain ⟨v, h1, h2, h3⟩ := q_quantity false s blocks qty t h pg' ds vals hc i row q hr hq
    simp only [h1, Option.join_some]
    cases v with
    | some x => simp [h3 x rfl]
    | none =>
      have hall := h2.1 rfl
      have h0 : blocksInGroup s.cols pg' row ds = 0 := by
        unfold blocksInGroup
        rw [List.countP_eq_zero]
        intro b hb
        rw [decide_eq_true_eq]
        rintro ⟨hb1, hb2⟩
        have hkey := (hkeys pg' ds).1 (List.mem_map.2 ⟨_, hc, rfl⟩)
        exact hkey.1 (hb2 ▸ hall b hb hb1 ⟨row, List.mem_of_getElem? hr, hb2⟩)
      simp [h0]
  unfold total
  rw [List.map_congr_left hcell]
  have hfac : ∀ l : List ((PGid × Int) × List (Option ℚ)), (l.map fun c => q pg / blocks pg * (blocksInGroup s.cols pg row c.1.2 : ℕ)).sum =
      q pg / blocks pg * ((l.map fun c => c.1.2).map fun d => blocksInGroup s.cols pg row d).sum := by
    intro l
    induction l with
    | nil => simp
    | cons a l ih => simp only [List.map_cons, List.sum_cons, ih]; push_cast; ring
  rw [hfac]
  have hD : ((t.filter fun c => decide (c.1.1 = pg)).map fun c => c.1.2).Nodup := by
    rw [List.nodup_map_iff_inj_on]
    · intro a ha b hb hab
      rw [List.mem_filter, decide_eq_true_eq] at ha hb
      have : a.1 = b.1 := Prod.ext (ha.2.trans hb.2.symm) hab
      exact List.inj_on_of_nodup_map hnd ha.1 hb.1 this
    · exact (List.Nodup.of_map _ hnd).filter _
  unfold blocksInGroup
  rw [sum_counts _ _ hD]
  congr 2
  apply List.countP_congr
  intro b hb
  simp only [decide_eq_true_eq]
  constructor
  · rintro ⟨h1, h2⟩
    refine ⟨h1, ?_⟩
    obtain ⟨c, hc, hc2⟩ := List.mem_map.1 h2
    rw [List.mem_filter] at hc
    rw [← hc2]
    exact ((hkeys c.1.1 c.1.2).1 (List.mem_map.2 ⟨c, hc.1, rfl⟩)).1
  · rintro ⟨h1, h2⟩
    refine ⟨h1, ?_⟩
    have : (pg, row b) ∈ t.map (·.1) := (hkeys pg (row b)).2
      ⟨h2, by simp, b, hb, h1, row, List.mem_of_getElem? hr, rfl⟩
    obtain ⟨c, hc, hc2⟩ := List.mem_map.1 this
    exact List.mem_map.2 ⟨c, List.mem_filter.2 ⟨hc, by simp [hc2]⟩, by rw [hc2]⟩

theorem q_total_is_quantity (s : Sample) (blocks : PGid → ℚ) (qty : List (PGid → ℚ)) (t : Table)
    (h : prepare false s blocks qty = .ok t) (pg : PGid) (hb0 : blocks pg ≠ 0)
    (hb : blocks pg = (s.cols.countP fun b => decide (pgOf b = pg) : ℕ))
    (i : Nat) (row : BlockId → Int) (q : PGid → ℚ) (hr : s.rows[i]? = some row) (hq : qty[i]? = some q)
    (hna : ∀ b ∈ s.cols, pgOf b = pg → row b ≠ -1) : total t pg i = q pg := by
  rw [q_total s blocks qty t h pg i row q hr hq]
  have : (s.cols.countP fun b => decide (pgOf b = pg ∧ row b ≠ -1)) = s.cols.countP fun b => decide (pgOf b = pg) := by
    apply List.countP_congr
    intro b hb
    simp only [decide_eq_true_eq]
    exact ⟨fun x => x.1, fun x => ⟨x, hna b hb x⟩⟩
  rw [this, ← hb]
  field_simp

/-- The performance group that a block belongs to. -/
def groupOf (b : BlockId) : PGid := ⟨b.cmp, b.loc, b.dir, b.uid⟩

/-- The number of blocks of the performance group in damage state `ds`. -/
def blocksIn (cols : List BlockId) (pg : PGid) (row : BlockId → Int) (ds : Int) : ℕ :=
  cols.countP fun b => decide (groupOf b = pg ∧ row b = ds)

/-- C41: the table has one column for each performance group and damage state that some block of the
group takes in some realization (not NA, and not 0 if undamaged quantities are dropped). -/
theorem C41_columns (dropzero : Bool) (s : Sample) (blocks : PGid → ℚ) (qty : List (PGid → ℚ)) (t : Table)
    (h : prepare dropzero s blocks qty = .ok t) :
    (t.map (·.1)).Nodup ∧ ∀ pg ds, (pg, ds) ∈ t.map (·.1) ↔
      ds ≠ -1 ∧ (dropzero = true → ds ≠ 0) ∧ ∃ b ∈ s.cols, groupOf b = pg ∧ ∃ row ∈ s.rows, row b = ds :=
  q_columns dropzero s blocks qty t h

/-- C41: the quantity in a damage state is the component quantity times the share of the blocks in
that state; it is missing exactly when all blocks of the group that ever reach the state are NA. -/
theorem C41_quantity (dropzero : Bool) (s : Sample) (blocks : PGid → ℚ) (qty : List (PGid → ℚ)) (t : Table)
    (h : prepare dropzero s blocks qty = .ok t) (pg : PGid) (ds : Int) (vals : List (Option ℚ)) (hv : ((pg, ds), vals) ∈ t)
    (i : Nat) (row : BlockId → Int) (q : PGid → ℚ) (hr : s.rows[i]? = some row) (hq : qty[i]? = some q) :
    ∃ v, vals[i]? = some v ∧
      (v = none ↔ ∀ b ∈ s.cols, groupOf b = pg → (∃ r ∈ s.rows, r b = ds) → row b = -1) ∧
      ∀ x, v = some x → x = q pg / blocks pg * (blocksIn s.cols pg row ds : ℕ) :=
  q_quantity dropzero s blocks qty t h pg ds vals hv i row q hr hq

/-- C41: over all damage states, including the undamaged one, the quantities of a group add up to the
component quantity times the share of the blocks that have a defined damage state. -/
theorem C41_total (s : Sample) (blocks : PGid → ℚ) (qty : List (PGid → ℚ)) (t : Table)
    (h : prepare false s blocks qty = .ok t) (pg : PGid)
    (i : Nat) (row : BlockId → Int) (q : PGid → ℚ) (hr : s.rows[i]? = some row) (hq : qty[i]? = some q) :
    total t pg i = q pg / blocks pg * (s.cols.countP fun b => decide (groupOf b = pg ∧ row b ≠ -1) : ℕ) :=
  q_total s blocks qty t h pg i row q hr hq

/-- C41: in a realization in which no block of the group is NA, and with as many block columns as
blocks, the total is the component quantity. -/
theorem C41_total_is_quantity (s : Sample) (blocks : PGid → ℚ) (qty : List (PGid → ℚ)) (t : Table)
    (h : prepare false s blocks qty = .ok t) (pg : PGid) (hb0 : blocks pg ≠ 0)
    (hb : blocks pg = (s.cols.countP fun b => decide (groupOf b = pg) : ℕ))
    (i : Nat) (row : BlockId → Int) (q : PGid → ℚ) (hr : s.rows[i]? = some row) (hq : qty[i]? = some q)
    (hna : ∀ b ∈ s.cols, groupOf b = pg → row b ≠ -1) : total t pg i = q pg :=
  q_total_is_quantity s blocks qty t h pg hb0 hb i row q hr hq hna

/-- C41: there is a table unless every block is NA (or undamaged, if undamaged quantities are dropped) in all
realizations. -/
theorem C41_refused_iff (dropzero : Bool) (s : Sample) (blocks : PGid → ℚ) (qty : List (PGid → ℚ)) :
    prepare dropzero s blocks qty = .error .valueError ↔
      ∀ b ∈ s.cols, ∀ row ∈ s.rows, row b = -1 ∨ (dropzero = true ∧ row b = 0) := by
  have hk : seriesKeys dropzero s = [] ↔
      ∀ b ∈ s.cols, ∀ row ∈ s.rows, row b = -1 ∨ (dropzero = true ∧ row b = 0) := by
    unfold seriesKeys
    rw [List.flatMap_eq_nil_iff]
    refine forall₂_congr fun b _ => ?_
    rw [List.map_eq_nil_iff, List.eq_nil_iff_forall_not_mem]
    constructor
    · intro h row hrow
      have := h (row b)
      rw [mem_dsKept] at this
      by_contra hc
      push Not at hc
      exact this ⟨⟨row, hrow, rfl⟩, hc.1, hc.2⟩
    · intro h v hv
      rw [mem_dsKept] at hv
      obtain ⟨⟨row, hrow, rfl⟩, h1, h2⟩ := hv
      rcases h row hrow with h3 | ⟨h3, h4⟩
      · exact h1 h3
      · exact h2 h3 h4
  rw [← hk]
  unfold prepare
  cases seriesKeys dropzero s with
  | nil => simp
  | cons k ks => simp

/-- C41: no damaged quantity is negative if the component quantities and block counts are not. -/
theorem C41_nonneg (dropzero : Bool) (s : Sample) (blocks : PGid → ℚ) (qty : List (PGid → ℚ)) (t : Table)
    (h : prepare dropzero s blocks qty = .ok t) (hb : ∀ pg, 0 ≤ blocks pg) (hq : ∀ q ∈ qty, ∀ pg, 0 ≤ q pg) :
    ∀ c ∈ t, ∀ x, some x ∈ c.2 → 0 ≤ x := by
  intro c hc x hx
  obtain ⟨⟨pg, ds⟩, vals⟩ := c
  simp only at hx
  have hvals := hc
  rw [prepare_ok h] at hvals
  obtain ⟨key, _, hk⟩ := List.mem_map.1 hvals
  simp only [Prod.mk.injEq] at hk
  obtain ⟨i, hi⟩ := List.mem_iff_getElem?.1 hx
  have hlt : i < vals.length := by
    by_contra hge
    rw [List.getElem?_eq_none (by omega)] at hi
    cases hi
  rw [← hk.2, List.length_map, List.length_zip] at hlt
  have hr : s.rows[i]? = some (s.rows[i]'(by omega)) := List.getElem?_eq_getElem _
  have hq' : qty[i]? = some (qty[i]'(by omega)) := List.getElem?_eq_getElem _
  obtain ⟨v, h1, _, h3⟩ := q_quantity dropzero s blocks qty t h pg ds vals hc i _ _ hr hq'
  rw [hi] at h1
  cases h1
  rw [h3 x rfl]
  have := hq _ (List.mem_of_getElem? hq') pg
  have := hb pg
  positivity

/-- One group of two blocks, three realizations: the second has one block damaged, in the third one
block is NA. -/
def exB (i : String) : BlockId := ⟨str "A", str "1", str "1", str "0", str i⟩
def exS : Sample := ⟨[exB "1", exB "2"], [fun _ => 0, fun b => if b = exB "1" then 1 else 0,
  fun b => if b = exB "1" then -1 else 1]⟩

example : prepare false exS (fun _ => 2) [fun _ => 10, fun _ => 20, fun _ => 30] =
    .ok [((⟨str "A", str "1", str "1", str "0"⟩, 0), [some 10, some 10, some 0]),
         ((⟨str "A", str "1", str "1", str "0"⟩, 1), [some 0, some 10, some 15])] := by
  decide +kernel

/-! ## C48 -/

/-- C48: the probabilities of a block are the shares of its damage states among the realizations that
are not NA; they are positive, at most one and add up to one. -/
theorem C48_distribution (s : Sample) (r : List (BlockId × Option (List (Int × ℚ)))) (h : probabilities s = .ok r)
    (b : BlockId) (l : List (Int × ℚ)) (hb : (b, some l) ∈ r) :
    (∀ ds p, (ds, p) ∈ l → ds ≠ -1 ∧ (∃ row ∈ s.rows, row b = ds) ∧ 0 < p ∧ p ≤ 1 ∧
      p * (s.rows.countP fun row => decide (row b ≠ -1) : ℕ) = (s.rows.countP fun row => decide (row b = ds) : ℕ)) ∧
    (∀ row ∈ s.rows, row b ≠ -1 → row b ∈ l.map (·.1)) ∧ (l.map (·.1)).Nodup ∧ (l.map (·.2)).sum = 1 := by
  have hbp : blockProbs s b = some l := by
    unfold probabilities at h
    split at h
    · split at h
      · cases h; simp at hb
      · simp at h
    · cases h
      obtain ⟨b', _, heq⟩ := List.mem_map.1 hb
      simp only [Prod.mk.injEq] at heq
      obtain ⟨rfl, h2⟩ := heq
      exact h2
  clear hb h
  unfold blockProbs at hbp
  simp only at hbp
  have hne : (s.rows.map fun row => row b).filter (fun v => decide (v ≠ -1)) ≠ [] := by
    intro h0; rw [if_pos h0] at hbp; cases hbp
  rw [if_neg hne] at hbp
  have hcount : ∀ ds, ds ≠ -1 → ((s.rows.map fun row => row b).filter (fun v => decide (v ≠ -1))).count ds =
      s.rows.countP fun row => decide (row b = ds) := by
    intro ds hds
    rw [List.count_filter (by simpa using hds), List.count, List.countP_map]
    apply List.countP_congr
    intro row _
    simp
  have hlen : ((s.rows.map fun row => row b).filter (fun v => decide (v ≠ -1))).length =
      s.rows.countP fun row => decide (row b ≠ -1) := by
    rw [← List.countP_eq_length_filter, List.countP_map]
    rfl
  generalize hv : (s.rows.map fun row => row b).filter (fun v => decide (v ≠ -1)) = values at *
  cases hbp
  have hpos : (0 : ℚ) < (values.length : ℚ) := by
    have : 0 < values.length := List.length_pos_iff.2 hne
    exact_mod_cast this
  refine ⟨?_, ?_, ?_, ?_⟩
  · intro ds p hp
    obtain ⟨d, hd, heq⟩ := List.mem_map.1 hp
    simp only [Prod.mk.injEq] at heq
    obtain ⟨rfl, rfl⟩ := heq
    have hdv : d ∈ values := ((uniqueVals_mem _ _ _).1 hd).1
    have hd' := hdv
    rw [← hv, List.mem_filter, decide_eq_true_eq] at hd'
    obtain ⟨row, hrow, hrd⟩ := List.mem_map.1 hd'.1
    refine ⟨hd'.2, ⟨row, hrow, hrd⟩, ?_, ?_, ?_⟩
    · have : 0 < values.count d := List.count_pos_iff.2 hdv
      have : (0 : ℚ) < (values.count d : ℚ) := by exact_mod_cast this
      positivity
    · rw [div_le_one hpos]
      exact_mod_cast List.count_le_length
    · rw [← hlen, ← hcount d hd'.2]
      field_simp
  · intro row hrow hna
    rw [List.map_map]
    refine List.mem_map.2 ⟨row b, (uniqueVals_mem _ _ _).2 ⟨?_, by simp⟩, rfl⟩
    rw [← hv]
    exact List.mem_filter.2 ⟨List.mem_map.2 ⟨row, hrow, rfl⟩, by simpa using hna⟩
  · rw [List.map_map]
    have : ((fun x : Int × ℚ => x.1) ∘ fun ds => (ds, (values.count ds : ℚ) / (values.length : ℚ))) = id := rfl
    rw [this, List.map_id]
    exact uniqueVals_nodup _ _
  · rw [List.map_map]
    have hs := sum_counts values (uniqueVals [] values) (uniqueVals_nodup _ _) id (fun _ => True)
    have h1 : ∀ D : List Int, (D.map ((fun x : Int × ℚ => x.2) ∘ fun ds => (ds, (values.count ds : ℚ) / (values.length : ℚ)))).sum =
        ((D.map fun d => values.count d).sum : ℕ) / (values.length : ℚ) := by
      intro D
      induction D with
      | nil => simp
      | cons d D ih =>
        rw [List.map_cons, List.sum_cons, ih, List.map_cons, List.sum_cons]
        simp only [Function.comp]
        push_cast
        ring
    rw [h1]
    have h2 : ((uniqueVals [] values).map fun d => values.count d).sum = values.length := by
      have e1 : (fun d => values.count d) = fun d => values.countP fun b => decide (True ∧ id b = d) := by
        funext d
        rw [List.count]
        apply List.countP_congr
        intro x _
        simp
      rw [e1, hs, List.countP_eq_length]
      intro x hx
      simp only [id, true_and, decide_eq_true_eq]
      exact (uniqueVals_mem _ _ _).2 ⟨hx, by simp⟩
    rw [h2]
    field_simp

/-- C48: the result has one entry for each block. -/
theorem C48_blocks (s : Sample) (r : List (BlockId × Option (List (Int × ℚ)))) (h : probabilities s = .ok r) :
    r.map (·.1) = s.cols := by
  unfold probabilities at h
  split at h
  · split at h
    · rename_i h0; cases h; rw [h0]; rfl
    · simp at h
  · cases h
    rw [List.map_map]
    exact List.map_id _

/-- C48: a block has no probabilities exactly when it is NA in all realizations; if that is so for
all blocks, the method fails. -/
theorem C48_all_na (s : Sample) :
    (∀ r, probabilities s = .ok r → ∀ b ∈ s.cols, (b, none) ∈ r ↔ ∀ row ∈ s.rows, row b = -1) ∧
    (probabilities s = .error .valueError ↔ s.cols ≠ [] ∧ ∀ b ∈ s.cols, ∀ row ∈ s.rows, row b = -1) := by
  have hnone : ∀ b, blockProbs s b = none ↔ ∀ row ∈ s.rows, row b = -1 := by
    intro b
    unfold blockProbs
    simp only
    rw [ite_eq_left_iff]
    simp only [reduceCtorEq, imp_false, not_not, List.filter_eq_nil_iff, List.mem_map, decide_eq_true_eq,
      forall_exists_index, and_imp, forall_apply_eq_imp_iff₂]
  constructor
  · intro r h b hb
    unfold probabilities at h
    split at h
    · split at h
      · rename_i hc; rw [hc] at hb; simp at hb
      · simp at h
    · cases h
      rw [← hnone b]
      constructor
      · intro hm
        obtain ⟨b', _, heq⟩ := List.mem_map.1 hm
        simp only [Prod.mk.injEq] at heq
        obtain ⟨rfl, h2⟩ := heq
        exact h2
      · intro hn
        exact List.mem_map.2 ⟨b, hb, by rw [hn]⟩
  · unfold probabilities
    have hall : (s.cols.all fun b => (blockProbs s b).isNone) = true ↔ ∀ b ∈ s.cols, ∀ row ∈ s.rows, row b = -1 := by
      rw [List.all_eq_true]
      constructor
      · intro h b hb; exact (hnone b).1 (by simpa using h b hb)
      · intro h b hb; simpa using (hnone b).2 (h b hb)
    by_cases h : (s.cols.all fun b => (blockProbs s b).isNone) = true
    · rw [if_pos h]
      by_cases hc : s.cols = []
      · rw [if_pos hc]; simp [hc]
      · rw [if_neg hc]; simp [hc]; exact hall.1 h
    · rw [if_neg h]
      simp only [reduceCtorEq, false_iff, not_and]
      intro _ hh
      exact h (hall.2 hh)

example : probabilities exS = .ok [(exB "1", some [(0, 1 / 2), (1, 1 / 2)]), (exB "2", some [(0, 2 / 3), (1, 1 / 3)])] := by
  decide +kernel

/-! ## C46 -/

/-- The number of damage states of a component: one for each defined limit state without weights and
one per weight for the others. -/
theorem dsCount_eq (rows : List LSRow) : dsCount rows = ((defined rows).map width).sum := by
  unfold dsCount
  have : ∀ n, rows.foldl addStates n = n + ((defined rows).map width).sum := by
    induction rows with
    | nil => intro n; simp [defined]
    | cons r rows ih =>
      intro n
      rw [List.foldl_cons, ih]
      unfold defined addStates
      cases ht : r.theta0 with
      | none => rw [List.filter_cons_of_neg (by simp [ht])]
      | some q =>
        rw [List.filter_cons_of_pos (by simp [ht]), List.map_cons, List.sum_cons]
        unfold width
        cases hw : r.weights with
        | none => simp only; omega
        | some w => simp only [DmgRVs.splitChar_length]; omega
  simpa using this 0

theorem map_keys {α β : Type} (L : List α) (f : α → β) : (L.map fun k => (k, f k)).map (·.1) = L := by
  rw [List.map_map]
  exact List.map_id _

/-- C46: the completed table has for each performance group of the sample exactly the damage states
`0, ..., n`, where `n` is the number of damage states of the component (the sum of the widths of its
defined limit states, see C39); columns of the sample keep their values and the others are zero. -/
theorem C46_all_states (params : List (Str × List LSRow)) (n : Nat) (t t' : Table)
    (h : complete params n t = .ok t') :
    (∀ (pg : PGid) (ds : Int), (pg, ds) ∈ t'.map (·.1) ↔ (∃ d, (pg, d) ∈ t.map (·.1)) ∧
      ∃ rows, (pg.cmp, rows) ∈ params ∧ 0 ≤ ds ∧ ds ≤ ((defined rows).map width).sum) ∧
    (∀ k v, (k, v) ∈ t' → Dict.get? t k = some v ∨ (k ∉ t.map (·.1) ∧ v = List.replicate n (some 0))) ∧
    (∀ k ∈ t.map (·.1), k ∈ t'.map (·.1)) := by
  have hlab : ∀ (pg : PGid) (ds : Int), (pg, ds) ∈ allLabels params t ↔ (∃ d, (pg, d) ∈ t.map (·.1)) ∧
      ∃ rows, (pg.cmp, rows) ∈ params ∧ 0 ≤ ds ∧ ds ≤ ((defined rows).map width).sum := by
    intro pg ds
    unfold allLabels header
    simp only [List.mem_flatMap, List.mem_map, List.mem_filter, mem_pySort, uniqueVals_mem, List.mem_range,
      decide_eq_true_eq, Prod.mk.injEq, List.not_mem_nil, not_false_eq_true, and_true, dsCount_eq]
    constructor
    · rintro ⟨p, hp, d, hd, pg', ⟨⟨c, hc, hc2⟩, hcmp⟩, rfl, rfl⟩
      refine ⟨⟨c.1.2, c, hc, by rw [← hc2]⟩, p.2, by rw [hcmp]; exact hp, by omega, by omega⟩
    · rintro ⟨⟨d, c, hc, hc2⟩, rows, hrows, h0, hle⟩
      refine ⟨_, hrows, ds.toNat, by simp only; omega, pg, ⟨⟨c, hc, by rw [hc2]⟩, rfl⟩, rfl, by omega⟩
  unfold complete at h
  simp only at h
  split at h
  · simp at h
  · split at h
    · rename_i hall
      cases h
      refine ⟨?_, ?_, ?_⟩
      · intro pg ds; rw [map_keys]; exact hlab pg ds
      · intro k v hkv
        obtain ⟨k', _, heq⟩ := List.mem_map.1 hkv
        simp only [Prod.mk.injEq] at heq
        obtain ⟨rfl, rfl⟩ := heq
        cases hg : Dict.get? t k' with
        | some v => exact .inl rfl
        | none => exact .inr ⟨(Dict.get?_eq_none_iff t k').1 hg, rfl⟩
      · intro k hk
        rw [map_keys]
        rw [List.all_eq_true] at hall
        obtain ⟨c, hc, rfl⟩ := List.mem_map.1 hk
        simpa using hall c hc
    · simp at h

/-- C46: every label occurs once if the components of the parameter table are distinct. -/
theorem C46_no_duplicates (params : List (Str × List LSRow)) (hp : (params.map (·.1)).Nodup) (n : Nat) (t t' : Table)
    (h : complete params n t = .ok t') : (t'.map (·.1)).Nodup := by
  have hkeys : t'.map (·.1) = allLabels params t := by
    unfold complete at h
    simp only at h
    split at h
    · simp at h
    · split at h
      · cases h
        rw [List.map_map]
        exact List.map_id _
      · simp at h
  rw [hkeys]
  unfold allLabels
  have hh : (header t).Nodup := (pySort_perm _ _).nodup_iff.2 (uniqueVals_nodup _ _)
  rw [List.nodup_flatMap]
  refine ⟨?_, ?_⟩
  · intro p _
    rw [List.nodup_flatMap]
    refine ⟨?_, ?_⟩
    · intro ds _
      exact (hh.filter _).map fun a b hab => (Prod.mk.inj hab).1
    · refine List.nodup_range.imp_of_mem ?_
      intro a b _ _ hab x hxa hxb
      obtain ⟨_, _, rfl⟩ := List.mem_map.1 hxa
      obtain ⟨_, _, heq⟩ := List.mem_map.1 hxb
      simp only [Prod.mk.injEq] at heq
      exact hab (by omega)
  · have : params.Pairwise fun a b => a.1 ≠ b.1 := by
      rw [← List.pairwise_map (f := fun x : Str × List LSRow => x.1) (R := fun a b => a ≠ b)]
      exact hp
    refine this.imp ?_
    intro a b hab x hxa hxb
    simp only [List.mem_flatMap, List.mem_map, List.mem_filter, decide_eq_true_eq] at hxa hxb
    obtain ⟨_, _, pg1, ⟨_, h1⟩, rfl⟩ := hxa
    obtain ⟨_, _, pg2, ⟨_, h2⟩, heq⟩ := hxb
    simp only [Prod.mk.injEq] at heq
    exact hab (by rw [← h1, ← h2, heq.1])

/-- C46: the request fails exactly if the sample has a damage state beyond those of the parameter table
(or a component that is not in it), for instance after a damage process that assigns such a state. -/
theorem C46_refused_iff (params : List (Str × List LSRow)) (n : Nat) (t : Table)
    (hsome : ∃ c ∈ t, c.1.1.cmp ∈ params.map (·.1)) :
    complete params n t = .error .keyError ↔ ∃ c ∈ t, ∀ rows, (c.1.1.cmp, rows) ∈ params →
      c.1.2 < 0 ∨ (((defined rows).map width).sum : Int) < c.1.2 := by
  have hne : allLabels params t ≠ [] := by
    obtain ⟨c, hc, hp⟩ := hsome
    obtain ⟨p, hp, hpc⟩ := List.mem_map.1 hp
    refine List.ne_nil_of_mem (a := (c.1.1, ((0 : Nat) : Int))) ?_
    unfold allLabels header
    simp only [List.mem_flatMap, List.mem_map, List.mem_filter, mem_pySort, uniqueVals_mem, List.mem_range,
      decide_eq_true_eq, List.not_mem_nil, not_false_eq_true, and_true]
    exact ⟨p, hp, 0, by omega, c.1.1, ⟨⟨c, hc, rfl⟩, hpc.symm⟩, rfl⟩
  unfold complete
  simp only
  rw [if_neg hne]
  have hlab : ∀ c ∈ t, c.1 ∈ allLabels params t ↔ ∃ rows, (c.1.1.cmp, rows) ∈ params ∧ 0 ≤ c.1.2 ∧
      c.1.2 ≤ ((defined rows).map width).sum := by
    intro c hc
    unfold allLabels header
    simp only [List.mem_flatMap, List.mem_map, List.mem_filter, mem_pySort, uniqueVals_mem, List.mem_range,
      decide_eq_true_eq, List.not_mem_nil, not_false_eq_true, and_true, dsCount_eq]
    constructor
    · rintro ⟨p, hp, d, hd, pg', ⟨_, hcmp⟩, heq⟩
      rw [← heq]
      refine ⟨p.2, by simp only [hcmp]; exact hp, by simp only; omega, by simp only; omega⟩
    · rintro ⟨rows, hrows, h0, hle⟩
      refine ⟨_, hrows, c.1.2.toNat, by simp only; omega, c.1.1, ⟨⟨c, hc, rfl⟩, rfl⟩, Prod.ext rfl (by simp only; omega)⟩
  by_cases hall : (t.all fun c => decide (c.1 ∈ allLabels params t)) = true
  · rw [if_pos hall]
    simp only [reduceCtorEq, false_iff, not_exists, not_and]
    intro c hc hh
    rw [List.all_eq_true] at hall
    obtain ⟨rows, h1, h2, h3⟩ := (hlab c hc).1 (by simpa using hall c hc)
    rcases hh rows h1 with h | h <;> omega
  · rw [if_neg hall]
    simp only [true_iff]
    rw [List.all_eq_true] at hall
    push Not at hall
    obtain ⟨c, hc, hn⟩ := hall
    refine ⟨c, hc, fun rows hrows => ?_⟩
    by_contra hcon
    push Not at hcon
    exact hn (by simpa using (hlab c hc).2 ⟨rows, hrows, hcon.1, hcon.2⟩)

example : complete [(str "A", [⟨str "1", none, some 1, none, none⟩, ⟨str "2", none, some 2, none, some (str "0.5|0.5")⟩])] 2
      [((⟨str "A", str "1", str "1", str "0"⟩, 2), [some 4, none])] =
    .ok [((⟨str "A", str "1", str "1", str "0"⟩, 0), [some 0, some 0]),
         ((⟨str "A", str "1", str "1", str "0"⟩, 1), [some 0, some 0]),
         ((⟨str "A", str "1", str "1", str "0"⟩, 2), [some 4, none]),
         ((⟨str "A", str "1", str "1", str "0"⟩, 3), [some 0, some 0])] := by
  decide +kernel

end Verif.DmgQty
