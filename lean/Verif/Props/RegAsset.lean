import Verif.Model.RegAsset
import Verif.Props.Asset
import Verif.Props.LocDir
import Verif.Props.FileIO
import Mathlib.Data.List.Nodup

/-! # Property C129: the components of the buildings of a regional simulation -/

namespace Verif.RegAsset

open Verif.FileIO (uniqueVals uniqueVals_mem uniqueVals_nodup)
open Verif.Asset (CmpRow PG loadCmpModel calcUnitScaleFactor)
open Verif.UQ (Entry)

/-- Specification: building `b` has the component row `a`. -/
def Row (m : Chunk) (b : Int) (a : Arch) : Prop := ∃ rows, (b, rows) ∈ m ∧ a ∈ rows

/-- Specification: the directions are integers. -/
def Directions (m : Chunk) : Prop := ∀ b a, Row m b a → ∃ n : Int, a.direction = intStr n

/-- Specification: no name of a unit has a comma. -/
def NoComma (table : Dict Str ℚ) : Prop := ∀ name f, table.get? name = some f → ',' ∉ name

theorem mem_concat {m : Chunk} {b : Int} {a : Arch} : (b, a) ∈ concat m ↔ Row m b a := by
  unfold concat Row
  simp only [List.mem_flatMap, List.mem_map, Prod.mk.injEq, Prod.exists]
  constructor
  · rintro ⟨b', rows, h, a', ha, rfl, rfl⟩; exact ⟨rows, h, ha⟩
  · rintro ⟨rows, h, ha⟩; exact ⟨b, rows, h, a, ha, rfl, rfl⟩

theorem mem_rowsOf {m : Chunk} {c : Str} {b : Int} {a : Arch} : (b, a) ∈ rowsOf m c ↔ Row m b a ∧ a.cmp = c := by
  unfold rowsOf
  rw [List.mem_filter, mem_concat]; simp

theorem mem_components {m : Chunk} {c : Str} : c ∈ components m ↔ ∃ b a, Row m b a ∧ a.cmp = c := by
  unfold components
  rw [mem_pySort, uniqueVals_mem]
  simp only [List.mem_map, Prod.exists, mem_concat, List.not_mem_nil, not_false_eq_true, and_true]

theorem components_nodup (m : Chunk) : (components m).Nodup :=
  (pySort_perm _ _).nodup_iff.2 (uniqueVals_nodup [] _)

theorem uniqueList_eq (vals : List Str) : uniqueList vals = joinChar ',' (uniqueVals [] vals) := by
  unfold uniqueList
  split
  · rename_i v h; rw [h]; rfl
  · rfl

/-- A list of values is written without a comma only if they are all the same. -/
theorem uniqueList_one {vals : List Str} {v : Str} (hv : v ∈ vals) (h : ',' ∉ uniqueList vals) :
    uniqueList vals = v ∧ ∀ w ∈ vals, w = v := by
  rw [uniqueList_eq] at h ⊢
  have hm : ∀ w ∈ vals, w ∈ uniqueVals [] vals := fun w hw => (uniqueVals_mem [] vals w).2 ⟨hw, by simp⟩
  generalize hu : uniqueVals [] vals = u at h hm
  match u, h with
  | [], _ => exact absurd (hm v hv) (by simp)
  | [x], _ =>
    have hx := List.mem_singleton.1 (hm v hv)
    subst hx
    exact ⟨rfl, fun w hw => List.mem_singleton.1 (hm w hw)⟩
  | x :: y :: t, h => exact absurd (mem_joinChar (by simp)) h

theorem uniqueList_same {vals : List Str} {v : Str} (hv : v ∈ vals) (h : ∀ w ∈ vals, w = v) : uniqueList vals = v := by
  rw [uniqueList_eq]
  have hm : ∀ w ∈ uniqueVals [] vals, w = v := fun w hw => h w ((uniqueVals_mem [] vals w).1 hw).1
  have hin : v ∈ uniqueVals [] vals := (uniqueVals_mem [] vals v).2 ⟨hv, by simp⟩
  have hn := uniqueVals_nodup [] vals
  generalize uniqueVals [] vals = u at hm hin hn
  match u, hm, hin, hn with
  | [x], hm, _, _ => exact hm x (by simp)
  | x :: y :: t, hm, _, hn =>
    exfalso
    have h1 := hm x (by simp)
    have h2 := hm y (by simp)
    rw [h1, h2] at hn
    simp at hn

theorem locations_list (ns : List Int) (hne : ns ≠ []) :
    LocDir.getLocations none (joinChar ',' (ns.map intStr)) = .ok (ns.map intStr) := by
  unfold LocDir.getLocations
  match ns, hne with
  | [n], _ =>
    have : LocDir.locInts none (intStr n) = .ok [n] := by unfold LocDir.locInts; rw [intFloat_intStr]
    show (match LocDir.locInts none (intStr n) with | .ok l => _ | .error e => _) = _
    rw [this]
  | n :: k :: ns, _ =>
    obtain ⟨h1, h2, h3, h4⟩ := LocDir.list_facts n (k :: ns) (by simp)
    rw [LocDir.locInts_part _ _ h2, LocDir.locPart, intFloat_of_none h1]
    simp only [LocDir.locNoRange, h3, h4, if_true]
    rw [intArray_intStr (n :: k :: ns)]

theorem directions_list (ns : List Int) (hne : ns ≠ []) :
    LocDir.getDirections (some (joinChar ',' (ns.map intStr))) = .ok (ns.map intStr) := by
  match ns, hne with
  | [n], _ =>
    obtain ⟨l, h1, h2⟩ := LocDir.C26_documented_partial (.one n)
    cases h1; exact h2
  | n :: k :: ns, _ =>
    obtain ⟨l, h1, h2⟩ := LocDir.C26_documented_partial (.list n (k :: ns) (by simp))
    cases h1; exact h2

/-- A unit with a comma is not known. -/
theorem unit_comma {table : Dict Str ℚ} (ht : NoComma table) {u : Str} {f : PyFloat} (h : calcUnitScaleFactor table u = .ok f) :
    ',' ∉ u := by
  intro hc
  have hs : ',' ∈ strip isSpace u := mem_strip hc (by decide)
  have hj := join_split ' ' (strip isSpace u)
  unfold calcUnitScaleFactor at h
  split at h
  · rename_i name e
    rw [e] at hj
    have hn : name = strip isSpace u := hj
    unfold Asset.unitFactor at h
    split at h
    · rename_i g hg
      split at hg
      · rename_i q hq; exact ht _ _ hq (hn ▸ hs)
      · simp at hg
    · simp at h
  · rename_i count name e
    rw [e] at hj
    have hn : count ++ ' ' :: name = strip isSpace u := hj
    unfold Asset.scaledUnit Asset.unitFactor at h
    rw [← hn] at hs
    rcases List.mem_append.1 hs with h1 | h1
    · rw [pyFloat?_none_of_char h1 (by decide)] at h; simp at h
    · rcases List.mem_cons.1 h1 with h1 | h1
      · exact absurd h1 (by decide)
      · split at h
        · simp at h
        · split at h
          · rename_i g hg
            split at hg
            · rename_i q hq; exact ht _ _ hq h1
            · simp at hg
          · simp at h
  · simp at h

theorem intStr_inj {a b : Int} (h : intStr a = intStr b) : a = b := by
  have h1 := intFloat_intStr a
  rw [h, intFloat_intStr b] at h1
  exact (Except.ok.inj h1).symm

theorem all_ints : ∀ (l : List Str), (∀ s ∈ l, ∃ n : Int, s = intStr n) → ∃ ns : List Int, l = ns.map intStr
  | [], _ => ⟨[], rfl⟩
  | s :: l, h => by
    obtain ⟨n, hn⟩ := h s (by simp)
    obtain ⟨ns, hns⟩ := all_ints l (fun x hx => h x (List.mem_cons_of_mem _ hx))
    exact ⟨n :: ns, by rw [List.map_cons, ← hn, ← hns]⟩

/-- The row of a component in the table of the chunk. -/
def marg (m : Chunk) (c : Str) : Marg :=
  ⟨c, uniqueList ((rowsOf m c).map (·.2.unit)), joinChar ',' ((uniqueVals [] ((rowsOf m c).map (·.1))).map intStr),
    uniqueList ((rowsOf m c).map (·.2.direction)), uniqueList ((rowsOf m c).map (·.2.quantity))⟩

theorem marginals_eq (m : Chunk) : marginals m = (components m).map (marg m) := rfl

theorem read_locations {m : Chunk} {c : Str} (hc : c ∈ components m) : ∃ ls : List Str,
    LocDir.getLocations none (marg m c).location = .ok ls ∧ ls ≠ [] ∧ ls.Nodup ∧
    ∀ l, l ∈ ls ↔ ∃ b a, Row m b a ∧ a.cmp = c ∧ l = intStr b := by
  have hmem : ∀ b, b ∈ uniqueVals [] ((rowsOf m c).map (·.1)) ↔ ∃ a, Row m b a ∧ a.cmp = c := by
    intro b
    rw [uniqueVals_mem]
    simp only [List.mem_map, Prod.exists, mem_rowsOf, List.not_mem_nil, not_false_eq_true, and_true]
    constructor
    · rintro ⟨b', a, h, rfl⟩; exact ⟨a, h⟩
    · rintro ⟨a, h⟩; exact ⟨b, a, h, rfl⟩
  obtain ⟨b, a, hr, hca⟩ := mem_components.1 hc
  have hin := (hmem b).2 ⟨a, hr, hca⟩
  have hne : uniqueVals [] ((rowsOf m c).map (·.1)) ≠ [] := List.ne_nil_of_mem hin
  refine ⟨_, locations_list _ hne, by simpa using hne, List.Nodup.map (fun _ _ => intStr_inj) (uniqueVals_nodup [] _), ?_⟩
  intro l
  rw [List.mem_map]
  constructor
  · rintro ⟨b, hb, rfl⟩
    obtain ⟨a, h1, h2⟩ := (hmem b).1 hb
    exact ⟨b, a, h1, h2, rfl⟩
  · rintro ⟨b, a, h1, h2, rfl⟩
    exact ⟨b, (hmem b).2 ⟨a, h1, h2⟩, rfl⟩

theorem read_directions {m : Chunk} (hd : Directions m) {c : Str} (hc : c ∈ components m) : ∃ ds : List Str,
    LocDir.getDirections (some (marg m c).direction) = .ok ds ∧ ds ≠ [] ∧ ds.Nodup ∧
    ∀ d, d ∈ ds ↔ ∃ b a, Row m b a ∧ a.cmp = c ∧ a.direction = d := by
  have hmem : ∀ d, d ∈ uniqueVals [] ((rowsOf m c).map (·.2.direction)) ↔ ∃ b a, Row m b a ∧ a.cmp = c ∧ a.direction = d := by
    intro d
    rw [uniqueVals_mem]
    simp only [List.mem_map, Prod.exists, mem_rowsOf, List.not_mem_nil, not_false_eq_true, and_true, and_assoc]
  obtain ⟨b, a, hr, hca⟩ := mem_components.1 hc
  have hin := (hmem _).2 ⟨b, a, hr, hca, rfl⟩
  obtain ⟨ns, hns⟩ := all_ints (uniqueVals [] ((rowsOf m c).map (·.2.direction))) (by
    intro s hs
    obtain ⟨b, a, h1, _, rfl⟩ := (hmem s).1 hs
    exact hd b a h1)
  have hne : ns ≠ [] := by
    rintro rfl
    rw [hns] at hin; simp at hin
  refine ⟨ns.map intStr, ?_, by simpa using hne, ?_, ?_⟩
  · show LocDir.getDirections (some (uniqueList _)) = _
    rw [uniqueList_eq, hns]
    exact directions_list ns hne
  · rw [← hns]; exact uniqueVals_nodup [] _
  · intro d; rw [← hns]; exact hmem d

/-- What `cmpRow` makes of a row. -/
theorem cmpRow_ok {x : Marg} {row : CmpRow} (h : cmpRow x = .ok row) :
    row.cmp = x.cmp ∧ row.location = x.location ∧ row.direction = x.direction ∧ row.blocks = none ∧ row.unit = some x.unit ∧
    row.params.family = .undefined ∧ row.params.empirical = false ∧
    ((∃ q, pyFloat? x.quantity = some (.fin q) ∧ row.params.theta = [.num q]) ∨
      pyFloat? x.quantity = some .nan ∧ row.params.theta = [.nan]) := by
  unfold cmpRow at h
  split at h
  · rename_i q hq
    cases h
    exact ⟨rfl, rfl, rfl, rfl, rfl, rfl, rfl, .inl ⟨q, hq, rfl⟩⟩
  · rename_i hq
    cases h
    exact ⟨rfl, rfl, rfl, rfl, rfl, rfl, rfl, .inr ⟨hq, rfl⟩⟩
  · simp at h

theorem forall2_mem_right {α β : Type} {R : α → β → Prop} : ∀ {l : List α} {l' : List β}, List.Forall₂ R l l' → ∀ b ∈ l', ∃ a ∈ l, R a b
  | _, _, .nil, b, hb => absurd hb (by simp)
  | _, _, .cons h1 h2, b, hb => by
    rcases List.mem_cons.1 hb with rfl | hb
    · exact ⟨_, by simp, h1⟩
    · obtain ⟨a, ha, h⟩ := forall2_mem_right h2 b hb
      exact ⟨a, List.mem_cons_of_mem _ ha, h⟩

theorem forall2_mem_left {α β : Type} {R : α → β → Prop} : ∀ {l : List α} {l' : List β}, List.Forall₂ R l l' → ∀ a ∈ l, ∃ b ∈ l', R a b
  | _, _, .nil, b, hb => absurd hb (by simp)
  | _, _, .cons h1 h2, b, hb => by
    rcases List.mem_cons.1 hb with rfl | hb
    · exact ⟨_, by simp, h1⟩
    · obtain ⟨a, ha, h⟩ := forall2_mem_left h2 b hb
      exact ⟨a, List.mem_cons_of_mem _ ha, h⟩

theorem rows_cmp {xs : List Marg} {rows : List CmpRow} (h : List.Forall₂ (fun x row => cmpRow x = .ok row) xs rows) :
    rows.map (·.cmp) = xs.map (·.cmp) := by
  induction h with
  | nil => rfl
  | cons h1 _ ih => rw [List.map_cons, List.map_cons, ih, (cmpRow_ok h1).1]

/-- The labels of rows with distinct components, locations and directions are distinct. -/
theorem labels_nodup {conv : CmpRow → Asset.Params → Prop} {rows : List CmpRow} {groups : List (List ((Str × Str × Str) × PG))}
    (h : List.Forall₂ (Asset.RowGroups none conv) rows groups) (hn : (rows.map (·.cmp)).Nodup)
    (hl : ∀ row ∈ rows, ∃ ls, LocDir.getLocations none row.location = .ok ls ∧ ls.Nodup)
    (hd : ∀ row ∈ rows, ∃ ds, LocDir.getDirections (some row.direction) = .ok ds ∧ ds.Nodup) :
    (groups.flatten.map Prod.fst).Nodup := by
  induction h with
  | nil => simp
  | @cons row g rows groups h1 h2 ih =>
    rw [List.flatten_cons, List.map_append, List.nodup_append']
    refine ⟨?_, ih (List.nodup_cons.1 (by simpa using hn)).2 (fun r hr => hl r (List.mem_cons_of_mem _ hr))
      (fun r hr => hd r (List.mem_cons_of_mem _ hr)), ?_⟩
    · obtain ⟨⟨locs, dirs, e1, e2, _, hcount⟩, _⟩ := h1
      obtain ⟨ls, e3, hls⟩ := hl row (by simp)
      obtain ⟨ds, e4, hds⟩ := hd row (by simp)
      rw [e1] at e3; cases e3
      rw [e2] at e4; cases e4
      rw [List.nodup_iff_count_le_one]
      rintro ⟨c, l, d⟩
      rw [hcount]
      split
      · have a1 := List.nodup_iff_count_le_one.1 hls l
        have a2 := List.nodup_iff_count_le_one.1 hds d
        calc locs.count l * dirs.count d ≤ 1 * 1 := Nat.mul_le_mul a1 a2
          _ = 1 := rfl
      · omega
    · rintro ⟨c, l, d⟩ hx hy
      obtain ⟨⟨locs, dirs, _, _, _, hcount⟩, _⟩ := h1
      have hc : c = row.cmp := by
        have := List.count_pos_iff.2 hx
        rw [hcount] at this
        by_contra hne
        rw [if_neg hne] at this
        exact absurd this (by simp)
      obtain ⟨e, he, hee⟩ := List.mem_map.1 hy
      obtain ⟨g', hg', heg⟩ := List.mem_flatten.1 he
      obtain ⟨row', hr', ⟨locs', dirs', _, _, _, hcount'⟩, _⟩ := forall2_mem_right h2 g' hg'
      have hc' : c = row'.cmp := by
        have : 0 < (g'.map Prod.fst).count (c, l, d) := List.count_pos_iff.2 (List.mem_map.2 ⟨e, heg, hee⟩)
        rw [hcount'] at this
        by_contra hne
        rw [if_neg hne] at this
        exact absurd this (by simp)
      have := (List.nodup_cons.1 (show (row.cmp :: rows.map (·.cmp)).Nodup by simpa using hn)).1
      exact this (List.mem_map.2 ⟨row', hr', by rw [← hc', hc]⟩)

/-- C129: a component model that is made for the buildings of a chunk has one group for a component, a building that
has it and a direction that any building has for this component, and no other groups.  Its quantity is certain and
is the quantity that every building with the component has for it, in the unit of that building; the group is one
block.  All these buildings write the quantity and the unit in the same way. -/
theorem C129_groups (table : Dict Str ℚ) (ht : NoComma table) (m : Chunk) (hd : Directions m)
    (r : List (((Str × Str × Str) × Str) × PG)) (h : componentModel table m = .ok r) :
    (r.map fun e => e.1.1).Nodup ∧
    (∀ c l d, (c, l, d) ∈ r.map (fun e => e.1.1) ↔
      (∃ b a, Row m b a ∧ a.cmp = c ∧ l = intStr b) ∧ ∃ b a, Row m b a ∧ a.cmp = c ∧ a.direction = d) ∧
    ∀ e ∈ r, e.2.blocks = 1 ∧ e.2.params.family = .undefined ∧ ∀ b a, Row m b a → a.cmp = e.1.1.1 →
      ∃ q f, pyFloat? a.quantity = some (.fin q) ∧ calcUnitScaleFactor table a.unit = .ok (.fin f) ∧
        e.2.params.theta = [.num (q * f)] ∧
        ∀ b' a', Row m b' a' → a'.cmp = a.cmp → a'.quantity = a.quantity ∧ a'.unit = a.unit := by
  unfold componentModel at h
  split at h
  · simp at h
  rename_i rows hrows
  have hf := mapE_ok_iff.1 hrows
  have hcmps : rows.map (·.cmp) = components m := by
    rw [rows_cmp hf, marginals_eq, List.map_map]
    exact List.map_id _
  have hnod : (rows.map (·.cmp)).Nodup := hcmps ▸ components_nodup m
  have hrow : ∀ row ∈ rows, row.cmp ∈ components m ∧ cmpRow (marg m row.cmp) = .ok row := by
    intro row hr
    obtain ⟨x, hx, he⟩ := forall2_mem_right hf row hr
    rw [marginals_eq] at hx
    obtain ⟨c, hc, rfl⟩ := List.mem_map.1 hx
    have : row.cmp = c := (cmpRow_ok he).1
    subst this
    exact ⟨hc, he⟩
  have hlocs : ∀ row ∈ rows, ∃ ls, LocDir.getLocations none row.location = .ok ls ∧ ls ≠ [] ∧ ls.Nodup ∧
      ∀ l, l ∈ ls ↔ ∃ b a, Row m b a ∧ a.cmp = row.cmp ∧ l = intStr b := by
    intro row hr
    obtain ⟨hc, he⟩ := hrow row hr
    rw [(cmpRow_ok he).2.1]
    exact read_locations hc
  have hdirs : ∀ row ∈ rows, ∃ ds, LocDir.getDirections (some row.direction) = .ok ds ∧ ds ≠ [] ∧ ds.Nodup ∧
      ∀ d, d ∈ ds ↔ ∃ b a, Row m b a ∧ a.cmp = row.cmp ∧ a.direction = d := by
    intro row hr
    obtain ⟨hc, he⟩ := hrow row hr
    rw [(cmpRow_ok he).2.2.1]
    exact read_directions hd hc
  obtain ⟨groups, hg, hperm⟩ := Asset.C74_own_unit_partial table none rows r h (by
    intro a ha b hb hab
    rw [List.inj_on_of_nodup_map hnod ha hb hab])
  have hperm' : (r.map fun e => e.1.1).Perm (groups.flatten.map Prod.fst) := by
    have := hperm.map Prod.fst
    rwa [List.map_map] at this
  refine ⟨hperm'.nodup_iff.2 (labels_nodup hg hnod (fun row hr => ?_) (fun row hr => ?_)), ?_, ?_⟩
  · obtain ⟨ls, h1, _, h2, _⟩ := hlocs row hr; exact ⟨ls, h1, h2⟩
  · obtain ⟨ds, h1, _, h2, _⟩ := hdirs row hr; exact ⟨ds, h1, h2⟩
  · intro c l d
    rw [hperm'.mem_iff]
    constructor
    · intro hx
      obtain ⟨e, he, hee⟩ := List.mem_map.1 hx
      obtain ⟨g, hg', heg⟩ := List.mem_flatten.1 he
      obtain ⟨row, hr, ⟨locs, dirs, e1, e2, _, hcount⟩, _⟩ := forall2_mem_right hg g hg'
      obtain ⟨ls, e3, _, _, hls⟩ := hlocs row hr
      obtain ⟨ds, e4, _, _, hds⟩ := hdirs row hr
      rw [e1] at e3; cases e3
      rw [e2] at e4; cases e4
      have hp : 0 < (g.map Prod.fst).count (c, l, d) := List.count_pos_iff.2 (List.mem_map.2 ⟨e, heg, hee⟩)
      rw [hcount] at hp
      split at hp
      · rename_i hc
        subst hc
        exact ⟨(hls l).1 (List.count_pos_iff.1 (Nat.pos_of_mul_pos_right hp)),
          (hds d).1 (List.count_pos_iff.1 (Nat.pos_of_mul_pos_left hp))⟩
      · exact absurd hp (by simp)
    · rintro ⟨⟨b, a, hra, hca, rfl⟩, b', a', hra', hca', hda'⟩
      have hc : c ∈ rows.map (·.cmp) := hcmps ▸ mem_components.2 ⟨b, a, hra, hca⟩
      obtain ⟨row, hr, hrc⟩ := List.mem_map.1 hc
      obtain ⟨g, hg', ⟨locs, dirs, e1, e2, _, hcount⟩, _⟩ := forall2_mem_left hg row hr
      obtain ⟨ls, e3, _, _, hls⟩ := hlocs row hr
      obtain ⟨ds, e4, _, _, hds⟩ := hdirs row hr
      rw [e1] at e3; cases e3
      rw [e2] at e4; cases e4
      have hp : 0 < (g.map Prod.fst).count (c, intStr b, d) := by
        rw [hcount, if_pos hrc.symm]
        exact Nat.mul_pos (List.count_pos_iff.2 ((hls _).2 ⟨b, a, hra, hca.trans hrc.symm, rfl⟩))
          (List.count_pos_iff.2 ((hds _).2 ⟨b', a', hra', hca'.trans hrc.symm, hda'⟩))
      obtain ⟨e, he, hee⟩ := List.mem_map.1 (List.count_pos_iff.1 hp)
      exact List.mem_map.2 ⟨e, List.mem_flatten.2 ⟨g, hg', he⟩, hee⟩
  · intro e he
    have hin : (e.1.1, e.2) ∈ groups.flatten := hperm.mem_iff.1 (List.mem_map.2 ⟨e, he, rfl⟩)
    obtain ⟨g, hg', heg⟩ := List.mem_flatten.1 hin
    obtain ⟨row, hr, ⟨locs, dirs, e1, e2, _, hcount⟩, hall⟩ := forall2_mem_right hg g hg'
    obtain ⟨hb, _, hnone, hsome⟩ := hall _ heg
    obtain ⟨hc, hx⟩ := hrow row hr
    obtain ⟨_, _, _, k4, k5, k6, k7, k8⟩ := cmpRow_ok hx
    have hec : e.1.1.1 = row.cmp := by
      have hp : 0 < (g.map Prod.fst).count (e.1.1.1, e.1.1.2.1, e.1.1.2.2) := List.count_pos_iff.2 (List.mem_map.2 ⟨_, heg, rfl⟩)
      rw [hcount] at hp
      by_contra hne
      rw [if_neg hne] at hp
      exact absurd hp (by simp)
    obtain ⟨f, hu, hconv⟩ := hsome _ k5
    rcases hconv with ⟨hemp, _⟩ | ⟨_, hfam, hsc⟩
    · rw [k7] at hemp; simp at hemp
    refine ⟨hb k4, hfam.trans k6, ?_⟩
    intro b a hra hca
    have hmemr : (b, a) ∈ rowsOf m row.cmp := mem_rowsOf.2 ⟨hra, hca.trans hec⟩
    have hunit := uniqueList_one (v := a.unit) (List.mem_map.2 ⟨_, hmemr, rfl⟩) (unit_comma ht hu)
    rcases k8 with ⟨q, hq, hth⟩ | ⟨_, hth⟩
    · have hnc : ',' ∉ (marg m row.cmp).quantity := by
        intro hcm
        rw [pyFloat?_none_of_char hcm (by decide)] at hq
        simp at hq
      have hqty := uniqueList_one (v := a.quantity) (List.mem_map.2 ⟨_, hmemr, rfl⟩) hnc
      refine ⟨q, f, ?_, ?_, ?_, fun b' a' hr' hc' => ?_⟩
      rotate_left 3
      · have hm' : (b', a') ∈ rowsOf m row.cmp := mem_rowsOf.2 ⟨hr', hc'.trans (hca.trans hec)⟩
        exact ⟨hqty.2 _ (List.mem_map.2 ⟨_, hm', rfl⟩), hunit.2 _ (List.mem_map.2 ⟨_, hm', rfl⟩)⟩
      · rw [← hqty.1]; exact hq
      · rw [← hunit.1]; exact hu
      · rw [k6, hth] at hsc
        have := Except.ok.inj hsc
        exact (congrArg Prod.fst this).symm
    · exfalso
      obtain ⟨ls, e3, hlne, _, _⟩ := hlocs row hr
      obtain ⟨ds, e4, hdne, _, _⟩ := hdirs row hr
      obtain ⟨l0, lt, rfl⟩ := List.exists_cons_of_ne_nil hlne
      obtain ⟨d0, dt, rfl⟩ := List.exists_cons_of_ne_nil hdne
      have := Asset.C27_missing_quantity table none rows (fun row hr => by
        obtain ⟨ls, e3, _⟩ := hlocs row hr
        obtain ⟨ds, e4, _⟩ := hdirs row hr
        exact ⟨⟨ls, e3⟩, ds, e4⟩) row hr [] hth l0 d0 lt dt e3 e4
      rw [this] at h
      simp at h

/-- C129, when the buildings with a component agree on its direction: a building has the components of its own rows, in
their directions, and no others, and in the quantities of the rows (of several rows of a building with the same component
one counts).  The full property leaves out the condition on the directions and adds up rows of the same component; that is
false, see `C129_directions_added` and `C129_repeated_once`. -/
theorem C129_buildings_partial (table : Dict Str ℚ) (ht : NoComma table) (m : Chunk) (hd : Directions m)
    (hsame : ∀ b a b' a', Row m b a → Row m b' a' → a.cmp = a'.cmp → a.direction = a'.direction)
    (r : List (((Str × Str × Str) × Str) × PG)) (h : componentModel table m = .ok r) :
    (∀ b c d, (c, intStr b, d) ∈ r.map (fun e => e.1.1) ↔ ∃ a, Row m b a ∧ a.cmp = c ∧ a.direction = d) ∧
    ∀ b a, Row m b a → ∃ e ∈ r, e.1.1 = (a.cmp, intStr b, a.direction) ∧ ∃ q f, pyFloat? a.quantity = some (.fin q) ∧
      calcUnitScaleFactor table a.unit = .ok (.fin f) ∧ e.2.params.theta = [.num (q * f)] := by
  obtain ⟨_, h2, h3⟩ := C129_groups table ht m hd r h
  have key : ∀ b c d, (c, intStr b, d) ∈ r.map (fun e => e.1.1) ↔ ∃ a, Row m b a ∧ a.cmp = c ∧ a.direction = d := by
    intro b c d
    rw [h2]
    constructor
    · rintro ⟨⟨b1, a1, r1, c1, e1⟩, b2, a2, r2, c2, e2⟩
      cases intStr_inj e1
      exact ⟨a1, r1, c1, (hsame _ _ _ _ r1 r2 (c1.trans c2.symm)).trans e2⟩
    · rintro ⟨a, ra, ca, da⟩
      exact ⟨⟨b, a, ra, ca, rfl⟩, b, a, ra, ca, da⟩
  refine ⟨key, fun b a hra => ?_⟩
  obtain ⟨e, he, hee⟩ := List.mem_map.1 ((key b a.cmp a.direction).2 ⟨a, hra, rfl, rfl⟩)
  obtain ⟨q, f, k1, k2, k3, _⟩ := (h3 e he).2.2 b a hra (by rw [hee])
  exact ⟨e, he, hee, q, f, k1, k2, k3⟩

/-- C129: buildings of a chunk that have the same component in different quantities or units are refused, all of them. -/
theorem C129_refused (table : Dict Str ℚ) (ht : NoComma table) (m : Chunk) (hd : Directions m) (b b' : Int) (a a' : Arch)
    (hr : Row m b a) (hr' : Row m b' a') (hc : a.cmp = a'.cmp) (hne : a.quantity ≠ a'.quantity ∨ a.unit ≠ a'.unit) :
    ∃ e, componentModel table m = .error e := by
  cases h : componentModel table m with
  | error e => exact ⟨e, rfl⟩
  | ok r =>
    exfalso
    obtain ⟨_, h2, h3⟩ := C129_groups table ht m hd r h
    obtain ⟨e, he, hee⟩ := List.mem_map.1 ((h2 a.cmp (intStr b) a.direction).2 ⟨⟨b, a, hr, rfl, rfl⟩, b, a, hr, rfl, rfl⟩)
    obtain ⟨_, _, _, _, _, k⟩ := (h3 e he).2.2 b a hr (by rw [hee])
    obtain ⟨k1, k2⟩ := k b' a' hr' hc.symm
    rcases hne with h | h
    · exact h k1.symm
    · exact h k2.symm

/-- C129: if the buildings with a component agree on its quantity and its unit, the quantities are numbers and the units
are known, then the component model is made. -/
theorem C129_accepted (table : Dict Str ℚ) (m : Chunk) (hd : Directions m)
    (hsame : ∀ b a b' a', Row m b a → Row m b' a' → a.cmp = a'.cmp → a.quantity = a'.quantity ∧ a.unit = a'.unit)
    (hq : ∀ b a, Row m b a → ∃ q, pyFloat? a.quantity = some (.fin q))
    (hu : ∀ b a, Row m b a → ∃ f, calcUnitScaleFactor table a.unit = .ok (.fin f)) :
    ∃ r, componentModel table m = .ok r := by
  have hmarg : ∀ c ∈ components m, ∃ b a, Row m b a ∧ a.cmp = c ∧ (marg m c).quantity = a.quantity ∧ (marg m c).unit = a.unit := by
    intro c hc
    obtain ⟨b, a, hr, hca⟩ := mem_components.1 hc
    have hm : (b, a) ∈ rowsOf m c := mem_rowsOf.2 ⟨hr, hca⟩
    refine ⟨b, a, hr, hca, uniqueList_same (List.mem_map.2 ⟨_, hm, rfl⟩) ?_, uniqueList_same (List.mem_map.2 ⟨_, hm, rfl⟩) ?_⟩
    · intro w hw
      obtain ⟨⟨b', a'⟩, hx, rfl⟩ := List.mem_map.1 hw
      obtain ⟨h1, h2⟩ := mem_rowsOf.1 hx
      exact (hsame _ _ _ _ h1 hr (h2.trans hca.symm)).1
    · intro w hw
      obtain ⟨⟨b', a'⟩, hx, rfl⟩ := List.mem_map.1 hw
      obtain ⟨h1, h2⟩ := mem_rowsOf.1 hx
      exact (hsame _ _ _ _ h1 hr (h2.trans hca.symm)).2
  obtain ⟨rows, hrows⟩ := mapE_ok_of_forall (f := cmpRow) (l := marginals m) (by
    intro x hx
    rw [marginals_eq] at hx
    obtain ⟨c, hc, rfl⟩ := List.mem_map.1 hx
    obtain ⟨b, a, hr, _, e1, _⟩ := hmarg c hc
    obtain ⟨q, hq⟩ := hq b a hr
    exact ⟨_, by unfold cmpRow; rw [e1, hq]⟩)
  have hrow : ∀ row ∈ rows, row.cmp ∈ components m ∧ cmpRow (marg m row.cmp) = .ok row := by
    intro row hr
    obtain ⟨x, hx, he⟩ := forall2_mem_right (mapE_ok_iff.1 hrows) row hr
    rw [marginals_eq] at hx
    obtain ⟨c, hc, rfl⟩ := List.mem_map.1 hx
    have : row.cmp = c := (cmpRow_ok he).1
    subst this
    exact ⟨hc, he⟩
  have hfacts : ∀ row ∈ rows, (∃ f u, row.unit = some u ∧ calcUnitScaleFactor table u = .ok (.fin f)) ∧
      row.params.family = .undefined ∧ row.params.empirical = false ∧ ∃ q, row.params.theta = [.num q] := by
    intro row hr
    obtain ⟨hc, he⟩ := hrow row hr
    obtain ⟨_, _, _, _, k5, k6, k7, k8⟩ := cmpRow_ok he
    obtain ⟨b, a, hra, _, e1, e2⟩ := hmarg _ hc
    obtain ⟨f, hf⟩ := hu b a hra
    obtain ⟨q, hq⟩ := hq b a hra
    refine ⟨⟨f, _, k5, by rw [e2]; exact hf⟩, k6, k7, ?_⟩
    rcases k8 with ⟨q', _, h⟩ | ⟨h, _⟩
    · exact ⟨q', h⟩
    · rw [e1, hq] at h; simp at h
  unfold componentModel
  rw [hrows]
  simp only
  obtain ⟨groups, hg⟩ := mapE_ok_of_forall (f := Asset.expandRow none rows) (l := rows) (by
    intro row hr
    obtain ⟨hc, he⟩ := hrow row hr
    obtain ⟨ls, h1, _⟩ := read_locations hc
    obtain ⟨ds, h2, _⟩ := read_directions hd hc
    rw [← (cmpRow_ok he).2.1] at h1
    rw [← (cmpRow_ok he).2.2.1] at h2
    exact ⟨_, by rw [Asset.expandRow, h1]; simp only [h2]; rfl⟩)
  have hparams : ∀ e ∈ groups.flatten, Asset.missingTheta0 e.2.params = false ∧ ∃ p, Asset.convertParams table e.2.unit e.2.params = .ok p := by
    intro e he
    obtain ⟨g, hg1, hg2⟩ := List.mem_flatten.1 he
    obtain ⟨row, hr1, hr2⟩ := forall2_mem_right (mapE_ok_iff.1 hg) g hg1
    obtain ⟨⟨_, h1⟩, h2⟩ := Asset.expandRow_groups hr2
    obtain ⟨_, k6, k7, q, k8⟩ := hfacts row hr1
    have hp : e.2.params = row.params := (h1 e hg2).2.2
    refine ⟨by rw [hp, Asset.missingTheta0, k8], ?_⟩
    cases hun : e.2.unit with
    | none => exact ⟨_, rfl⟩
    | some u =>
      have hh := h2 e hg2
      rw [hun, Asset.cmpUnit] at hh
      obtain ⟨row', hr', hu'⟩ := List.exists_of_findSome?_eq_some hh.symm
      obtain ⟨⟨f, u', e1, e2⟩, _⟩ := hfacts row' (List.mem_filter.1 hr').1
      rw [e1] at hu'
      cases hu'
      unfold Asset.convertParams
      simp only [e2, hp, k6, k7, k8]
      exact ⟨_, rfl⟩
  unfold loadCmpModel
  rw [hg]
  simp only
  rw [if_neg]
  · refine mapE_ok_of_forall ?_
    intro a ha
    have hm : (a.1.1, a.2) ∈ groups.flatten :=
      (Labels.C07_rows_preserved Asset.labelLe groups.flatten).mem_iff.1 (List.mem_map_of_mem (f := fun e => (e.1.1, e.2)) ha)
    obtain ⟨p, hp⟩ := (hparams _ hm).2
    exact ⟨_, by simp only [Asset.convertPG]; rw [hp]⟩
  · rw [Bool.not_eq_true, List.any_eq_false]
    intro e he
    simp [(hparams e he).1]

/-- Two buildings of the same class, and one of another. -/
def town : Chunk :=
  [(7, [⟨str "W1", str "ea", str "1", str "1"⟩]), (12, [⟨str "C1H", str "ea", str "1", str "1"⟩]),
   (3, [⟨str "W1", str "ea", str "1", str "1"⟩])]

/-- The locations are the buildings. -/
example : (match componentModel [(str "ea", 1)] town with | .ok r => r.map fun e => (e.1, e.2.params.theta) | .error _ => []) =
    [(((str "C1H", str "12", str "1"), str "0"), [.num 1]), (((str "W1", str "3", str "1"), str "0"), [.num 1]),
     (((str "W1", str "7", str "1"), str "0"), [.num 1])] := by decide +kernel

theorem row_cases {m : Chunk} {P : Int → Arch → Prop} (h : ∀ e ∈ m, ∀ a ∈ e.2, P e.1 a) : ∀ b a, Row m b a → P b a := by
  rintro b a ⟨rows, h1, h2⟩; exact h _ h1 _ h2

theorem town_directions : Directions town := row_cases (by
  intro e he a ha
  simp only [town, List.mem_cons, List.not_mem_nil, or_false] at he
  rcases he with rfl | rfl | rfl <;> (cases List.mem_singleton.1 ha; exact ⟨1, by decide +kernel⟩))

theorem ea_noComma : NoComma [(str "ea", 1)] := by
  intro name f h
  by_cases hn : name = str "ea"
  · subst hn; decide
  · exfalso
    simp only [Dict.get?] at h
    simp_all

theorem town_rows : ∀ b a, Row town b a → a.direction = str "1" ∧ a.quantity = str "1" ∧ a.unit = str "ea" := row_cases (by
  intro e he a ha
  simp only [town, List.mem_cons, List.not_mem_nil, or_false] at he
  rcases he with rfl | rfl | rfl <;> (cases List.mem_singleton.1 ha; exact ⟨rfl, rfl, rfl⟩))

/-- The hypotheses of `C129_accepted` are met. -/
theorem town_accepted : ∃ r, componentModel [(str "ea", 1)] town = .ok r := by
  have hall := town_rows
  refine C129_accepted _ _ town_directions (fun b a b' a' h h' _ => ?_) (fun b a h => ⟨1, ?_⟩) (fun b a h => ⟨1, ?_⟩)
  · exact ⟨(hall b a h).2.1.trans (hall b' a' h').2.1.symm, (hall b a h).2.2.trans (hall b' a' h').2.2.symm⟩
  · rw [(hall b a h).2.1]; decide +kernel
  · rw [(hall b a h).2.2]; decide +kernel

/-- The hypotheses of `C129_groups` and `C129_buildings_partial` are met; building 12 has its own component only. -/
example : ∃ r, componentModel [(str "ea", 1)] town = .ok r ∧
    ∀ c d, (c, intStr 12, d) ∈ r.map (fun e => e.1.1) ↔ ∃ a, Row town 12 a ∧ a.cmp = c ∧ a.direction = d := by
  obtain ⟨r, hr⟩ := town_accepted
  exact ⟨r, hr, (C129_buildings_partial _ ea_noComma _ town_directions
    (fun b a b' a' h h' _ => (town_rows b a h).1.trans (town_rows b' a' h').1.symm) r hr).1 12⟩

/-- A building of two units of a component among buildings of one. -/
example : ∃ e, componentModel [(str "ea", 1)]
    [(7, [⟨str "W1", str "ea", str "1", str "1"⟩]), (3, [⟨str "W1", str "ea", str "1", str "2"⟩])] = .error e := by
  refine C129_refused _ ea_noComma _ (row_cases ?_) 7 3 ⟨str "W1", str "ea", str "1", str "1"⟩ ⟨str "W1", str "ea", str "1", str "2"⟩
    ⟨_, List.mem_cons_self, List.mem_cons_self⟩ ⟨_, List.mem_cons_of_mem _ List.mem_cons_self, List.mem_cons_self⟩ rfl (.inl (by decide))
  intro e he a ha
  simp only [List.mem_cons, List.not_mem_nil, or_false] at he
  rcases he with rfl | rfl <;> (cases List.mem_singleton.1 ha; exact ⟨1, by decide +kernel⟩)

/-- Violation of C129: two buildings have the same component in different directions.  Both get it in both directions, so
that each has twice the quantity. -/
theorem C129_directions_added :
    (match componentModel [(str "ea", 1)]
        [(7, [⟨str "W1", str "ea", str "1", str "1"⟩]), (3, [⟨str "W1", str "ea", str "2", str "1"⟩])] with
      | .ok r => r.map fun e => (e.1.1, e.2.params.theta) | .error _ => []) =
    [((str "W1", str "3", str "1"), [.num 1]), ((str "W1", str "3", str "2"), [.num 1]),
     ((str "W1", str "7", str "1"), [.num 1]), ((str "W1", str "7", str "2"), [.num 1])] := by decide +kernel

/-- Violation of C129: a building has a component in two rows.  Only one of them counts. -/
theorem C129_repeated_once :
    (match componentModel [(str "ea", 1)]
        [(7, [⟨str "W1", str "ea", str "1", str "1"⟩, ⟨str "W1", str "ea", str "1", str "1"⟩])] with
      | .ok r => r.map fun e => (e.1.1, e.2.params.theta) | .error _ => []) =
    [((str "W1", str "7", str "1"), [.num 1])] := by decide +kernel

/-- C129, under the same condition: the components of a building and their quantities do not depend on the other buildings
that are assessed with it, if both chunks are accepted.  For the general case see `C129_chunk_matters`. -/
theorem C129_chunk_partial (table : Dict Str ℚ) (ht : NoComma table) (m m' : Chunk) (hd : Directions m) (hd' : Directions m')
    (hsame : ∀ b a b' a', Row m b a → Row m b' a' → a.cmp = a'.cmp → a.direction = a'.direction)
    (hsame' : ∀ b a b' a', Row m' b a → Row m' b' a' → a.cmp = a'.cmp → a.direction = a'.direction)
    (r r' : List (((Str × Str × Str) × Str) × PG)) (h : componentModel table m = .ok r) (h' : componentModel table m' = .ok r')
    (b : Int) (hb : ∀ a, Row m b a ↔ Row m' b a) (e : ((Str × Str × Str) × Str) × PG) (he : e ∈ r) (hloc : e.1.1.2.1 = intStr b) :
    ∃ e' ∈ r', e'.1.1 = e.1.1 ∧ e'.2.blocks = e.2.blocks ∧ e'.2.params.theta = e.2.params.theta := by
  obtain ⟨k1, _⟩ := C129_buildings_partial table ht m hd hsame r h
  obtain ⟨k1', _⟩ := C129_buildings_partial table ht m' hd' hsame' r' h'
  obtain ⟨_, _, g⟩ := C129_groups table ht m hd r h
  obtain ⟨_, _, g'⟩ := C129_groups table ht m' hd' r' h'
  have hlab : (e.1.1.1, intStr b, e.1.1.2.2) = e.1.1 := by rw [← hloc]
  obtain ⟨a, hra, hca, hda⟩ := (k1 b e.1.1.1 e.1.1.2.2).1 (by rw [hlab]; exact List.mem_map.2 ⟨e, he, rfl⟩)
  obtain ⟨e', he', hee'⟩ := List.mem_map.1 ((k1' b e.1.1.1 e.1.1.2.2).2 ⟨a, (hb a).1 hra, hca, hda⟩)
  refine ⟨e', he', hee'.trans hlab, by rw [(g e he).1, (g' e' he').1], ?_⟩
  obtain ⟨q, f, a1, a2, a3, _⟩ := (g e he).2.2 b a hra hca
  obtain ⟨q', f', b1, b2, b3, _⟩ := (g' e' he').2.2 b a ((hb a).1 hra) (by rw [hee']; exact hca)
  rw [a1] at b1; cases b1
  rw [a2] at b2; cases b2
  rw [a3, b3]

/-- Two chunks with building 7 meet the hypotheses. -/
example : ∃ r r', componentModel [(str "ea", 1)] town = .ok r ∧ componentModel [(str "ea", 1)] (town.take 1) = .ok r' ∧
    ∀ e ∈ r, e.1.1.2.1 = intStr 7 → ∃ e' ∈ r', e'.1.1 = e.1.1 ∧ e'.2.blocks = e.2.blocks ∧ e'.2.params.theta = e.2.params.theta := by
  have hsub : ∀ b a, Row (town.take 1) b a → Row town b a := fun b a ⟨rows, h1, h2⟩ => ⟨rows, List.mem_of_mem_take h1, h2⟩
  have hall := town_rows
  obtain ⟨r, hr⟩ := town_accepted
  have hd' : Directions (town.take 1) := fun b a h => town_directions b a (hsub b a h)
  obtain ⟨r', hr'⟩ := C129_accepted [(str "ea", 1)] (town.take 1) hd' (fun b a b' a' h h' _ =>
      ⟨(hall b a (hsub b a h)).2.1.trans (hall b' a' (hsub b' a' h')).2.1.symm, (hall b a (hsub b a h)).2.2.trans (hall b' a' (hsub b' a' h')).2.2.symm⟩)
    (fun b a h => ⟨1, by rw [(hall b a (hsub b a h)).2.1]; decide +kernel⟩) (fun b a h => ⟨1, by rw [(hall b a (hsub b a h)).2.2]; decide +kernel⟩)
  refine ⟨r, r', hr, hr', fun e he hl => ?_⟩
  refine C129_chunk_partial _ ea_noComma town (town.take 1) town_directions hd'
    (fun b a b' a' h h' _ => (hall b a h).1.trans (hall b' a' h').1.symm)
    (fun b a b' a' h h' _ => (hall b a (hsub b a h)).1.trans (hall b' a' (hsub b' a' h')).1.symm) r r' hr hr' 7 (fun a => ⟨?_, hsub 7 a⟩) e he hl
  rintro ⟨rows, h1, h2⟩
  refine ⟨rows, ?_, h2⟩
  simp only [town, List.mem_cons, List.not_mem_nil, or_false, Prod.mk.injEq] at h1
  rcases h1 with ⟨_, rfl⟩ | ⟨h, _⟩ | ⟨h, _⟩
  · exact List.mem_cons_self
  · exact absurd h (by decide)
  · exact absurd h (by decide)

/-- Violation of C129: two buildings that are accepted one by one are refused together, because one of them has two units of
the component and the other one.  So the result depends on the size of the chunks. -/
theorem C129_chunk_matters :
    (∃ r, componentModel [(str "ea", 1)] [(7, [⟨str "W1", str "ea", str "1", str "1"⟩])] = .ok r) ∧
    (∃ r, componentModel [(str "ea", 1)] [(3, [⟨str "W1", str "ea", str "1", str "2"⟩])] = .ok r) ∧
    componentModel [(str "ea", 1)] [(7, [⟨str "W1", str "ea", str "1", str "1"⟩]), (3, [⟨str "W1", str "ea", str "1", str "2"⟩])] =
      .error .valueError := by
  exact ⟨⟨_, rfl⟩, ⟨_, rfl⟩, rfl⟩

end Verif.RegAsset
