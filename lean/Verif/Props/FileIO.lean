import Verif.Model.FileIO
import Verif.Props.Labels

/-! # Property C28: saving and loading -/

namespace Verif.FileIO

theorem uniqueVals_mem {α : Type} [DecidableEq α] (seen l : List α) (a : α) :
    a ∈ uniqueVals seen l ↔ a ∈ l ∧ a ∉ seen := by
  induction l generalizing seen with
  | nil => simp [uniqueVals]
  | cons b l ih =>
    simp only [uniqueVals]
    split
    · rename_i h
      rw [ih]
      constructor
      · rintro ⟨h1, h2⟩; exact ⟨List.mem_cons_of_mem _ h1, h2⟩
      · rintro ⟨h1, h2⟩
        rcases List.mem_cons.1 h1 with rfl | h1
        · exact absurd h h2
        · exact ⟨h1, h2⟩
    · rename_i h
      rw [List.mem_cons, ih]
      constructor
      · rintro (rfl | ⟨h1, h2⟩)
        · exact ⟨List.mem_cons_self, h⟩
        · exact ⟨List.mem_cons_of_mem _ h1, fun h3 => h2 (List.mem_cons_of_mem _ h3)⟩
      · rintro ⟨h1, h2⟩
        rcases List.mem_cons.1 h1 with rfl | h1
        · exact .inl rfl
        · by_cases hab : a = b
          · exact .inl hab
          · exact .inr ⟨h1, by simp [hab, h2]⟩

theorem uniqueVals_nodup {α : Type} [DecidableEq α] (seen l : List α) : (uniqueVals seen l).Nodup := by
  induction l generalizing seen with
  | nil => exact List.nodup_nil
  | cons b l ih =>
    simp only [uniqueVals]
    split
    · exact ih seen
    · rw [List.nodup_cons]
      exact ⟨fun h => ((uniqueVals_mem _ _ _).1 h).2 List.mem_cons_self, ih _⟩

/-- The factor applied to a column while the units `us` are handled. -/
def doneFactor (table : Dict Str ℚ) (units : Dict Label Str) (us : List Str) (l : Label) : ℚ :=
  match units.get? l with
  | none => 1
  | some u => if u ∈ us then 1 / ((table.get? u).getD 1) else 1

theorem scaleCells_one (v : List (Option ℚ)) : scaleCells 1 v = v := by
  unfold scaleCells
  conv_rhs => rw [← List.map_id v]
  congr 1; funext x; cases x <;> simp

theorem scaleCells_mul (f g : ℚ) (v : List (Option ℚ)) :
    scaleCells f (scaleCells g v) = scaleCells (g * f) v := by
  unfold scaleCells
  rw [List.map_map]
  congr 1; funext x; cases x <;> simp [mul_assoc]

theorem scaleLoop_ok (table : Dict Str ℚ) (units : Dict Label Str) (hu : units.NoDupKeys)
    (us : List Str) (hnd : us.Nodup) (hk : ∀ u ∈ us, ∃ f, table.get? u = some f)
    (data : List Column) :
    scaleLoop table units us data =
      .ok (data.map fun c => (c.1, scaleCells (doneFactor table units us c.1) c.2)) := by
  induction us generalizing data with
  | nil =>
    simp only [scaleLoop]
    congr 1
    conv_lhs => rw [← List.map_id data]
    congr 1; funext c
    have : doneFactor table units [] c.1 = 1 := by unfold doneFactor; split <;> simp
    rw [this, scaleCells_one]; rfl
  | cons u us ih =>
    rw [List.nodup_cons] at hnd
    obtain ⟨f, hf⟩ := hk u List.mem_cons_self
    simp only [scaleLoop, hf]
    rw [ih hnd.2 (fun x hx => hk x (List.mem_cons_of_mem _ hx))]
    congr 1
    unfold scaleLabels
    rw [List.map_map]
    congr 1; funext c
    have hmem : c.1 ∈ (units.filter fun e => e.2 = u).map Prod.fst ↔ units.get? c.1 = some u := by
      rw [Dict.get?_iff_mem hu]
      constructor
      · intro h
        obtain ⟨e, he, hc⟩ := List.mem_map.1 h
        obtain ⟨h1, h2⟩ := List.mem_filter.1 he
        obtain ⟨a, b⟩ := e
        simp only [decide_eq_true_eq] at h2
        simp only at hc
        subst h2; subst hc; exact h1
      · intro h
        exact List.mem_map.2 ⟨_, List.mem_filter.2 ⟨h, by simp⟩, rfl⟩
    simp only [Function.comp]
    by_cases hc : units.get? c.1 = some u
    · rw [if_pos (hmem.2 hc)]
      have h1 : doneFactor table units us c.1 = 1 := by
        unfold doneFactor; rw [hc]; simp [hnd.1]
      have h2 : doneFactor table units (u :: us) c.1 = 1 / f := by
        unfold doneFactor; rw [hc]; simp [hf]
      simp only [h1, h2, scaleCells_one]
    · rw [if_neg (fun h => hc (hmem.1 h))]
      have : doneFactor table units (u :: us) c.1 = doneFactor table units us c.1 := by
        unfold doneFactor
        cases hg : units.get? c.1 with
        | none => rfl
        | some w =>
          have : w ≠ u := fun h => hc (by rw [hg, h])
          simp [this]
      rw [this]

theorem scaleLoop_error (table : Dict Str ℚ) (units : Dict Label Str) (us : List Str) (u : Str)
    (h : u ∈ us) (hu : table.get? u = none) (data : List Column) :
    scaleLoop table units us data = .error .keyError := by
  induction us generalizing data with
  | nil => simp at h
  | cons x xs ih =>
    simp only [scaleLoop]
    cases hx : table.get? x with
    | none => rfl
    | some f =>
      rcases List.mem_cons.1 h with rfl | h
      · rw [hu] at hx; cases hx
      · exact ih h _

theorem labelLe_total (a b : Label) : labelLe a b = true ∨ labelLe b a = true := by
  induction a generalizing b with
  | nil => left; rfl
  | cons x xs ih =>
    cases b with
    | nil => right; rfl
    | cons y ys =>
      simp only [labelLe]
      by_cases h : x = y
      · subst h; simpa using ih ys
      · rw [if_neg h, if_neg (fun e => h e.symm)]; exact strLe_total x y

theorem labelLe_trans (a b c : Label) (h1 : labelLe a b = true) (h2 : labelLe b c = true) :
    labelLe a c = true := by
  induction a generalizing b c with
  | nil => rfl
  | cons x xs ih =>
    cases b with
    | nil => simp [labelLe] at h1
    | cons y ys =>
      cases c with
      | nil => simp [labelLe] at h2
      | cons z zs =>
        simp only [labelLe] at *
        by_cases hxy : x = y
        · subst hxy
          by_cases hxz : x = z
          · subst hxz; simp at *; exact ih _ _ h1 h2
          · rw [if_neg hxz] at *; exact h2
        · rw [if_neg hxy] at h1
          by_cases hyz : y = z
          · subst hyz; rw [if_neg hxy]; exact h1
          · rw [if_neg hyz] at h2
            by_cases hxz : x = z
            · subst hxz; exact absurd (strLe_antisymm _ _ h1 h2) hxy
            · rw [if_neg hxz]; exact strLe_trans _ _ _ h1 h2

theorem toMulti_join (n : Nat) (rows : List Label) (hn : 1 ≤ n) (hne : rows ≠ [])
    (hlen : ∀ r ∈ rows, r.length = n) (hd : ∀ r ∈ rows, ∀ l ∈ r, '-' ∉ l) :
    ∃ idx, Labels.toMulti (.simple (rows.map (joinChar '-'))) = .ok idx ∧ rowsOf idx = rows := by
  rcases Nat.lt_or_ge 1 n with h | h
  · have := (Labels.C06_multi_round_trip n rows h hne hlen).2 hd
    simp only [Labels.toSimple, gt_iff_lt, h, if_true] at this
    exact ⟨_, this, rfl⟩
  · have hn1 : n = 1 := by omega
    subst hn1
    have hs : ∀ r ∈ rows, splitChar '-' (joinChar '-' r) = r := fun r hr =>
      split_join '-' r (by intro e; have := hlen r hr; subst e; simp at this) (hd r hr)
    have hmap : List.map (splitChar '-') (rows.map (joinChar '-')) = rows := by
      rw [List.map_map]
      conv_rhs => rw [← List.map_id rows]
      exact List.map_congr_left (fun r hr => by simpa using hs r hr)
    refine ⟨.simple (rows.map (joinChar '-')), ?_, ?_⟩
    · have hne' : rows.map (joinChar '-') ≠ [] := by simpa using hne
      simp only [Labels.toMulti, hne', if_false, hmap, Labels.maxLen_const rows 1 hne hlen]
      simp
    · simp only [rowsOf, List.map_map]
      conv_rhs => rw [← List.map_id rows]
      refine List.map_congr_left (fun r hr => ?_)
      have := hlen r hr
      match r, this with
      | [x], _ => rfl

/-- Values written to the file: those of a column with unit `u` are divided by the factor of
`u`, those of other columns are kept. -/
def InFile (table : Dict Str ℚ) (units : Dict Label Str) (c : Column)
    (e : Str × Option Str × List (Option ℚ)) : Prop :=
  e.1 = joinChar '-' c.1 ∧ e.2.1 = units.get? c.1 ∧
  match units.get? c.1 with
  | none => e.2.2 = c.2
  | some u => ∃ f, table.get? u = some f ∧ e.2.2 = c.2.map (Option.map (· / f))

theorem saveToCsv_units (table : Dict Str ℚ) (units : Dict Label Str) (hu : units.NoDupKeys)
    (data : List Column) (hk : ∀ u ∈ units.map Prod.snd, ∃ f, table.get? u = some f) :
    saveToCsv data (some units) (some table) = .ok ⟨true, withUnits units
      (data.map fun c => (c.1, scaleCells (1 / loadFactor table (units.get? c.1)) c.2))⟩ := by
  simp only [saveToCsv]
  rw [scaleLoop_ok table units hu _ (uniqueVals_nodup _ _)
    (fun u h => hk u ((uniqueVals_mem _ _ _).1 h).1)]
  simp only
  congr 4
  funext c
  congr 2
  unfold doneFactor loadFactor
  cases hg : units.get? c.1 with
  | none => simp
  | some u =>
    have hm := List.mem_map_of_mem (f := Prod.snd) (Dict.mem_of_get? hg)
    obtain ⟨f, hf⟩ := hk u hm
    simp only
    rw [if_pos ((uniqueVals_mem _ _ _).2 ⟨hm, by simp⟩), hf]
    rfl

/-- C28, the saved file: each column is written once, with its values divided by the factor of
its unit. -/
theorem C28_saved_values (table : Dict Str ℚ) (units : Dict Label Str) (hu : units.NoDupKeys)
    (data : List Column) (hk : ∀ u ∈ units.map Prod.snd, ∃ f, table.get? u = some f) :
    ∃ t : FileTable, saveToCsv data (some units) (some table) = .ok t ∧ t.hasUnits = true ∧
      ∃ data', data'.Perm data ∧ List.Forall₂ (InFile table units) data' t.cols := by
  refine ⟨_, saveToCsv_units table units hu data hk, rfl, ?_⟩
  unfold withUnits
  simp only
  -- undo the scaling on the sorted list
  let g : Column → Column := fun c => (c.1, scaleCells (1 / loadFactor table (units.get? c.1)) c.2)
  have hins : ∀ (a : Column) (l : List Column), insertSorted (fun a b => labelLe a.1 b.1) (g a)
      (l.map g) = (insertSorted (fun a b => labelLe a.1 b.1) a l).map g := by
    intro a l
    induction l with
    | nil => rfl
    | cons b l ih =>
      simp only [List.map_cons, insertSorted]
      by_cases h : labelLe a.1 b.1 = true
      · have h' : labelLe (g a).1 (g b).1 = true := h
        rw [if_pos h, if_pos h']; rfl
      · have h' : ¬ labelLe (g a).1 (g b).1 = true := h
        rw [if_neg h, if_neg h', List.map_cons, ih]
  have hsort : ∀ l : List Column, pySort (fun a b => labelLe a.1 b.1) (l.map g) =
      (pySort (fun a b => labelLe a.1 b.1) l).map g := by
    intro l
    induction l with
    | nil => rfl
    | cons a l ih => simp only [List.map_cons, pySort]; rw [ih, hins]
  refine ⟨pySort (fun a b => labelLe a.1 b.1) data, pySort_perm _ _, ?_⟩
  have : pySort (fun a b => labelLe a.1 b.1) (data.map g) = (pySort (fun a b => labelLe a.1 b.1) data).map g :=
    hsort data
  rw [show (fun c : Column => (c.1, scaleCells (1 / loadFactor table (units.get? c.1)) c.2)) = g from rfl,
    this, List.map_map, List.forall₂_map_right_iff, List.forall₂_same]
  intro c _
  refine ⟨rfl, rfl, ?_⟩
  show match units.get? c.1 with
    | none => scaleCells (1 / loadFactor table (units.get? c.1)) c.2 = c.2
    | some u => ∃ f, table.get? u = some f ∧
        scaleCells (1 / loadFactor table (units.get? c.1)) c.2 = c.2.map (Option.map (· / f))
  cases hg : units.get? c.1 with
  | none => simp [loadFactor, scaleCells_one]
  | some u =>
    obtain ⟨f, hf⟩ := hk u (List.mem_map_of_mem (f := Prod.snd) (Dict.mem_of_get? hg))
    refine ⟨f, hf, ?_⟩
    simp only [loadFactor, hf, scaleCells, one_div, div_eq_mul_inv, one_mul]

/-- C28, the proved part: a table with labels of `n` levels without dashes, saved in user units
that are all in the unit table with nonzero factors and loaded with the same unit table, has the
same columns with the same values (sorted by label).  Arithmetic is exact.  What is missing:
unknown units are not reported when loading, see `C28_unknown_unit_ignored`. -/
theorem C28_round_trip_partial (table : Dict Str ℚ) (units : Dict Label Str) (hu : units.NoDupKeys)
    (data : List Column) (n : Nat) (hn : 1 ≤ n) (hne : data ≠ [])
    (hlen : ∀ c ∈ data, c.1.length = n) (hd : ∀ c ∈ data, ∀ l ∈ c.1, '-' ∉ l)
    (hk : ∀ u ∈ units.map Prod.snd, ∃ f, table.get? u = some f ∧ f ≠ 0) :
    ∃ t r, saveToCsv data (some units) (some table) = .ok t ∧
      loadData t (some table) = .ok r ∧ r.Perm data ∧
      r.Pairwise (fun a b => labelLe a.1 b.1 = true) := by
  have hk' : ∀ u ∈ units.map Prod.snd, ∃ f, table.get? u = some f := fun u h =>
    (hk u h).imp fun _ h => h.1
  have hsave := saveToCsv_units table units hu data hk'
  set data' := data.map fun c => (c.1, scaleCells (1 / loadFactor table (units.get? c.1)) c.2)
    with hdata'
  set s := pySort (fun a b => labelLe a.1 b.1) data' with hs
  have hsp : s.Perm data' := pySort_perm _ _
  have hlab : ∀ c ∈ s, ∃ c' ∈ data, c'.1 = c.1 := by
    intro c hc
    rw [hsp.mem_iff, hdata'] at hc
    obtain ⟨c', h1, rfl⟩ := List.mem_map.1 hc
    exact ⟨c', h1, rfl⟩
  have hsne : s.map Prod.fst ≠ [] := by
    intro h
    have h0 : s.length = 0 := by simpa using congrArg List.length h
    rw [hsp.length_eq, hdata', List.length_map] at h0
    exact hne (List.length_eq_zero_iff.1 h0)
  obtain ⟨idx, hidx, hrows⟩ := toMulti_join n (s.map Prod.fst) hn hsne
    (by
      intro r hr
      obtain ⟨c, hc, rfl⟩ := List.mem_map.1 hr
      obtain ⟨c', h1, h2⟩ := hlab c hc
      rw [← h2]; exact hlen c' h1)
    (by
      intro r hr
      obtain ⟨c, hc, rfl⟩ := List.mem_map.1 hr
      obtain ⟨c', h1, h2⟩ := hlab c hc
      rw [← h2]; exact hd c' h1)
  have hcols : (withUnits units data').map Prod.fst = (s.map Prod.fst).map (joinChar '-') := by
    unfold withUnits; rw [List.map_map, List.map_map]; rfl
  have hload : loadData ⟨true, withUnits units data'⟩ (some table) =
      .ok (pySort (fun a b => labelLe a.1 b.1)
        ((rowsOf idx).zip (loadCells ⟨true, withUnits units data'⟩ (some table)))) := by
    simp only [loadData, hcols, hidx]
  refine ⟨_, _, hsave, hload, ?_, pySort_sorted (fun a b => labelLe_total a.1 b.1)
    (fun a b c => labelLe_trans a.1 b.1 c.1) _⟩
  · refine (pySort_perm _ _).trans ?_
    rw [hrows]
    simp only [loadCells, withUnits, List.map_map]
    rw [List.zip_map']
    refine (hsp.map _).trans ?_
    rw [hdata', List.map_map]
    refine List.Perm.of_eq ?_
    conv_rhs => rw [← List.map_id data]
    refine List.map_congr_left (fun c _ => ?_)
    simp only [Function.comp, scaleCells_mul, id]
    have : 1 / loadFactor table (units.get? c.1) * loadFactor table (units.get? c.1) = 1 := by
      apply one_div_mul_cancel
      unfold loadFactor
      cases hg : units.get? c.1 with
      | none => simp
      | some u =>
        obtain ⟨f, hf, h0⟩ := hk u (List.mem_map_of_mem (f := Prod.snd) (Dict.mem_of_get? hg))
        simp only [hf]; exact h0
    rw [this, scaleCells_one]

/-- C28: a table saved without units is loaded with the same values, whatever unit table is passed. -/
theorem C28_without_units (data : List Column) (n : Nat) (hn : 1 ≤ n) (hne : data ≠ [])
    (hlen : ∀ c ∈ data, c.1.length = n) (hd : ∀ c ∈ data, ∀ l ∈ c.1, '-' ∉ l)
    (table table' : Option (Dict Str ℚ)) :
    ∃ t r, saveToCsv data none table = .ok t ∧ loadData t table' = .ok r ∧ r.Perm data := by
  refine ⟨⟨false, data.map fun c => (joinChar '-' c.1, none, c.2)⟩, ?_⟩
  obtain ⟨idx, hidx, hrows⟩ := toMulti_join n (data.map Prod.fst) hn
    (by simpa using hne)
    (by
      intro r hr
      obtain ⟨c, hc, rfl⟩ := List.mem_map.1 hr
      exact hlen c hc)
    (by
      intro r hr
      obtain ⟨c, hc, rfl⟩ := List.mem_map.1 hr
      exact hd c hc)
  refine ⟨pySort (fun a b => labelLe a.1 b.1) ((data.map Prod.fst).zip (data.map Prod.snd)), rfl, ?_, ?_⟩
  · simp only [loadData, List.map_map]
    rw [List.map_map] at hidx
    have : (Prod.fst ∘ fun c : Column => (joinChar '-' c.1, (none : Option Str), c.2)) = joinChar '-' ∘ Prod.fst := rfl
    rw [this, hidx]
    simp only [hrows, loadCells, List.map_map]
    rfl
  · refine (pySort_perm _ _).trans ?_
    rw [List.zip_map']
    simp

/-- C28: units without a unit table are refused. -/
theorem C28_units_need_table (data : List Column) (units : Dict Label Str) :
    saveToCsv data (some units) none = .error .valueError := rfl

/-- C28: saving with a unit that is not in the table is refused, also when no column has it. -/
theorem C28_unknown_unit_refused_on_save (table : Dict Str ℚ) (units : Dict Label Str)
    (data : List Column) (l : Label) (u : Str) (h : (l, u) ∈ units) (hu : table.get? u = none) :
    saveToCsv data (some units) (some table) = .error .keyError := by
  have hm : u ∈ uniqueVals [] (units.map Prod.snd) :=
    (uniqueVals_mem _ _ _).2 ⟨List.mem_map.2 ⟨_, h, rfl⟩, by simp⟩
  simp only [saveToCsv, scaleLoop_error table units _ u hm hu data]

/-- Violation of the second half of C28: a file in an unknown unit is loaded without any error,
for every unit table that lacks the unit, with the numbers taken as they are. -/
theorem C28_unknown_unit_ignored (table : Dict Str ℚ) (u : Str) (hu : table.get? u = none)
    (v : List (Option ℚ)) :
    loadData ⟨true, [(str "PFA-1-1", some u, v)]⟩ (some table) =
      .ok [([str "PFA", str "1", str "1"], v)] := by
  have h : Labels.toMulti (.simple [str "PFA-1-1"]) = .ok (.multi 3 [[str "PFA", str "1", str "1"]]) := by
    decide +kernel
  simp only [loadData, List.map_cons, List.map_nil, h, rowsOf, loadCells, loadFactor, hu, scaleCells_one]
  rfl

/-- A table with two units and a column without unit meets the hypotheses of C28. -/
def exData : List Column :=
  [([str "PID", str "1", str "1"], [some (1 / 100), none]),
   ([str "PFA", str "1", str "1"], [some (981 / 100), some 2]),
   ([str "PFA", str "0", str "1"], [some 3, some 4])]
def exUnits : Dict Label Str :=
  [([str "PFA", str "0", str "1"], str "g"), ([str "PFA", str "1", str "1"], str "inps2"),
   ([str "SA", str "0", str "1"], str "g")]
def exTable : Dict Str ℚ := [(str "g", 981 / 100), (str "inps2", 254 / 10000), (str "unitless", 1)]

example : exUnits.NoDupKeys ∧ exData ≠ [] ∧ (∀ c ∈ exData, c.1.length = 3) ∧
    (∀ c ∈ exData, ∀ l ∈ c.1, '-' ∉ l) ∧
    (∀ u ∈ exUnits.map Prod.snd, ∃ f, exTable.get? u = some f ∧ f ≠ 0) := by
  refine ⟨by unfold Dict.NoDupKeys; decide, by decide, by decide, by decide, ?_⟩
  intro u hu
  simp only [exUnits, List.map_cons, List.map_nil, List.mem_cons, List.not_mem_nil, or_false] at hu
  rcases hu with rfl | rfl | rfl
  · exact ⟨981 / 100, by decide +kernel, by norm_num⟩
  · exact ⟨254 / 10000, by decide +kernel, by norm_num⟩
  · exact ⟨981 / 100, by decide +kernel, by norm_num⟩

end Verif.FileIO
