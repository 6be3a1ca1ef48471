import Verif.Model.Samples
import Verif.Props.FileIO
import Verif.Lemmas.Lists
import Mathlib.Data.List.Nodup

/-!
# Property C87: component, damage and loss samples survive saving and loading
-/

namespace Verif.Samples

open FileIO

/-- The columns of a table: `n` parts in each label, no part with a dash, all labels different. -/
structure Plain (n : Nat) (cols : List Column) : Prop where
  nonempty : cols ≠ []
  parts : ∀ c ∈ cols, c.1.length = n
  noDash : ∀ c ∈ cols, ∀ l ∈ c.1, '-' ∉ l
  distinct : (cols.map Prod.fst).Nodup

/-- Two tables have the same columns with the same values, and the second one is sorted by label. -/
def SameSorted (cols cols' : List Column) : Prop :=
  cols'.Perm cols ∧ cols'.Pairwise fun a b => labelLe a.1 b.1 = true

theorem seriesE_ok {l : List (Label × Option Str)} {us : List (Label × Str)} (h : seriesE l = .ok us) :
    l = us.map fun e => (e.1, some e.2) := by
  unfold seriesE at h
  rw [mapE_ok_iff] at h
  induction h with
  | nil => rfl
  | cons h _ ih =>
    rename_i a b l1 l2 _
    obtain ⟨x, y⟩ := a
    cases y with
    | none => cases h
    | some u =>
      simp only [Except.ok.injEq] at h
      subst h
      rw [List.map_cons, ← ih]

theorem seriesE_map (us : List (Label × Str)) : seriesE (us.map fun e => (e.1, some e.2)) = .ok us := by
  unfold seriesE
  rw [mapE_ok_iff]
  induction us with
  | nil => exact .nil
  | cons a us ih => exact .cons rfl ih

theorem seriesE_none {l : List (Label × Option Str)} {e : Label} (h : (e, none) ∈ l) : seriesE l = .error .keyError := by
  unfold seriesE
  induction l with
  | nil => cases h
  | cons a l ih =>
    unfold mapE
    obtain ⟨x, y⟩ := a
    rcases List.mem_cons.1 h with h' | h'
    · cases h'; rfl
    · cases y with
      | none => rfl
      | some u => simp only; rw [ih h']

/-- The file that `save_to_csv` writes is loaded with the same columns, the same values and the units of the columns. -/
theorem save_load (table : Dict Str ℚ) (us : Dict Label Str) (hu : us.NoDupKeys) (cols : List Column) (n : Nat) (hn : 2 ≤ n)
    (hp : Plain n cols) (hk : ∀ u ∈ us.map Prod.snd, ∃ f, table.get? u = some f ∧ f ≠ 0) (unit : Column → Str)
    (hcov : ∀ c ∈ cols, us.get? c.1 = some (unit c)) :
    ∃ t l us', saveToCsv cols (some us) (some table) = .ok t ∧ loadDataUnits t table = .ok l ∧ l.levels = n ∧
      SameSorted cols l.cols ∧ l.units = some us' ∧ us'.Perm (cols.map fun c => (c.1, unit c)) := by
  have hk' : ∀ u ∈ us.map Prod.snd, ∃ f, table.get? u = some f := fun u h => (hk u h).imp fun _ h => h.1
  have hsave := saveToCsv_units table us hu cols hk'
  set data' := cols.map fun c => (c.1, scaleCells (1 / loadFactor table (us.get? c.1)) c.2) with hdata'
  set s := pySort (fun a b => labelLe a.1 b.1) data' with hs
  have hsp : s.Perm data' := pySort_perm _ _
  have hlab : ∀ c ∈ s, ∃ c' ∈ cols, c'.1 = c.1 := by
    intro c hc
    rw [hsp.mem_iff, hdata'] at hc
    obtain ⟨c', h1, rfl⟩ := List.mem_map.1 hc
    exact ⟨c', h1, rfl⟩
  have hsne : s.map Prod.fst ≠ [] := by
    intro h
    have h0 : s.length = 0 := by simpa using congrArg List.length h
    rw [hsp.length_eq, hdata', List.length_map] at h0
    exact hp.nonempty (List.length_eq_zero_iff.1 h0)
  have hidx : Labels.toMulti (.simple ((s.map Prod.fst).map (joinChar '-'))) = .ok (.multi n (s.map Prod.fst)) := by
    have := (Labels.C06_multi_round_trip n (s.map Prod.fst) hn hsne (by
      intro r hr
      obtain ⟨c, hc, rfl⟩ := List.mem_map.1 hr
      obtain ⟨c', h1, h2⟩ := hlab c hc
      rw [← h2]; exact hp.parts c' h1)).2 (by
      intro r hr
      obtain ⟨c, hc, rfl⟩ := List.mem_map.1 hr
      obtain ⟨c', h1, h2⟩ := hlab c hc
      rw [← h2]; exact hp.noDash c' h1)
    simp only [Labels.toSimple, gt_iff_lt, show 1 < n by omega, if_true] at this
    exact this
  have hcols : (withUnits us data').map Prod.fst = (s.map Prod.fst).map (joinChar '-') := by
    unfold withUnits; rw [List.map_map, List.map_map]; rfl
  have hload : loadDataUnits ⟨true, withUnits us data'⟩ table = .ok {
      levels := n
      cols := pySort (fun a b => labelLe a.1 b.1) ((s.map Prod.fst).zip (loadCells ⟨true, withUnits us data'⟩ (some table)))
      units := some (pySort (fun a b => labelLe a.1 b.1)
          (((s.map Prod.fst).zip ((withUnits us data').map fun c => c.2.1)).filterMap fun e => e.2.map fun u => (e.1, u))) } := by
    simp only [loadDataUnits, hcols, hidx]
    rfl
  refine ⟨_, _, _, hsave, hload, rfl, ⟨?_, pySort_sorted (fun a b => labelLe_total a.1 b.1)
    (fun a b c => labelLe_trans a.1 b.1 c.1) _⟩, rfl, ?_⟩
  · refine (pySort_perm _ _).trans ?_
    simp only [loadCells, withUnits, List.map_map]
    rw [List.zip_map']
    refine (hsp.map _).trans ?_
    rw [hdata', List.map_map]
    refine List.Perm.of_eq ?_
    conv_rhs => rw [← List.map_id cols]
    refine List.map_congr_left (fun c _ => ?_)
    simp only [Function.comp, scaleCells_mul, id]
    have : 1 / loadFactor table (us.get? c.1) * loadFactor table (us.get? c.1) = 1 := by
      apply one_div_mul_cancel
      unfold loadFactor
      cases hg : us.get? c.1 with
      | none => simp
      | some u =>
        obtain ⟨f, hf, h0⟩ := hk u (List.mem_map_of_mem (f := Prod.snd) (Dict.mem_of_get? hg))
        simp only [hf]; exact h0
    rw [this, scaleCells_one]
  · refine (pySort_perm _ _).trans ?_
    unfold withUnits
    rw [List.map_map, List.zip_map']
    refine ((hsp.map _).filterMap _).trans ?_
    rw [hdata', List.map_map, List.filterMap_map]
    refine List.Perm.of_eq ?_
    rw [← List.filterMap_eq_map]
    apply List.filterMap_congr
    intro c hc
    simp [Function.comp, hcov c hc]

theorem firstUnits_mem {us : List (Label × Str)} {k u : Str} (h : (k, u) ∈ firstUnits us) :
    ∃ lab, (lab, u) ∈ us ∧ lab.head? = some k := by
  obtain ⟨k', _, he⟩ := List.mem_filterMap.1 h
  obtain ⟨e, hf, he⟩ := Option.map_eq_some_iff.1 he
  cases he
  exact ⟨e.1, List.mem_of_find?_eq_some hf, by simpa using List.find?_some hf⟩

theorem firstUnits_keys (us : List (Label × Str)) (k : Str) :
    k ∈ (firstUnits us).keys ↔ ∃ e ∈ us, e.1.head? = some k := by
  constructor
  · intro h
    obtain ⟨e, he, rfl⟩ := List.mem_map.1 h
    obtain ⟨lab, h1, h2⟩ := firstUnits_mem (k := e.1) (u := e.2) he
    exact ⟨_, h1, h2⟩
  · rintro ⟨e, he, hk⟩
    have hsome : (us.find? fun e => decide (e.1.head? = some k)).isSome := by
      rw [List.find?_isSome]
      exact ⟨e, he, by simpa using hk⟩
    obtain ⟨e', he'⟩ := Option.isSome_iff_exists.1 hsome
    refine List.mem_map.2 ⟨(k, e'.2), List.mem_filterMap.2 ⟨k, ?_, by rw [he']; rfl⟩, rfl⟩
    rw [mem_pySort, uniqueVals_mem]
    exact ⟨List.mem_filterMap.2 ⟨e, he, hk⟩, by simp⟩

theorem firstUnits_nodup (us : List (Label × Str)) : (firstUnits us).NoDupKeys := by
  unfold Dict.NoDupKeys Dict.keys firstUnits
  have h : (pySort strLe (uniqueVals [] (us.filterMap fun e => e.1.head?))).Nodup :=
    (pySort_perm _ _).nodup_iff.2 (uniqueVals_nodup _ _)
  generalize pySort strLe (uniqueVals [] (us.filterMap fun e => e.1.head?)) = l at h
  induction l with
  | nil => exact List.nodup_nil
  | cons a l ih =>
    rw [List.nodup_cons] at h
    rw [List.filterMap_cons]
    split
    · exact ih h.2
    · rename_i b hb
      rw [List.map_cons, List.nodup_cons]
      refine ⟨?_, ih h.2⟩
      obtain ⟨e, _, rfl⟩ := Option.map_eq_some_iff.1 hb
      intro hm
      obtain ⟨x, hx, hxe⟩ := List.mem_map.1 hm
      obtain ⟨k, hk, hke⟩ := List.mem_filterMap.1 hx
      obtain ⟨_, _, rfl⟩ := Option.map_eq_some_iff.1 hke
      simp only at hxe
      subst hxe
      exact h.1 hk

/-- The units of components, restored from those of the columns. -/
theorem firstUnits_perm {us : List (Label × Str)} {units : Dict Str Str} (hn : units.NoDupKeys)
    (h1 : ∀ lab u, (lab, u) ∈ us → ∃ k, lab.head? = some k ∧ (k, u) ∈ units)
    (h2 : ∀ k ∈ units.keys, ∃ e ∈ us, e.1.head? = some k) : (firstUnits us).Perm units := by
  rw [List.perm_ext_iff_of_nodup (List.Nodup.of_map _ (firstUnits_nodup us)) (List.Nodup.of_map _ hn)]
  intro e
  obtain ⟨k, u⟩ := e
  constructor
  · intro h
    obtain ⟨lab, hm, hk⟩ := firstUnits_mem h
    obtain ⟨k', hk', hmem⟩ := h1 lab u hm
    rw [hk] at hk'
    cases hk'
    exact hmem
  · intro h
    have hkey := (firstUnits_keys us k).2 (h2 k (List.mem_map_of_mem h))
    obtain ⟨e, he, rfl⟩ := List.mem_map.1 hkey
    obtain ⟨lab, hm, hk⟩ := firstUnits_mem (k := e.1) (u := e.2) he
    obtain ⟨k', hk', hmem⟩ := h1 lab _ hm
    rw [hk] at hk'
    cases hk'
    have e1 := Dict.get?_of_mem hn hmem
    have e2 := Dict.get?_of_mem hn h
    rw [e1] at e2
    cases e2
    exact he

/-! ## Components -/

/-- Every component of the sample has a known unit with a nonzero factor. -/
def UnitsFor (table : Dict Str ℚ) (cols : List Column) (units : Dict Str Str) : Prop :=
  units.NoDupKeys ∧ (∀ u ∈ units.map Prod.snd, ∃ f, table.get? u = some f ∧ f ≠ 0) ∧
    ∀ c ∈ cols, ∃ k u, c.1.head? = some k ∧ (k, u) ∈ units

/-- **C87, components.** A component sample that is saved to a file and loaded from it has the same columns, values and
units; every performance group has one block. -/
theorem C87_component_sample (table : Dict Str ℚ) (s : CmpSample) (hp : Plain 4 s.cols) (hu : UnitsFor table s.cols s.units)
    (hused : ∀ k ∈ s.units.keys, ∃ c ∈ s.cols, c.1.head? = some k) :
    ∃ t r, saveCmp table s = .ok t ∧ loadCmp table t = .ok r ∧ SameSorted s.cols r.cols ∧ r.units.Perm s.units ∧
      r.blocks = r.cols.map fun c => (c.1, 1) := by
  obtain ⟨hn, hknown, hcov⟩ := hu
  set unit : Column → Str := fun c => ((c.1.head?.bind s.units.get?).getD []) with hunit
  have hget : ∀ c ∈ s.cols, c.1.head?.bind s.units.get? = some (unit c) := by
    intro c hc
    obtain ⟨k, u, h1, h2⟩ := hcov c hc
    simp only [hunit, h1, Option.bind_some, Dict.get?_of_mem hn h2, Option.getD_some]
  set us : Dict Label Str := s.cols.map fun c => (c.1, unit c) with hus
  have hser : seriesE (s.cols.map fun c => (c.1, c.1.head?.bind s.units.get?)) = .ok us := by
    rw [← seriesE_map us, hus, List.map_map]
    congr 1
    apply List.map_congr_left
    intro c hc
    simp only [Function.comp, hget c hc]
  have hund : us.NoDupKeys := by
    unfold Dict.NoDupKeys Dict.keys
    rw [hus, List.map_map]
    exact hp.distinct
  have huin : ∀ c ∈ s.cols, ∃ k, c.1.head? = some k ∧ (k, unit c) ∈ s.units := by
    intro c hc
    obtain ⟨k, u, h1, h2⟩ := hcov c hc
    refine ⟨k, h1, ?_⟩
    have := hget c hc
    rw [h1, Option.bind_some, Dict.get?_of_mem hn h2] at this
    cases this
    exact h2
  obtain ⟨t, l, us', h1, h2, h3, h4, h5, h6⟩ := save_load table us hund s.cols 4 (by omega) hp (by
    intro u h
    rw [hus, List.map_map] at h
    obtain ⟨c, hc, rfl⟩ := List.mem_map.1 h
    obtain ⟨k, _, hk⟩ := huin c hc
    exact hknown _ (List.mem_map_of_mem (f := Prod.snd) hk)) unit (by
    intro c hc
    exact Dict.get?_of_mem hund (List.mem_map.2 ⟨c, hc, rfl⟩))
  refine ⟨t, ⟨l.cols, firstUnits us', l.cols.map fun c => (c.1, 1)⟩, ?_, ?_, h4, ?_, rfl⟩
  · unfold saveCmp
    rw [if_pos hused, hser]
    exact h1
  · unfold loadCmp
    rw [h2]
    simp only [h5, h3]
    rfl
  · apply firstUnits_perm hn
    · intro lab u h
      obtain ⟨c, hc, he⟩ := List.mem_map.1 (h6.mem_iff.1 h)
      cases he
      exact huin c hc
    · intro k hk
      obtain ⟨c, hc, he⟩ := hused k hk
      exact ⟨_, h6.mem_iff.2 (List.mem_map.2 ⟨c, hc, rfl⟩), he⟩

/-- **C87, samples without uid.** A file of a component sample whose labels have three parts, all different, is loaded with
the uid 0 for every column. -/
theorem C87_component_sample_without_uid (table : Dict Str ℚ) (cols : List Column) (us : Dict Label Str) (hu : us.NoDupKeys)
    (hp : Plain 3 cols) (hk : ∀ u ∈ us.map Prod.snd, ∃ f, table.get? u = some f ∧ f ≠ 0) (unit : Column → Str)
    (hcov : ∀ c ∈ cols, us.get? c.1 = some (unit c)) :
    ∃ t r, saveToCsv cols (some us) (some table) = .ok t ∧ loadCmp table t = .ok r ∧
      SameSorted (cols.map fun c => (c.1 ++ [str "0"], c.2)) r.cols ∧
      ∀ k u, (k, u) ∈ r.units → ∃ c ∈ cols, c.1.head? = some k ∧ unit c = u := by
  obtain ⟨t, l, us', h1, h2, h3, h4, h5, h6⟩ := save_load table us hu cols 3 (by omega) hp hk unit hcov
  refine ⟨t, ⟨addUid l.cols, firstUnits us', (addUid l.cols).map fun c => (c.1, 1)⟩, h1, ?_, ⟨?_, ?_⟩, ?_⟩
  · unfold loadCmp
    rw [h2]
    simp only [h5, h3]
    rfl
  · unfold addUid Labels.dedupeIndex
    refine ((pySort_perm _ _).map _).trans ?_
    have hl : (l.cols.map Prod.fst).Nodup := (h4.1.map Prod.fst).nodup_iff.2 hp.distinct
    have huid : ∀ (rows : List Column) (seen : List Label), (rows.map Prod.fst).Nodup → (∀ c ∈ rows, c.1 ∉ seen) →
        (Labels.withUid seen rows).map (fun e => (e.1.1 ++ [e.1.2], e.2)) = rows.map fun c => (c.1 ++ [str "0"], c.2) := by
      intro rows
      induction rows with
      | nil => intro _ _ _; rfl
      | cons c rows ih =>
        intro seen hn hs
        rw [List.map_cons, List.nodup_cons] at hn
        unfold Labels.withUid
        rw [List.map_cons, List.map_cons, ih (c.1 :: seen) hn.2, @List.count_eq_zero_of_not_mem _ instBEqOfDecidableEq _ _ _ (hs c List.mem_cons_self)]
        · rfl
        · intro c' hc' hm
          rcases List.mem_cons.1 hm with h | h
          · exact hn.1 (h ▸ List.mem_map_of_mem hc')
          · exact hs c' (List.mem_cons_of_mem _ hc') h
    rw [huid l.cols [] hl (by simp)]
    exact h4.1.map _
  · unfold addUid
    rw [List.pairwise_map]
    have := Labels.C07_sorted (fun a b : Label × Str => labelLe (a.1 ++ [a.2]) (b.1 ++ [b.2]))
      (fun a b => labelLe_total _ _) (fun a b c => labelLe_trans _ _ _) l.cols
    rw [List.pairwise_map] at this
    exact this
  · intro k u h
    obtain ⟨lab, hm, hk⟩ := firstUnits_mem h
    obtain ⟨c, hc, he⟩ := List.mem_map.1 (h6.mem_iff.1 hm)
    cases he
    exact ⟨c, hc, hk, rfl⟩

/-! ## Damage -/

/-- **C87, damage.** A damage sample that is saved to a file and loaded from it has the same columns and values, also if the
asset has components without damage. -/
theorem C87_damage_sample (table : Dict Str ℚ) (cols : List Column) (units : Dict Str Str) (hp : Plain 5 cols)
    (hu : UnitsFor table cols units) :
    ∃ t r, saveDmg table cols units = .ok t ∧ loadDmg table t = .ok r ∧ SameSorted cols r := by
  obtain ⟨hn, hknown, hcov⟩ := hu
  set unit : Column → Str := fun c => ((c.1.head?.bind units.get?).getD []) with hunit
  have hget : ∀ c ∈ cols, c.1.head?.bind units.get? = some (unit c) := by
    intro c hc
    obtain ⟨k, u, h1, h2⟩ := hcov c hc
    simp only [hunit, h1, Option.bind_some, Dict.get?_of_mem hn h2, Option.getD_some]
  set rest := units.filter fun e => decide (∀ c ∈ cols, c.1.head? ≠ some e.1) with hrest
  set us : Dict Label Str := (cols.map fun c => (c.1, unit c)) ++ rest.map fun e => ([e.1, [], [], [], []], e.2) with hus
  have hser : seriesE (cols.map (fun c => (c.1, c.1.head?.bind units.get?)) ++
      rest.map fun e => ([e.1, [], [], [], []], some e.2)) = .ok us := by
    rw [← seriesE_map us, hus, List.map_append, List.map_map, List.map_map]
    congr 2
    apply List.map_congr_left
    intro c hc
    simp only [Function.comp, hget c hc]
  have hund : us.NoDupKeys := by
    unfold Dict.NoDupKeys Dict.keys
    rw [hus, List.map_append, List.map_map, List.map_map, List.nodup_append']
    refine ⟨hp.distinct, ?_, ?_⟩
    · have h1 : (rest.map Prod.fst).Nodup := List.Nodup.sublist (List.Sublist.map _ List.filter_sublist) hn
      have : (Prod.fst ∘ fun e : Str × Str => (([e.1, [], [], [], []] : Label), e.2)) = (fun k => [k, [], [], [], []]) ∘ Prod.fst := rfl
      rw [this, ← List.map_map]
      exact h1.map fun a b h => by simpa using h
    · intro lab h1 h2
      obtain ⟨c, hc, rfl⟩ := List.mem_map.1 h1
      obtain ⟨e, he, hee⟩ := List.mem_map.1 h2
      have := (List.mem_filter.1 he).2
      simp only [decide_eq_true_eq] at this
      apply this c hc
      rw [show c.1 = [e.1, [], [], [], []] from hee.symm]
      rfl
  have huin : ∀ c ∈ cols, ∃ k, c.1.head? = some k ∧ (k, unit c) ∈ units := by
    intro c hc
    obtain ⟨k, u, h1, h2⟩ := hcov c hc
    refine ⟨k, h1, ?_⟩
    have := hget c hc
    rw [h1, Option.bind_some, Dict.get?_of_mem hn h2] at this
    cases this
    exact h2
  obtain ⟨t, l, us', h1, h2, h3, h4, h5, h6⟩ := save_load table us hund cols 5 (by omega) hp (by
    intro u h
    rw [hus, List.map_append, List.map_map, List.map_map] at h
    rcases List.mem_append.1 h with h | h
    · obtain ⟨c, hc, rfl⟩ := List.mem_map.1 h
      obtain ⟨k, _, hk⟩ := huin c hc
      exact hknown _ (List.mem_map_of_mem (f := Prod.snd) hk)
    · obtain ⟨e, he, rfl⟩ := List.mem_map.1 h
      exact hknown _ (List.mem_map_of_mem (f := Prod.snd) (List.mem_filter.1 he).1)) unit (by
    intro c hc
    exact Dict.get?_of_mem hund (List.mem_append_left _ (List.mem_map.2 ⟨c, hc, rfl⟩)))
  refine ⟨t, l.cols, ?_, ?_, h4⟩
  · unfold saveDmg
    rw [hser]
    exact h1
  · unfold loadDmg
    rw [h2]
    simp only [h3]
    rfl

/-! ## Losses -/

/-- **C87, losses.** A loss sample that is saved to a file and loaded from it has the same columns and values, and the units
returned are those of the decision variables.  Missing: samples in which a consequence lacks one of its decision variables
that another consequence has (`C87_loss_missing_variable_refused`), and samples without damage states
(`C87_loss_function_sample_not_loadable`). -/
theorem C87_loss_sample_partial (table : Dict Str ℚ) (cols : List Column) (params : Dict (Str × Str) (Option Str))
    (hn : params.NoDupKeys) (hp : Plain 7 cols)
    (hcov : ∀ c ∈ cols, ∃ dv cmp rest u f, c.1 = dv :: cmp :: rest ∧ ((cmp, dv), some u) ∈ params ∧ table.get? u = some f ∧ f ≠ 0)
    (hcomb : ∀ p ∈ params, (∃ c ∈ cols, c.1.head? = some p.1.2) → (∃ c ∈ cols, c.1[1]? = some p.1.1) →
      ∃ c ∈ cols, c.1.head? = some p.1.2 ∧ c.1[1]? = some p.1.1) :
    ∃ t r, saveLoss table params cols = .ok t ∧ loadLoss table t = .ok r ∧ SameSorted cols r.1 ∧
      (∀ dv, dv ∈ r.2.keys ↔ ∃ c ∈ cols, c.1.head? = some dv) ∧ r.2.NoDupKeys ∧
      ∀ dv u, (dv, u) ∈ r.2 → ∃ cmp, ((cmp, dv), some u) ∈ params := by
  set look : Label → Option Str := paramUnit params with hlook
  set unit : Column → Str := fun c => (look c.1).getD [] with hunit
  have hget : ∀ c ∈ cols, look c.1 = some (unit c) ∧ (∃ dv cmp rest, c.1 = dv :: cmp :: rest ∧ ((cmp, dv), some (unit c)) ∈ params) ∧
      ∃ f, table.get? (unit c) = some f ∧ f ≠ 0 := by
    intro c hc
    obtain ⟨dv, cmp, rest, u, f, h1, h2, h3, h4⟩ := hcov c hc
    have : look c.1 = some u := by
      rw [h1]
      simp only [hlook, paramUnit, Dict.get?_of_mem hn h2]
      rfl
    have hu : unit c = u := by simp [hunit, this]
    rw [hu]
    exact ⟨this, ⟨dv, cmp, rest, h1, h2⟩, f, h3, h4⟩
  set sc := pySort (fun a b => labelLe a.1 b.1) cols with hsc
  have hscp : sc.Perm cols := pySort_perm _ _
  set us : Dict Label Str := sc.map fun c => (c.1, unit c) with hus
  have hser : seriesE (sc.map fun c => (c.1, look c.1)) = .ok us := by
    rw [← seriesE_map us, hus, List.map_map]
    congr 1
    apply List.map_congr_left
    intro c hc
    simp only [Function.comp, (hget c (hscp.mem_iff.1 hc)).1]
  have hund : us.NoDupKeys := by
    unfold Dict.NoDupKeys Dict.keys
    rw [hus, List.map_map]
    exact (hscp.map Prod.fst).nodup_iff.2 hp.distinct
  obtain ⟨t, l, us', h1, h2, h3, h4, h5, h6⟩ := save_load table us hund cols 7 (by omega) hp (by
    intro u h
    rw [hus, List.map_map] at h
    obtain ⟨c, hc, rfl⟩ := List.mem_map.1 h
    exact (hget c (hscp.mem_iff.1 hc)).2.2) unit (by
    intro c hc
    exact Dict.get?_of_mem hund (List.mem_map.2 ⟨c, hscp.mem_iff.2 hc, rfl⟩))
  refine ⟨t, (l.cols, firstUnits us'), ?_, ?_, h4, ?_, firstUnits_nodup _, ?_⟩
  · unfold saveLoss lossUnits
    rw [if_pos hcomb, hser]
    exact h1
  · unfold loadLoss
    rw [h2]
    simp only [h5, h3]
    rfl
  · intro dv
    simp only
    rw [firstUnits_keys]
    constructor
    · rintro ⟨e, he, hd⟩
      obtain ⟨c, hc, rfl⟩ := List.mem_map.1 (h6.mem_iff.1 he)
      exact ⟨c, hc, hd⟩
    · rintro ⟨c, hc, hd⟩
      exact ⟨_, h6.mem_iff.2 (List.mem_map.2 ⟨c, hc, rfl⟩), hd⟩
  · intro dv u h
    obtain ⟨lab, hm, hd⟩ := firstUnits_mem h
    obtain ⟨c, hc, he⟩ := List.mem_map.1 (h6.mem_iff.1 hm)
    cases he
    obtain ⟨-, ⟨dv', cmp, rest, h1, h2⟩, -⟩ := hget c hc
    rw [h1] at hd
    cases hd
    exact ⟨cmp, h2⟩

/-- **C87, violation.** If a decision variable of a consequence is missing from the sample while the consequence and the
variable are there (in another pair), for example because only damage states without this variable occur, saving is refused with
a KeyError. -/
theorem C87_loss_missing_variable_refused (table : Dict Str ℚ) (cols : List Column) (params : Dict (Str × Str) (Option Str))
    (cmp dv : Str) (u : Option Str) (hp : ((cmp, dv), u) ∈ params) (h1 : ∃ c ∈ cols, c.1.head? = some dv)
    (h2 : ∃ c ∈ cols, c.1[1]? = some cmp) (h3 : ∀ c ∈ cols, c.1.head? = some dv → c.1[1]? ≠ some cmp) :
    saveLoss table params cols = .error .keyError := by
  unfold saveLoss lossUnits
  rw [if_neg]
  intro h
  obtain ⟨c, hc, ha, hb⟩ := h _ hp h1 h2
  exact h3 c hc ha hb

theorem scaleLoop_labels {table : Dict Str ℚ} {units : Dict Label Str} {us : List Str} {data r : List Column}
    (h : scaleLoop table units us data = .ok r) : r.map Prod.fst = data.map Prod.fst := by
  induction us generalizing data with
  | nil => cases h; rfl
  | cons u us ih =>
    unfold scaleLoop at h
    split at h
    · cases h
    · rw [ih h]
      unfold scaleLabels
      rw [List.map_map]
      apply List.map_congr_left
      intro c _
      simp only [Function.comp]
      split <;> rfl

theorem saved_labels {table : Dict Str ℚ} {us : Dict Label Str} {cols : List Column} {t : FileTable}
    (h : saveToCsv cols (some us) (some table) = .ok t) :
    t.hasUnits = true ∧ (t.cols.map Prod.fst).Perm ((cols.map Prod.fst).map (joinChar '-')) := by
  unfold saveToCsv at h
  simp only at h
  split at h
  · cases h
  · rename_i data hd
    cases h
    refine ⟨rfl, ?_⟩
    unfold withUnits
    simp only
    rw [List.map_map, ← scaleLoop_labels hd, List.map_map]
    exact (pySort_perm _ _).map _

/-- Labels with a dash in one of the parts have too many parts after loading. -/
theorem dash_levels {n : Nat} {labels : List Str} {rows : List Label} (hn : 1 ≤ n) (hp : labels.Perm (rows.map (joinChar '-')))
    (hlen : ∀ r ∈ rows, r.length = n) (r : Label) (hr : r ∈ rows) (w : Str) (hw : w ∈ r) (hd : '-' ∈ w) :
    ∃ idx, Labels.toMulti (.simple labels) = .ok idx ∧ n < levelsOf idx := by
  have hmem : joinChar '-' r ∈ labels := hp.mem_iff.2 (List.mem_map_of_mem hr)
  have hne : labels ≠ [] := List.ne_nil_of_mem hmem
  have hrne : r ≠ [] := List.ne_nil_of_mem hw
  have hbig : n < (splitChar '-' (joinChar '-' r)).length := by
    rw [Labels.length_split_join '-' r hrne]
    have h1 : 1 ≤ List.count '-' w := List.count_pos_iff.2 hd
    have h2 : List.count '-' w ≤ (r.map (List.count '-')).sum := Labels.le_sum_of_mem (List.mem_map_of_mem hw)
    have := hlen r hr
    omega
  have hmax : n < Labels.maxLen (labels.map (splitChar '-')) :=
    lt_of_lt_of_le hbig (Labels.maxLen_ge _ _ (List.mem_map_of_mem hmem))
  unfold Labels.toMulti
  simp only
  rw [if_neg hne, if_pos (by omega)]
  exact ⟨_, rfl, hmax⟩

/-- **C87, violation.** A sample file that was saved with a dash in a component id (or in another part of a label) cannot be
loaded: this holds for component, damage and loss samples. -/
theorem C87_dash_refused (table : Dict Str ℚ) (t : FileTable) (us : Dict Label Str) (cols : List Column)
    (hs : saveToCsv cols (some us) (some table) = .ok t) (c : Column) (hc : c ∈ cols) (w : Str) (hw : w ∈ c.1) (hd : '-' ∈ w) :
    ((∀ c ∈ cols, c.1.length = 4) → loadCmp table t = .error .valueError) ∧
    ((∀ c ∈ cols, c.1.length = 5) → loadDmg table t = .error .valueError) ∧
    ((∀ c ∈ cols, c.1.length = 7) → loadLoss table t = .error .valueError) := by
  obtain ⟨hu, hp⟩ := saved_labels hs
  have key : ∀ n, 1 ≤ n → (∀ c ∈ cols, c.1.length = n) → ∃ l us', loadDataUnits t table = .ok l ∧ l.units = some us' ∧ n < l.levels := by
    intro n hn hl
    obtain ⟨idx, h1, h2⟩ := dash_levels hn hp (by
      intro r hr
      obtain ⟨c, hc, rfl⟩ := List.mem_map.1 hr
      exact hl c hc) c.1 (List.mem_map_of_mem hc) w hw hd
    unfold loadDataUnits
    rw [h1, hu]
    exact ⟨_, _, rfl, rfl, h2⟩
  refine ⟨?_, ?_, ?_⟩
  · intro h
    obtain ⟨l, us', h1, h2, h3⟩ := key 4 (by omega) h
    unfold loadCmp
    rw [h1]
    simp only [h2]
    rw [if_neg (by omega), if_neg (by omega)]
  · intro h
    obtain ⟨l, us', h1, h2, h3⟩ := key 5 (by omega) h
    unfold loadDmg
    rw [h1]
    simp only
    rw [if_neg (by omega)]
  · intro h
    obtain ⟨l, us', h1, h2, h3⟩ := key 7 (by omega) h
    unfold loadLoss
    rw [h1]
    simp only [h2]
    rw [if_pos (by omega)]

/-- **C87, violation.** A loss sample whose labels have six parts cannot be loaded, although the code intends to add a uid to
such samples. -/
theorem C87_loss_without_uid_refused (table : Dict Str ℚ) (us : Dict Label Str) (hu : us.NoDupKeys) (cols : List Column)
    (hp : Plain 6 cols) (hk : ∀ u ∈ us.map Prod.snd, ∃ f, table.get? u = some f ∧ f ≠ 0) (unit : Column → Str)
    (hcov : ∀ c ∈ cols, us.get? c.1 = some (unit c)) :
    ∃ t, saveToCsv cols (some us) (some table) = .ok t ∧ loadLoss table t = .error .valueError := by
  obtain ⟨t, l, us', h1, h2, h3, h4, h5, h6⟩ := save_load table us hu cols 6 (by omega) hp hk unit hcov
  refine ⟨t, h1, ?_⟩
  unfold loadLoss
  rw [h2]
  simp only [h5]
  rw [if_pos (by omega)]

/-- **C87, violation.** If all losses come from loss functions, the labels of the sample have six parts: it is saved without
error, and the file cannot be loaded. -/
theorem C87_loss_function_sample_not_loadable (table : Dict Str ℚ) (lf : List Column) (params : Dict (Str × Str) (Option Str))
    (hn : params.NoDupKeys) (hp : Plain 6 lf)
    (hcov : ∀ c ∈ lf, ∃ dv cmp rest u f, c.1 = dv :: cmp :: rest ∧ ((cmp, dv), some u) ∈ params ∧ table.get? u = some f ∧ f ≠ 0)
    (hcomb : ∀ p ∈ params, (∃ c ∈ lf, c.1.head? = some p.1.2) → (∃ c ∈ lf, c.1[1]? = some p.1.1) →
      ∃ c ∈ lf, c.1.head? = some p.1.2 ∧ c.1[1]? = some p.1.1) :
    ∃ s t, (readSample none (some lf)).1 = some s ∧ saveLoss table params s = .ok t ∧ loadLoss table t = .error .valueError := by
  set look : Label → Option Str := paramUnit params with hlook
  set unit : Column → Str := fun c => (look c.1).getD [] with hunit
  have hget : ∀ c ∈ lf, look c.1 = some (unit c) ∧ ∃ f, table.get? (unit c) = some f ∧ f ≠ 0 := by
    intro c hc
    obtain ⟨dv, cmp, rest, u, f, h1, h2, h3, h4⟩ := hcov c hc
    have : look c.1 = some u := by
      rw [h1]
      simp only [hlook, paramUnit, Dict.get?_of_mem hn h2]
      rfl
    have hu : unit c = u := by simp [hunit, this]
    rw [hu]
    exact ⟨this, f, h3, h4⟩
  set sc := pySort (fun a b => labelLe a.1 b.1) lf with hsc
  have hscp : sc.Perm lf := pySort_perm _ _
  set us : Dict Label Str := sc.map fun c => (c.1, unit c) with hus
  have hser : seriesE (sc.map fun c => (c.1, look c.1)) = .ok us := by
    rw [← seriesE_map us, hus, List.map_map]
    congr 1
    apply List.map_congr_left
    intro c hc
    simp only [Function.comp, (hget c (hscp.mem_iff.1 hc)).1]
  have hund : us.NoDupKeys := by
    unfold Dict.NoDupKeys Dict.keys
    rw [hus, List.map_map]
    exact (hscp.map Prod.fst).nodup_iff.2 hp.distinct
  obtain ⟨t, h1, h2⟩ := C87_loss_without_uid_refused table us hund lf hp (by
    intro u h
    rw [hus, List.map_map] at h
    obtain ⟨c, hc, rfl⟩ := List.mem_map.1 h
    exact (hget c (hscp.mem_iff.1 hc)).2) unit (by
    intro c hc
    exact Dict.get?_of_mem hund (List.mem_map.2 ⟨c, hscp.mem_iff.2 hc, rfl⟩))
  refine ⟨lf, t, rfl, ?_, h2⟩
  unfold saveLoss lossUnits
  rw [if_pos hcomb, hser]
  exact h1

/-- **C87, reading.** Reading the combined loss sample changes the labels of the loss function results, but reading it again
returns the same. -/
theorem C87_read_twice (ds lf : Option (List Column)) :
    readSample ds (readSample ds lf).2 = readSample ds lf := by
  have h : ∀ l, withDs (withDs l) = withDs l := by
    intro l
    match l with
    | [] => rfl
    | [_] => rfl
    | [_, _] => rfl
    | [_, _, _] => rfl
    | [_, _, _, _] => rfl
    | [_, _, _, _, _] => rfl
    | [_, _, _, _, _, _] => rfl
    | [_, _, _, _, _, _, _] => rfl
    | _ :: _ :: _ :: _ :: _ :: _ :: _ :: _ :: _ => rfl
  cases ds with
  | none => cases lf <;> rfl
  | some ds =>
    cases lf with
    | none => rfl
    | some lf => simp [readSample, Function.comp_def, h]

/-- The combined sample has the results of both models, those of loss functions with the damage state `N/A`. -/
theorem C87_combined (ds lf : List Column) (h6 : ∀ c ∈ lf, c.1.length = 6) :
    ∃ r, (readSample (some ds) (some lf)).1 = some (ds ++ r) ∧
      List.Forall₂ (fun c e => e.2 = c.2 ∧ e.1.length = 7 ∧ e.1[3]? = some (str "N/A") ∧ e.1.eraseIdx 3 = c.1) lf r := by
  refine ⟨_, rfl, ?_⟩
  rw [List.forall₂_map_right_iff, List.forall₂_same]
  intro c hc
  have := h6 c hc
  obtain ⟨lab, v⟩ := c
  match lab, this with
  | [_, _, _, _, _, _], _ => exact ⟨rfl, rfl, rfl, rfl⟩

/-- **C87, refusal.** A component sample cannot be loaded from a file without a row of units. -/
theorem C87_file_without_units_refused (table : Dict Str ℚ) (t : FileTable) (hu : t.hasUnits = false) :
    (∃ e, loadCmp table t = .error e) ∧ (t.cols ≠ [] → loadCmp table t = .error .assertionError) := by
  unfold loadCmp loadDataUnits
  cases hm : Labels.toMulti (.simple (t.cols.map Prod.fst)) with
  | error e =>
    refine ⟨⟨e, rfl⟩, fun hne => ?_⟩
    simp only [Labels.toMulti, List.map_eq_nil_iff, if_neg hne] at hm
    split at hm <;> cases hm
  | ok idx => simp [hu]

/-! ### Concrete cases -/

def exTable : Dict Str ℚ := [(str "ea", 1), (str "ft2", 929/10000), (str "USD_2011", 1), (str "worker_day", 1)]

def exCmp : CmpSample where
  cols := [([str "C", str "1", str "1", str "0"], [some 2, none]), ([str "B", str "1", str "2", str "0"], [some 3, some 4])]
  units := [(str "C", str "ft2"), (str "B", str "ea")]
  blocks := [([str "C", str "1", str "1", str "0"], 5)]

theorem exCmp_plain : Plain 4 exCmp.cols := ⟨by decide, by decide, by decide +kernel, by decide +kernel⟩

theorem exUnits_known : ∀ u ∈ exCmp.units.map Prod.snd, ∃ f, exTable.get? u = some f ∧ f ≠ 0 := by
  intro u hu
  simp only [exCmp, List.map_cons, List.map_nil, List.mem_cons, List.not_mem_nil, or_false] at hu
  rcases hu with rfl | rfl
  · exact ⟨929/10000, by decide +kernel, by norm_num⟩
  · exact ⟨1, by decide +kernel, by norm_num⟩

example : ∃ t r, saveCmp exTable exCmp = .ok t ∧ loadCmp exTable t = .ok r ∧ SameSorted exCmp.cols r.cols ∧
    r.units.Perm exCmp.units ∧ r.blocks = r.cols.map fun c => (c.1, 1) :=
  C87_component_sample exTable exCmp exCmp_plain
    ⟨by unfold Dict.NoDupKeys; decide +kernel, exUnits_known, by
      intro c hc
      simp only [exCmp, List.mem_cons, List.not_mem_nil, or_false] at hc
      rcases hc with rfl | rfl
      · exact ⟨str "C", str "ft2", rfl, by simp [exCmp]⟩
      · exact ⟨str "B", str "ea", rfl, by simp [exCmp]⟩⟩
    (by decide +kernel)

/-- A damage sample of an asset that has a component `B` without damage. -/
example : ∃ t r, saveDmg exTable [([str "C", str "1", str "1", str "0", str "1"], [some 2, none])] exCmp.units = .ok t ∧
    loadDmg exTable t = .ok r ∧ SameSorted [([str "C", str "1", str "1", str "0", str "1"], [some 2, none])] r :=
  C87_damage_sample exTable _ exCmp.units ⟨by decide, by decide, by decide +kernel, by decide +kernel⟩
    ⟨by unfold Dict.NoDupKeys; decide +kernel, exUnits_known, by
      intro c hc
      rw [List.mem_singleton] at hc
      subst hc
      exact ⟨str "C", str "ft2", rfl, by simp [exCmp]⟩⟩

def exParams : Dict (Str × Str) (Option Str) :=
  [((str "C", str "Cost"), some (str "USD_2011")), ((str "B", str "Cost"), some (str "USD_2011")),
    ((str "B", str "Time"), some (str "worker_day")), ((str "C", str "Time"), some (str "worker_day"))]

def exLoss : List Column :=
  [([str "Cost", str "C", str "C", str "1", str "1", str "1", str "0"], [some 100, some 0]),
    ([str "Cost", str "B", str "B", str "1", str "1", str "1", str "0"], [some 50, some 7]),
    ([str "Time", str "B", str "B", str "1", str "1", str "1", str "0"], [some 3, some 1])]

/-- Component C has a repair time only in its second damage state, which does not occur: the sample is not saved. -/
example : saveLoss exTable exParams exLoss = .error .keyError :=
  C87_loss_missing_variable_refused exTable exLoss exParams (str "C") (str "Time") _ (List.mem_cons_of_mem _ (List.mem_cons_of_mem _
    (List.mem_cons_of_mem _ List.mem_cons_self))) ⟨_, List.mem_cons_of_mem _ (List.mem_cons_of_mem _ List.mem_cons_self), rfl⟩
    ⟨_, List.mem_cons_self, rfl⟩ (by decide +kernel)

/-- Without the entry for the repair time of C it is saved and loaded. -/
example : ∃ t r, saveLoss exTable exParams.dropLast exLoss = .ok t ∧ loadLoss exTable t = .ok r ∧ SameSorted exLoss r.1 := by
  obtain ⟨t, r, h1, h2, h3, -⟩ := C87_loss_sample_partial exTable exLoss exParams.dropLast
    (by unfold Dict.NoDupKeys; decide +kernel) ⟨by decide, by decide, by decide +kernel, by decide +kernel⟩ (by
      intro c hc
      simp only [exLoss, List.mem_cons, List.not_mem_nil, or_false] at hc
      rcases hc with rfl | rfl | rfl
      · exact ⟨_, _, _, str "USD_2011", 1, rfl, by simp [exParams], by decide +kernel, by norm_num⟩
      · exact ⟨_, _, _, str "USD_2011", 1, rfl, by simp [exParams], by decide +kernel, by norm_num⟩
      · exact ⟨_, _, _, str "worker_day", 1, rfl, by simp [exParams], by decide +kernel, by norm_num⟩) (by decide +kernel)
  exact ⟨t, r, h1, h2, h3⟩

/-- A component with a dash in its id: the file is written and cannot be read. -/
example : ∃ t, saveToCsv [([str "B-1", str "1", str "1", str "0"], [some 2])] (some [([str "B-1", str "1", str "1", str "0"], str "ea")])
    (some exTable) = .ok t ∧ loadCmp exTable t = .error .valueError := by
  have h := saveToCsv_units exTable [([str "B-1", str "1", str "1", str "0"], str "ea")] (by unfold Dict.NoDupKeys; decide +kernel)
    [([str "B-1", str "1", str "1", str "0"], [some 2])] (by
      intro u hu
      simp only [List.map_cons, List.map_nil, List.mem_cons, List.not_mem_nil, or_false] at hu
      subst hu
      exact ⟨1, by decide +kernel⟩)
  exact ⟨_, h, (C87_dash_refused exTable _ _ _ h _ List.mem_cons_self (str "B-1") (by simp) (by decide)).1 (by decide)⟩

/-- Results of a loss function. -/
example : ∃ s t, (readSample none (some [([str "Cost", str "C", str "C", str "1", str "1", str "0"], [some 100])])).1 = some s ∧
    saveLoss exTable exParams s = .ok t ∧ loadLoss exTable t = .error .valueError :=
  C87_loss_function_sample_not_loadable exTable _ exParams (by unfold Dict.NoDupKeys; decide +kernel)
    ⟨by decide, by decide, by decide +kernel, by decide +kernel⟩ (by
      intro c hc
      rw [List.mem_singleton] at hc
      subst hc
      exact ⟨_, _, _, str "USD_2011", 1, rfl, by simp [exParams], by decide +kernel, by norm_num⟩) (by decide +kernel)

end Verif.Samples
