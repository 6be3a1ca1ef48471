import Verif.Model.RegDmg
import Verif.Props.ToolDmg

/-! # Property C100: damage states in regional simulations -/

namespace Verif.RegDmg

open Verif.FileIO Verif.ToolDmg

/-! ### Specification -/

/-- The components at a location, each once. -/
def componentsAt (s : Sample Key) (loc : Str) : List Str := uniqueVals [] ((s.cols.filter fun k => decide (k.loc = loc)).map (·.cmp))

/-- Every component has a quantity in every realization, in some state. -/
def Complete (s : Sample Key) : Prop :=
  ∀ row ∈ s.rows, ∀ k ∈ s.cols, ∃ k' ∈ s.cols, (k'.cmp, k'.loc) = (k.cmp, k.loc) ∧ row k' ≠ none

theorem trunc_int (n : Int) : trunc (n : ℚ) = n := by
  unfold trunc
  split <;> simp

theorem governing_int {s : Sample Key} {row : Key → Option ℚ} {c : Str × Str} {v : ℚ} (h : Governing s row c v) : ((trunc v : Int) : ℚ) = v := by
  rcases h with ⟨_, n, _, _, rfl, _⟩ | ⟨_, rfl⟩
  · rw [trunc_int]
  · rw [show (0 : ℚ) = ((0 : Int) : ℚ) by simp, trunc_int]

/-- What is calculated. -/
theorem damageStates_ok {s : Sample Key} (hv : Valid s) {r : List (Int × List Int)} (h : damageStates s = .ok r) :
    ∃ g, condense (grpDamage true s) = .ok g ∧ (∀ row ∈ g.rows, ∀ c ∈ g.cols, row c ≠ none) ∧
      ∃ r', r = pySort (fun a b => decide (a.1 ≤ b.1)) r' ∧
        List.Forall₂ (fun loc (e : Int × List Int) => pyInt? loc = some e.1 ∧
          e.2 = g.rows.map fun row => ((g.cols.filter fun c => decide (c.2 = loc)).map fun c => trunc ((row c).getD 0)).sum)
          (pySort strLe (uniqueVals [] (g.cols.map (·.2)))) r' := by
  unfold damageStates at h
  split at h
  · simp at h
  · rename_i g hg
    split at h
    · simp at h
    · rename_i hn
      split at h
      · simp at h
      · rename_i r' hr'
        refine ⟨g, hg, ?_, r', (Except.ok.inj h).symm, ?_⟩
        · intro row hrow c hc hnone
          apply hn
          rw [List.any_eq_true]
          refine ⟨row, hrow, ?_⟩
          rw [List.any_eq_true]
          exact ⟨c, hc, by rw [hnone]; rfl⟩
        · rw [mapE_ok_iff] at hr'
          refine hr'.imp ?_
          intro loc e he
          unfold ofLocation at he
          split at he
          · rename_i n hn'
            obtain rfl := Except.ok.inj he
            exact ⟨hn', rfl⟩
          · simp at he

/-- C100: every building of the damage sample has its damage states, in the order of the numbers.  In every
realization this is the sum over its components of the governing damage state. -/
theorem C100_states (s : Sample Key) (hv : Valid s) (r : List (Int × List Int)) (h : damageStates s = .ok r) :
    (r.map (·.1)).Pairwise (· ≤ ·) ∧
    (∀ id, id ∈ r.map (·.1) ↔ ∃ k ∈ s.cols, pyInt? k.loc = some id) ∧
    ((∀ k ∈ s.cols, ∀ k' ∈ s.cols, pyInt? k.loc = pyInt? k'.loc → k.loc = k'.loc) → (r.map (·.1)).Pairwise (· < ·)) ∧
    ∀ id v, (id, v) ∈ r → ∃ k ∈ s.cols, pyInt? k.loc = some id ∧ v.length = s.rows.length ∧
      ∀ (i : Nat) (row : Key → Option ℚ), s.rows[i]? = some row → ∃ g : Str → Int,
        (∀ c ∈ componentsAt s k.loc, Governing s row (c, k.loc) (g c)) ∧ v[i]? = some (((componentsAt s k.loc).map g).sum) := by
  obtain ⟨g, hg, hnn, r', rfl, hr'⟩ := damageStates_ok hv h
  obtain ⟨hcols, hnd, hlen, hval⟩ := C67_governing s true g hv hg
  have hloc : ∀ loc, loc ∈ pySort strLe (uniqueVals [] (g.cols.map (·.2))) ↔ ∃ k ∈ s.cols, k.loc = loc := by
    intro loc
    rw [mem_pySort, uniqueVals_mem, List.mem_map]
    constructor
    · rintro ⟨⟨c, hc, rfl⟩, _⟩
      obtain ⟨k, hk, rfl⟩ := (hcols c).1 hc
      exact ⟨k, hk, rfl⟩
    · rintro ⟨k, hk, rfl⟩
      exact ⟨⟨(k.cmp, k.loc), (hcols _).2 ⟨k, hk, rfl⟩, rfl⟩, by simp⟩
  have hsort : (pySort (fun a b : Int × List Int => decide (a.1 ≤ b.1)) r').Pairwise (fun a b => decide (a.1 ≤ b.1) = true) :=
    pySort_sorted (fun a b => by simp only [decide_eq_true_eq]; exact le_total _ _)
      (fun a b c h1 h2 => by simp only [decide_eq_true_eq] at *; exact le_trans h1 h2) r'
  have hle : ((pySort (fun a b : Int × List Int => decide (a.1 ≤ b.1)) r').map (·.1)).Pairwise (· ≤ ·) := by
    rw [List.pairwise_map]
    exact hsort.imp fun h => by simpa using h
  refine ⟨hle, ?_, ?_, ?_⟩
  · intro id
    rw [((pySort_perm _ _).map _).mem_iff, List.mem_map]
    constructor
    · rintro ⟨e, he, rfl⟩
      obtain ⟨loc, hl, hx⟩ := forall₂_mem_right hr' he
      obtain ⟨k, hk, rfl⟩ := (hloc loc).1 hl
      exact ⟨k, hk, hx.1⟩
    · rintro ⟨k, hk, hid⟩
      obtain ⟨e, he, hx⟩ := forall₂_mem_left hr' ((hloc k.loc).2 ⟨k, hk, rfl⟩)
      refine ⟨e, he, ?_⟩
      rw [hid] at hx
      exact (Option.some.inj hx.1).symm
  · intro hinj
    have hnd' : (r'.map (·.1)).Nodup := by
      have hl : (pySort strLe (uniqueVals [] (g.cols.map (·.2)))).Nodup := (pySort_perm _ _).nodup_iff.2 (uniqueVals_nodup _ _)
      have hin : ∀ loc ∈ pySort strLe (uniqueVals [] (g.cols.map (·.2))), ∃ k ∈ s.cols, k.loc = loc := fun loc h => (hloc loc).1 h
      clear hloc hsort hle h
      revert hl hin
      generalize pySort strLe (uniqueVals [] (g.cols.map (·.2))) = L at hr'
      intro hl hin
      induction hr' with
      | nil => simp
      | @cons loc e L r' hx hrest ih =>
        rw [List.nodup_cons] at hl
        rw [List.map_cons, List.nodup_cons]
        refine ⟨?_, ih hl.2 fun l hl' => hin l (List.mem_cons_of_mem _ hl')⟩
        intro hm
        rw [List.mem_map] at hm
        obtain ⟨e', he', heq⟩ := hm
        obtain ⟨loc', hl', hx'⟩ := forall₂_mem_right hrest he'
        obtain ⟨k, hk, rfl⟩ := hin loc (List.mem_cons_self ..)
        obtain ⟨k', hk', rfl⟩ := hin loc' (List.mem_cons_of_mem _ hl')
        apply hl.1
        rw [hinj k hk k' hk' (by rw [hx.1, hx'.1, heq])]
        exact hl'
    have hnd2 := ((pySort_perm (fun a b : Int × List Int => decide (a.1 ≤ b.1)) r').map (·.1)).nodup_iff.2 hnd'
    exact (hle.and hnd2).imp fun h => lt_of_le_of_ne h.1 h.2
  · intro id v hm
    rw [mem_pySort] at hm
    obtain ⟨loc, hl, h1, h2⟩ := forall₂_mem_right hr' hm
    obtain ⟨k, hk, rfl⟩ := (hloc loc).1 hl
    simp only at h1 h2
    refine ⟨k, hk, h1, by rw [h2, List.length_map, hlen], ?_⟩
    intro i row hi
    have hlt : i < g.rows.length := by rw [hlen]; exact (List.getElem?_eq_some_iff.1 hi).1
    have hi' : g.rows[i]? = some g.rows[i] := List.getElem?_eq_getElem hlt
    refine ⟨fun c => trunc ((g.rows[i] (c, k.loc)).getD 0), ?_, ?_⟩
    · intro c hc
      unfold componentsAt at hc
      rw [uniqueVals_mem, List.mem_map] at hc
      obtain ⟨⟨k', hk', rfl⟩, _⟩ := hc
      rw [List.mem_filter, decide_eq_true_eq] at hk'
      have hcm : (k'.cmp, k.loc) ∈ g.cols := (hcols _).2 ⟨k', hk'.1, by rw [hk'.2]⟩
      obtain ⟨_, hgov⟩ := hval i row g.rows[i] hi hi' _ hcm
      cases hx : g.rows[i] (k'.cmp, k.loc) with
      | none => exact absurd hx (hnn _ (List.getElem_mem hlt) _ hcm)
      | some x =>
        have := hgov x hx
        simp only [hx, Option.getD_some]
        rw [governing_int this]
        exact this
    · rw [h2, List.getElem?_map, hi']
      show some _ = some _
      congr 1
      have hp : ((g.cols.filter fun c => decide (c.2 = k.loc))).Perm ((componentsAt s k.loc).map fun c => (c, k.loc)) := by
        rw [List.perm_ext_iff_of_nodup (hnd.filter _)]
        · intro c
          rw [List.mem_filter, decide_eq_true_eq, List.mem_map, hcols]
          constructor
          · rintro ⟨⟨k', hk', rfl⟩, hl'⟩
            refine ⟨k'.cmp, ?_, by rw [← hl']⟩
            unfold componentsAt
            rw [uniqueVals_mem, List.mem_map]
            exact ⟨⟨k', List.mem_filter.2 ⟨hk', by simpa using hl'⟩, rfl⟩, by simp⟩
          · rintro ⟨c', hc', rfl⟩
            unfold componentsAt at hc'
            rw [uniqueVals_mem, List.mem_map] at hc'
            obtain ⟨⟨k', hk', rfl⟩, _⟩ := hc'
            rw [List.mem_filter, decide_eq_true_eq] at hk'
            exact ⟨⟨k', hk'.1, by rw [hk'.2]⟩, rfl⟩
        · exact List.Nodup.map (fun a b hab => (Prod.mk.inj hab).1) (uniqueVals_nodup _ _)
      refine ((hp.map _).sum_eq).trans ?_
      rw [List.map_map]
      rfl

/-- C100: if exactly one quantity at the building is positive in a realization, which is so for a single component
that is not subdivided, the damage state is the state of this quantity. -/
theorem C100_single (s : Sample Key) (hv : Valid s) (r : List (Int × List Int)) (h : damageStates s = .ok r)
    (hinj : ∀ k ∈ s.cols, ∀ k' ∈ s.cols, pyInt? k.loc = pyInt? k'.loc → k.loc = k'.loc)
    (k : Key) (hk : k ∈ s.cols) (n : Int) (hn : pyInt? k.ds = some n) (i : Nat) (row : Key → Option ℚ) (hi : s.rows[i]? = some row)
    (hpos : ∃ q, row k = some q ∧ 0 < q) (hone : ∀ k' ∈ s.cols, k'.loc = k.loc → (∃ q, row k' = some q ∧ 0 < q) → k' = k) :
    ∃ id v, pyInt? k.loc = some id ∧ (id, v) ∈ r ∧ v[i]? = some n := by
  obtain ⟨_, hids, _, hval⟩ := C100_states s hv r h
  have hex : ∃ id, pyInt? k.loc = some id := by
    obtain ⟨g, hg, _, r', _, hr'⟩ := damageStates_ok hv h
    obtain ⟨hcols, _⟩ := C67_governing s true g hv hg
    obtain ⟨e, _, hx⟩ := forall₂_mem_left hr' (a := k.loc) (by
      rw [mem_pySort, uniqueVals_mem, List.mem_map]
      exact ⟨⟨(k.cmp, k.loc), (hcols _).2 ⟨k, hk, rfl⟩, rfl⟩, by simp⟩)
    exact ⟨_, hx.1⟩
  obtain ⟨id, hid⟩ := hex
  have hm := (hids id).2 ⟨k, hk, hid⟩
  rw [List.mem_map] at hm
  obtain ⟨⟨id', v⟩, hm, rfl⟩ := hm
  refine ⟨_, v, hid, hm, ?_⟩
  obtain ⟨k', hk', hid', _, hrow⟩ := hval _ v hm
  have hl : k'.loc = k.loc := hinj k' hk' k hk (by rw [hid, hid'])
  obtain ⟨g, hg, hvi⟩ := hrow i row hi
  rw [hl] at hg hvi
  rw [hvi]
  congr 1
  have hgc : ∀ c ∈ componentsAt s k.loc, g c = if k.cmp = c then n else 0 := by
    intro c hc
    have := hg c hc
    rcases this with ⟨k2, n2, ⟨h1, h2, h3⟩, h4, h5, _⟩ | ⟨h1, h2⟩
    · obtain ⟨rfl, h6⟩ := Prod.mk.inj h2
      obtain rfl := hone k2 h1 h6 h3
      rw [if_pos rfl]
      rw [hn] at h4
      obtain rfl := Option.some.inj h4
      exact_mod_cast h5
    · rw [if_neg]
      · exact_mod_cast h2
      · rintro rfl
        exact h1 k ⟨hk, rfl, hpos⟩
  rw [List.map_congr_left hgc]
  have hkc : k.cmp ∈ componentsAt s k.loc := by
    unfold componentsAt
    rw [uniqueVals_mem, List.mem_map]
    exact ⟨⟨k, List.mem_filter.2 ⟨hk, by simp⟩, rfl⟩, by simp⟩
  have hnd : (componentsAt s k.loc).Nodup := uniqueVals_nodup _ _
  revert hkc hnd
  generalize componentsAt s k.loc = L
  intro hkc hnd
  induction L with
  | nil => simp at hkc
  | cons c L ih =>
    rw [List.nodup_cons] at hnd
    rw [List.map_cons, List.sum_cons]
    by_cases hc : k.cmp = c
    · rw [if_pos hc]
      have : (L.map fun c => if k.cmp = c then n else 0).sum = 0 := by
        apply List.sum_eq_zero
        intro x hx
        rw [List.mem_map] at hx
        obtain ⟨c', hc', rfl⟩ := hx
        rw [if_neg]
        rintro rfl
        exact hnd.1 (hc ▸ hc')
      rw [this, add_zero]
    · rw [if_neg hc, zero_add]
      rw [List.mem_cons] at hkc
      exact ih (hkc.resolve_left hc) hnd.2

/-- C100: a sample of the damage model for numbered buildings, in which no component is missing in a realization, is accepted. -/
theorem C100_accepted (s : Sample Key) (hv : Valid s) (hc : Complete s) (hl : ∀ k ∈ s.cols, pyInt? k.loc ≠ none) : ∃ r, damageStates s = .ok r := by
  obtain ⟨g, hg⟩ := C67_accepted s true hv
  obtain ⟨hcols, _, hlen, hval⟩ := C67_governing s true g hv hg
  unfold damageStates
  rw [hg]
  simp only
  rw [if_neg]
  · obtain ⟨r, hr⟩ := mapE_ok_of_forall (f := ofLocation g) (l := pySort strLe (uniqueVals [] (g.cols.map (·.2)))) (by
        intro loc hm
        rw [mem_pySort, uniqueVals_mem, List.mem_map] at hm
        obtain ⟨⟨c, hc', rfl⟩, _⟩ := hm
        obtain ⟨k, hk, rfl⟩ := (hcols c).1 hc'
        cases hx : pyInt? k.loc with
        | none => exact absurd hx (hl k hk)
        | some n => exact ⟨_, by simp only [ofLocation, hx]; rfl⟩)
    rw [hr]
    exact ⟨_, rfl⟩
  · rw [List.any_eq_true]
    rintro ⟨row', hrow', hx⟩
    rw [List.any_eq_true] at hx
    obtain ⟨c, hcm, hx⟩ := hx
    obtain ⟨i, hi', rfl⟩ := List.getElem_of_mem hrow'
    have hi : i < s.rows.length := by rw [← hlen]; exact hi'
    obtain ⟨h1, _⟩ := hval i s.rows[i] g.rows[i] (List.getElem?_eq_getElem hi) (List.getElem?_eq_getElem hi') c hcm
    rw [Option.isNone_iff_eq_none] at hx
    obtain ⟨k, hk, rfl⟩ := (hcols c).1 hcm
    obtain ⟨k', hk', hkk, hne⟩ := hc _ (List.getElem_mem hi) k hk
    exact hne (h1.1 hx k' hk' hkk)

/-- C100: if a component of one building is missing in a realization the results of all buildings are refused. -/
theorem C100_missing_refused (s : Sample Key) (hv : Valid s) (hc : ¬ Complete s) : damageStates s = .error .valueError := by
  obtain ⟨g, hg⟩ := C67_accepted s true hv
  obtain ⟨hcols, _, hlen, hval⟩ := C67_governing s true g hv hg
  unfold damageStates
  rw [hg]
  simp only
  rw [if_pos]
  unfold Complete at hc
  simp only [not_forall, not_exists, not_and] at hc
  obtain ⟨row, hrow, k, hk, hno⟩ := hc
  obtain ⟨i, hi, rfl⟩ := List.getElem_of_mem hrow
  have hi' : i < g.rows.length := by rw [hlen]; exact hi
  have hcm : (k.cmp, k.loc) ∈ g.cols := (hcols _).2 ⟨k, hk, rfl⟩
  obtain ⟨h1, _⟩ := hval i s.rows[i] g.rows[i] (List.getElem?_eq_getElem hi) (List.getElem?_eq_getElem hi') _ hcm
  rw [List.any_eq_true]
  refine ⟨g.rows[i], List.getElem_mem hi', ?_⟩
  rw [List.any_eq_true]
  refine ⟨_, hcm, ?_⟩
  rw [Option.isNone_iff_eq_none, h1]
  intro k' hk' heq
  by_contra hne
  exact hno k' hk' heq hne

/-! ### Examples -/

/-- Two buildings; the second is in state 2 and then in state 0. -/
def exSample : Sample Key where
  cols := [⟨str "W1", str "10", str "1", str "0", str "0"⟩, ⟨str "W1", str "10", str "1", str "0", str "1"⟩,
    ⟨str "C1", str "9", str "1", str "0", str "0"⟩, ⟨str "C1", str "9", str "1", str "0", str "2"⟩]
  rows := [fun k => if k.loc = str "10" then (if k.ds = str "1" then some 1 else some 0) else if k.ds = str "2" then some 1 else some 0,
    fun k => if k.ds = str "0" then some 1 else some 0]

example : (damageStates exSample).toOption = some [(9, [2, 0]), (10, [1, 0])] := by decide +kernel

example : Valid exSample := by
  refine ⟨?_, ?_⟩
  · intro row hrow k _ q hq
    simp only [exSample, List.mem_cons, List.not_mem_nil, or_false] at hrow
    rcases hrow with rfl | rfl
    · simp only at hq
      split at hq
      · split at hq <;> (obtain rfl := Option.some.inj hq; norm_num)
      · split at hq <;> (obtain rfl := Option.some.inj hq; norm_num)
    · simp only at hq
      split at hq <;> (obtain rfl := Option.some.inj hq; norm_num)
  · intro k hk
    simp only [exSample, List.mem_cons, List.not_mem_nil, or_false] at hk
    rcases hk with rfl | rfl | rfl | rfl
    · exact ⟨0, by decide⟩
    · exact ⟨1, by decide⟩
    · exact ⟨0, by decide⟩
    · exact ⟨2, by decide⟩

example : ∀ k ∈ exSample.cols, ∀ k' ∈ exSample.cols, pyInt? k.loc = pyInt? k'.loc → k.loc = k'.loc := by decide +kernel
example : ∀ k ∈ exSample.cols, pyInt? k.loc ≠ none := by decide +kernel
example : Complete exSample := by
  intro row hrow k hk
  refine ⟨k, hk, rfl, ?_⟩
  simp only [exSample, List.mem_cons, List.not_mem_nil, or_false] at hrow
  rcases hrow with rfl | rfl
  · simp only
    split <;> split <;> simp
  · simp only
    split <;> simp

end Verif.RegDmg
