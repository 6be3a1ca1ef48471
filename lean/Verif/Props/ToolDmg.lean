import Verif.Model.ToolDmg
import Verif.Props.LossAgg

/-! # C67, C82: condensed and grouped damage results -/

namespace Verif.ToolDmg

open Verif.FileIO (uniqueVals labelLe uniqueVals_mem uniqueVals_nodup)
open Verif.DmgQty (sumMin1)
open Verif.LossAgg (maxL maxL_spec sumOver sum_groups)

/-! ## Sums over groups -/

theorem sum_present (l : List (Option ℚ)) : (l.filterMap id).sum = (l.map fun x => x.getD 0).sum := by
  induction l with
  | nil => rfl
  | cons x l ih => cases x <;> simp [← ih] <;> rfl

theorem present_nil (l : List (Option ℚ)) : l.filterMap id = [] ↔ ∀ x ∈ l, x = none := by
  rw [List.filterMap_eq_nil_iff]
  rfl

theorem sumMin1_eq (l : List (Option ℚ)) :
    sumMin1 l = if ∀ x ∈ l, x = none then none else some (l.map fun x => x.getD 0).sum := by
  unfold sumMin1
  rw [sum_present]
  by_cases h : ∀ x ∈ l, x = none
  · rw [if_pos h, if_pos ((present_nil l).2 h)]
  · rw [if_neg h, if_neg fun h' => h ((present_nil l).1 h')]

theorem sumMin1_none (l : List (Option ℚ)) : sumMin1 l = none ↔ ∀ x ∈ l, x = none := by
  rw [sumMin1_eq]
  by_cases h : ∀ x ∈ l, x = none
  · rw [if_pos h]; exact ⟨fun _ => h, fun _ => rfl⟩
  · rw [if_neg h]
    simp only [reduceCtorEq, false_iff]
    exact h

theorem sumMin1_getD (l : List (Option ℚ)) : (sumMin1 l).getD 0 = (l.map fun x => x.getD 0).sum := by
  rw [sumMin1_eq]
  by_cases h : ∀ x ∈ l, x = none
  · rw [if_pos h]
    have : (l.map fun x => x.getD 0) = l.map fun _ => (0 : ℚ) := List.map_congr_left fun x hx => by rw [h x hx]; rfl
    rw [this]
    simp
  · rw [if_neg h]; rfl

theorem mem_group {κ γ : Type} [DecidableEq γ] (g : κ → γ) (le : γ → γ → Bool) (agg : List (Option ℚ) → Option ℚ)
    (s : Sample κ) (c : γ) : c ∈ (group g le agg s).cols ↔ ∃ k ∈ s.cols, g k = c := by
  unfold group
  simp only [mem_pySort, uniqueVals_mem]
  simp

theorem nodup_group {κ γ : Type} [DecidableEq γ] (g : κ → γ) (le : γ → γ → Bool) (agg : List (Option ℚ) → Option ℚ)
    (s : Sample κ) : (group g le agg s).cols.Nodup := by
  unfold group
  exact (pySort_perm le _).nodup_iff.2 (uniqueVals_nodup _ _)

/-- Adding in two steps is the same as adding at once. -/
theorem sum_sum {κ γ δ : Type} [DecidableEq γ] [DecidableEq δ] (cols : List κ) (L : List γ) (hL : L.Nodup) (g : κ → γ)
    (hmem : ∀ c, c ∈ L ↔ ∃ k ∈ cols, g k = c) (h : γ → δ) (d : δ) (row : κ → Option ℚ) :
    sumMin1 ((L.filter fun c => decide (h c = d)).map fun c => sumMin1 ((cols.filter fun k => decide (g k = c)).map row)) =
      sumMin1 ((cols.filter fun k => decide (h (g k) = d)).map row) := by
  have hn : (∀ x ∈ (L.filter fun c => decide (h c = d)).map fun c => sumMin1 ((cols.filter fun k => decide (g k = c)).map row), x = none) ↔
      ∀ x ∈ (cols.filter fun k => decide (h (g k) = d)).map row, x = none := by
    simp only [List.mem_map, List.mem_filter, decide_eq_true_eq, forall_exists_index, and_imp]
    constructor
    · intro H x k hk hd hx
      have := H _ (g k) ((hmem _).2 ⟨k, hk, rfl⟩) hd rfl
      rw [sumMin1_none] at this
      exact this x (List.mem_map.2 ⟨k, List.mem_filter.2 ⟨hk, by simp⟩, hx⟩)
    · intro H x c hc hd hx
      rw [← hx, sumMin1_none]
      intro y hy
      obtain ⟨k, hk, rfl⟩ := List.mem_map.1 hy
      rw [List.mem_filter, decide_eq_true_eq] at hk
      exact H _ k hk.1 (by rw [hk.2]; exact hd) rfl
  rw [sumMin1_eq, sumMin1_eq (List.map row _)]
  by_cases hall : ∀ x ∈ (cols.filter fun k => decide (h (g k) = d)).map row, x = none
  · rw [if_pos hall, if_pos (hn.2 hall)]
  · rw [if_neg hall, if_neg fun h' => hall (hn.1 h')]
    refine congrArg some ?_
    rw [List.map_map, List.map_map]
    have := sum_groups (L.filter fun c => decide (h c = d)) (hL.filter _) g (fun k => (row k).getD 0)
      (cols.filter fun k => decide (h (g k) = d)) (by
        intro k hk
        rw [List.mem_filter, decide_eq_true_eq] at hk
        exact List.mem_filter.2 ⟨(hmem _).2 ⟨k, hk.1, rfl⟩, by simpa using hk.2⟩)
    have e2 : (fun k => (row k).getD 0) = (fun x : Option ℚ => x.getD 0) ∘ row := rfl
    rw [← e2, ← this]
    congr 1
    apply List.map_congr_left
    intro c hc
    rw [List.mem_filter, decide_eq_true_eq] at hc
    simp only [Function.comp]
    rw [sumMin1_getD, List.map_map]
    unfold sumOver
    rw [List.filter_filter]
    congr 2
    apply List.filter_congr
    intro k _
    by_cases hk : g k = c
    · rw [hk]; simp [hc.2]
    · simp [hk]

/-- The sums per component, location and damage state: with and without adding colocated results
first. -/
theorem grp_spec (colocated : Bool) (s : Sample Key) :
    (∀ c, c ∈ (grpDamage colocated s).cols ↔ ∃ k ∈ s.cols, (⟨k.cmp, k.loc, k.ds⟩ : Key3) = c) ∧
    (grpDamage colocated s).cols.Nodup ∧
    (grpDamage colocated s).rows = s.rows.map fun row c =>
      sumMin1 ((s.cols.filter fun k => decide ((⟨k.cmp, k.loc, k.ds⟩ : Key3) = c)).map row) := by
  cases colocated with
  | false =>
    refine ⟨fun c => mem_group _ _ _ _ _, nodup_group _ _ _ _, ?_⟩
    rfl
  | true =>
    have hm : ∀ c, c ∈ (aggregate s).cols ↔ ∃ k ∈ s.cols, (⟨k.cmp, k.loc, k.dir, k.ds⟩ : Key4) = c := fun c => mem_group _ _ _ _ _
    refine ⟨fun c => ?_, nodup_group _ _ _ _, ?_⟩
    · show c ∈ (group (fun k : Key4 => (⟨k.cmp, k.loc, k.ds⟩ : Key3)) le3 sumMin1 (aggregate s)).cols ↔ _
      rw [mem_group]
      constructor
      · rintro ⟨k, hk, rfl⟩
        obtain ⟨k', hk', rfl⟩ := (hm k).1 hk
        exact ⟨k', hk', rfl⟩
      · rintro ⟨k, hk, rfl⟩
        exact ⟨_, (hm _).2 ⟨k, hk, rfl⟩, rfl⟩
    · show (group (fun k : Key4 => (⟨k.cmp, k.loc, k.ds⟩ : Key3)) le3 sumMin1 (aggregate s)).rows = _
      simp only [group, aggregate, List.map_map]
      apply List.map_congr_left
      intro row _
      funext c
      exact sum_sum s.cols (aggregate s).cols (nodup_group _ _ _ _) (fun k => (⟨k.cmp, k.loc, k.dir, k.ds⟩ : Key4)) hm
        (fun k => (⟨k.cmp, k.loc, k.ds⟩ : Key3)) c row

/-! ## C67 -/

/-- Some quantity of the component at the location is in the damage state of column `k`. -/
def InState (s : Sample Key) (row : Key → Option ℚ) (c : Str × Str) (k : Key) : Prop :=
  k ∈ s.cols ∧ (k.cmp, k.loc) = c ∧ ∃ q, row k = some q ∧ 0 < q

/-- The governing damage state: the highest one with a positive quantity, 0 without any. -/
def Governing (s : Sample Key) (row : Key → Option ℚ) (c : Str × Str) (v : ℚ) : Prop :=
  (∃ k n, InState s row c k ∧ pyInt? k.ds = some n ∧ v = (n : ℚ) ∧
    ∀ k' n', InState s row c k' → pyInt? k'.ds = some n' → n' ≤ n) ∨
  ((∀ k, ¬ InState s row c k) ∧ v = 0)

/-- A sample as the damage model makes it: quantities are not negative and damage states are numbered. -/
def Valid (s : Sample Key) : Prop :=
  (∀ row ∈ s.rows, ∀ k ∈ s.cols, ∀ q, row k = some q → 0 ≤ q) ∧ ∀ k ∈ s.cols, ∃ n : ℕ, pyInt? k.ds = some (n : Int)

theorem sum_pos_iff (l : List (Option ℚ)) (h : ∀ q, some q ∈ l → 0 ≤ q) :
    0 ≤ (l.map fun x => x.getD 0).sum ∧ (0 < (l.map fun x => x.getD 0).sum ↔ ∃ q, some q ∈ l ∧ 0 < q) := by
  induction l with
  | nil => simp
  | cons x l ih =>
    obtain ⟨h1, h2⟩ := ih fun q hq => h q (List.mem_cons_of_mem _ hq)
    cases x with
    | none =>
      simp only [List.map_cons, Option.getD_none, List.sum_cons, zero_add]
      refine ⟨h1, ?_⟩
      rw [h2]
      simp
    | some q =>
      have hq := h q (by simp)
      simp only [List.map_cons, Option.getD_some, List.sum_cons]
      refine ⟨by linarith, ?_⟩
      constructor
      · intro hp
        by_cases h0 : 0 < q
        · exact ⟨q, by simp, h0⟩
        · obtain ⟨q', hm, hp'⟩ := h2.1 (by linarith)
          exact ⟨q', List.mem_cons_of_mem _ hm, hp'⟩
      · rintro ⟨q', hm, hp⟩
        rcases List.mem_cons.1 hm with he | hm
        · cases he; linarith
        · have := h2.2 ⟨q', hm, hp⟩; linarith

theorem maxMin1_none (l : List (Option ℚ)) : maxMin1 l = none ↔ ∀ x ∈ l, x = none := by
  unfold maxMin1
  rw [← present_nil]
  by_cases h : l.filterMap id = []
  · simp [h]
  · simp [h]

theorem maxMin1_some (l : List (Option ℚ)) (v : ℚ) (h : maxMin1 l = some v) :
    some v ∈ l ∧ ∀ x, some x ∈ l → x ≤ v := by
  unfold maxMin1 at h
  by_cases hn : l.filterMap id = []
  · rw [if_pos hn] at h; simp at h
  · rw [if_neg hn] at h
    have hv := Option.some.inj h
    obtain ⟨h1, h2⟩ := maxL_spec _ hn
    rw [hv] at h1 h2
    refine ⟨?_, fun x hx => h2 x ?_⟩
    · obtain ⟨y, hy, he⟩ := List.mem_filterMap.1 h1
      cases he
      exact hy
    · exact List.mem_filterMap.2 ⟨some x, hx, rfl⟩

/-- **C67.** The condensed damage results: one column per component and location of the sample; in
each realization the value is missing exactly if all quantities of the component at the location are
missing, and otherwise it is the governing damage state.  Whether colocated results were added
before makes no difference. -/
theorem C67_governing (s : Sample Key) (colocated : Bool) (s' : Sample (Str × Str)) (hv : Valid s)
    (h : condense (grpDamage colocated s) = .ok s') :
    (∀ c, c ∈ s'.cols ↔ ∃ k ∈ s.cols, (k.cmp, k.loc) = c) ∧ s'.cols.Nodup ∧ s'.rows.length = s.rows.length ∧
    ∀ (i : ℕ) (row : Key → Option ℚ) (row' : Str × Str → Option ℚ), s.rows[i]? = some row → s'.rows[i]? = some row' → ∀ c ∈ s'.cols,
      (row' c = none ↔ ∀ k ∈ s.cols, (k.cmp, k.loc) = c → row k = none) ∧
      (∀ v, row' c = some v → Governing s row c v) := by
  obtain ⟨hc, hnd, hr⟩ := grp_spec colocated s
  unfold condense at h
  cases hm : mapE dsNumber (grpDamage colocated s).cols with
  | error e => rw [hm] at h; cases h
  | ok u =>
    rw [hm] at h
    simp only [Except.ok.injEq] at h
    subst h
    refine ⟨fun c => ?_, nodup_group _ _ _ _, ?_, ?_⟩
    · rw [mem_group]
      simp only
      constructor
      · rintro ⟨k, hk, rfl⟩
        obtain ⟨k', hk', rfl⟩ := (hc k).1 hk
        exact ⟨k', hk', rfl⟩
      · rintro ⟨k, hk, rfl⟩
        exact ⟨_, (hc _).2 ⟨k, hk, rfl⟩, rfl⟩
    · simp [group, hr]
    · intro i row row' hi hi' c _
      have hrow : row ∈ s.rows := List.mem_of_getElem? hi
      have he : row' = fun c => maxMin1 (((grpDamage colocated s).cols.filter fun k => decide ((k.cmp, k.loc) = c)).map fun k =>
          dsCell ((pyInt? k.ds).getD 0) (sumMin1 ((s.cols.filter fun k' => decide ((⟨k'.cmp, k'.loc, k'.ds⟩ : Key3) = k)).map row))) := by
        simp only [group, hr, List.getElem?_map, hi, Option.map_some, Option.some.injEq] at hi'
        exact hi'.symm
      -- the cells
      have hcell : ∀ k3 ∈ (grpDamage colocated s).cols, ∀ q,
          sumMin1 ((s.cols.filter fun k' => decide ((⟨k'.cmp, k'.loc, k'.ds⟩ : Key3) = k3)).map row) = some q →
          0 ≤ q ∧ (0 < q ↔ ∃ k ∈ s.cols, (⟨k.cmp, k.loc, k.ds⟩ : Key3) = k3 ∧ ∃ x, row k = some x ∧ 0 < x) := by
        intro k3 _ q hq
        have hnn : ∀ q, some q ∈ (s.cols.filter fun k' => decide ((⟨k'.cmp, k'.loc, k'.ds⟩ : Key3) = k3)).map row → 0 ≤ q := by
          intro q hq
          obtain ⟨k, hk, hkq⟩ := List.mem_map.1 hq
          exact hv.1 row hrow k (List.mem_filter.1 hk).1 q hkq
        obtain ⟨h1, h2⟩ := sum_pos_iff _ hnn
        have := sumMin1_getD ((s.cols.filter fun k' => decide ((⟨k'.cmp, k'.loc, k'.ds⟩ : Key3) = k3)).map row)
        rw [hq, Option.getD_some] at this
        rw [← this] at h1 h2
        refine ⟨h1, h2.trans ?_⟩
        constructor
        · rintro ⟨x, hx, hp⟩
          obtain ⟨k, hk, hkx⟩ := List.mem_map.1 hx
          rw [List.mem_filter, decide_eq_true_eq] at hk
          exact ⟨k, hk.1, hk.2, x, hkx, hp⟩
        · rintro ⟨k, hk, he, x, hx, hp⟩
          exact ⟨x, List.mem_map.2 ⟨k, List.mem_filter.2 ⟨hk, by simpa using he⟩, hx⟩, hp⟩
      constructor
      · rw [he]
        simp only
        rw [maxMin1_none]
        simp only [List.mem_map, List.mem_filter, decide_eq_true_eq, forall_exists_index, and_imp]
        constructor
        · intro H k hk hkc
          have := H _ ⟨k.cmp, k.loc, k.ds⟩ ((hc _).2 ⟨k, hk, rfl⟩) hkc rfl
          unfold dsCell at this
          rw [Option.map_eq_none_iff, sumMin1_none] at this
          exact this _ (List.mem_map.2 ⟨k, List.mem_filter.2 ⟨hk, by simp⟩, rfl⟩)
        · intro H x k3 hk3 hkc hx
          rw [← hx]
          unfold dsCell
          rw [Option.map_eq_none_iff, sumMin1_none]
          intro y hy
          obtain ⟨k, hk, rfl⟩ := List.mem_map.1 hy
          rw [List.mem_filter, decide_eq_true_eq] at hk
          refine H k hk.1 ?_
          rw [← hkc, ← hk.2]
      · intro v hvv
        rw [he] at hvv
        obtain ⟨hin, hmax⟩ := maxMin1_some _ _ hvv
        -- numbers of the states
        have hnum : ∀ k3 ∈ (grpDamage colocated s).cols, ∃ n : ℕ, pyInt? k3.ds = some (n : Int) := by
          intro k3 hk3
          obtain ⟨k, hk, rfl⟩ := (hc k3).1 hk3
          exact hv.2 k hk
        -- a positive state bounds the maximum from below
        have hlow : ∀ k' n', InState s row c k' → pyInt? k'.ds = some n' → (n' : ℚ) ≤ v := by
          rintro k' n' ⟨hk', hkc, x, hx, hp⟩ hn'
          have hk3 : (⟨k'.cmp, k'.loc, k'.ds⟩ : Key3) ∈ (grpDamage colocated s).cols := (hc _).2 ⟨k', hk', rfl⟩
          cases hs : sumMin1 ((s.cols.filter fun k => decide ((⟨k.cmp, k.loc, k.ds⟩ : Key3) = ⟨k'.cmp, k'.loc, k'.ds⟩)).map row) with
          | none =>
            rw [sumMin1_none] at hs
            have := hs _ (List.mem_map.2 ⟨k', List.mem_filter.2 ⟨hk', by simp⟩, rfl⟩)
            rw [hx] at this; cases this
          | some q =>
            have hq := ((hcell _ hk3 q hs).2).2 ⟨k', hk', rfl, x, hx, hp⟩
            apply hmax
            refine List.mem_map.2 ⟨⟨k'.cmp, k'.loc, k'.ds⟩, List.mem_filter.2 ⟨hk3, by simpa using hkc⟩, ?_⟩
            rw [hs]
            simp [dsCell, hq, hn']
        obtain ⟨k3, hk3, hcv⟩ := List.mem_map.1 hin
        rw [List.mem_filter, decide_eq_true_eq] at hk3
        obtain ⟨n, hn⟩ := hnum k3 hk3.1
        cases hs : sumMin1 ((s.cols.filter fun k => decide ((⟨k.cmp, k.loc, k.ds⟩ : Key3) = k3)).map row) with
        | none => rw [hs] at hcv; cases hcv
        | some q =>
          rw [hs, hn] at hcv
          simp only [dsCell, Option.map_some, Option.getD_some, Option.some.injEq] at hcv
          obtain ⟨h0, hpos⟩ := hcell k3 hk3.1 q hs
          by_cases hq : q > 0
          · obtain ⟨k, hk, hkk, x, hx, hp⟩ := hpos.1 hq
            have hdk : pyInt? k.ds = some (n : Int) := by rw [← hn, ← hkk]
            left
            refine ⟨k, n, ⟨hk, by rw [← hk3.2, ← hkk], x, hx, hp⟩, hdk, ?_, ?_⟩
            · rw [if_pos hq] at hcv; rw [← hcv]; push_cast; ring
            · intro k' n' hk' hn'
              have := hlow k' n' hk' hn'
              rw [if_pos hq] at hcv
              have hvn : v = ((n : Int) : ℚ) := by rw [← hcv]; push_cast; ring
              rw [hvn] at this
              exact_mod_cast this
          · have hq0 : q = 0 := le_antisymm (not_lt.1 hq) h0
            have hv0 : v = 0 := by rw [← hcv, hq0]; simp
            by_cases hex : ∃ k, InState s row c k
            · left
              -- all positive states have number 0
              obtain ⟨k, hk⟩ := hex
              obtain ⟨m, hm'⟩ := hv.2 k hk.1
              have hle := hlow k m hk hm'
              rw [hv0] at hle
              have hm0 : (m : Int) = 0 := by
                have : (m : Int) ≤ 0 := by exact_mod_cast hle
                omega
              refine ⟨k, 0, hk, by rw [hm', hm0], by rw [hv0]; simp, ?_⟩
              intro k' n' hk' hn'
              have := hlow k' n' hk' hn'
              rw [hv0] at this
              exact_mod_cast this
            · right
              exact ⟨fun k hk => hex ⟨k, hk⟩, hv0⟩

/-- **C67.** A sample of the damage model is always accepted. -/
theorem C67_accepted (s : Sample Key) (colocated : Bool) (hv : Valid s) : ∃ s', condense (grpDamage colocated s) = .ok s' := by
  obtain ⟨hc, _, _⟩ := grp_spec colocated s
  have : ∃ u, mapE dsNumber (grpDamage colocated s).cols = .ok u := by
    apply mapE_ok_of_forall
    intro k hk
    obtain ⟨k', hk', rfl⟩ := (hc k).1 hk
    obtain ⟨n, hn⟩ := hv.2 k' hk'
    exact ⟨n, by simp [dsNumber, hn]⟩
  obtain ⟨u, hu⟩ := this
  unfold condense
  rw [hu]
  exact ⟨_, rfl⟩

/-- **C67.** A sample with a damage state that is not a whole number cannot be condensed: ValueError. -/
theorem C67_refused (s : Sample Key) (colocated : Bool) (k : Key) (hk : k ∈ s.cols) (hn : pyInt? k.ds = none) :
    condense (grpDamage colocated s) = .error .valueError := by
  obtain ⟨hc, _, _⟩ := grp_spec colocated s
  have hall : ∀ (l : List Key3) (x : Key3), x ∈ l → pyInt? x.ds = none → mapE dsNumber l = .error .valueError := by
    intro l
    induction l with
    | nil => intro x hx; cases hx
    | cons a l ih =>
      intro x hx hx'
      cases ha : pyInt? a.ds with
      | none => simp [mapE, dsNumber, ha]
      | some m =>
        rcases List.mem_cons.1 hx with rfl | hx
        · rw [ha] at hx'; cases hx'
        · simp [mapE, dsNumber, ha, ih x hx hx']
  unfold condense
  rw [hall _ _ ((hc ⟨k.cmp, k.loc, k.ds⟩).2 ⟨k, hk, rfl⟩) hn]

example : pyInt? (str "DS1") = none := by decide

/-- Not vacuous: two blocks of a component at one location in different states, one realization with
missing values. -/
def exSample : Sample Key where
  cols := [⟨str "C", str "1", str "1", str "0", str "0"⟩, ⟨str "C", str "1", str "1", str "0", str "2"⟩, ⟨str "C", str "1", str "2", str "0", str "1"⟩]
  rows := [fun k => if k.dir = str "2" then some 3 else if k.ds = str "2" then some 1 else some 0,
           fun k => if k.dir = str "2" then none else if k.ds = str "2" then some 0 else some 4,
           fun _ => none]

example : Valid exSample := by
  constructor
  · intro row hr k hk q hq
    simp only [exSample, List.mem_cons, List.not_mem_nil, or_false] at hr hk
    rcases hr with rfl | rfl | rfl <;> rcases hk with rfl | rfl | rfl <;> simp [str] at hq <;> subst hq <;> norm_num
  · intro k hk
    simp only [exSample, List.mem_cons, List.not_mem_nil, or_false] at hk
    rcases hk with rfl | rfl | rfl
    · exact ⟨0, by decide⟩
    · exact ⟨2, by decide⟩
    · exact ⟨1, by decide⟩

example : (condense (grpDamage true exSample)).toOption.map (fun s => s.rows.map fun r => r (str "C", str "1")) =
    some [some 2, some 0, none] := by decide +kernel

/-! ## C82 -/

/-- **C82.** The grouped damage results without condensing: one column per component; the value is
missing exactly if all quantities of the component are missing, and otherwise it is the sum of the
quantities of all columns of the component that are not missing, in whichever damage state
(including the undamaged one).  Whether colocated results were added before makes no difference. -/
theorem C82_total (s : Sample Key) (colocated : Bool) :
    (∀ c, c ∈ (total (grpDamage colocated s)).cols ↔ ∃ k ∈ s.cols, k.cmp = c) ∧
    (total (grpDamage colocated s)).cols.Nodup ∧
    (total (grpDamage colocated s)).rows.length = s.rows.length ∧
    ∀ (i : ℕ) (row : Key → Option ℚ) (row' : Str → Option ℚ), s.rows[i]? = some row → (total (grpDamage colocated s)).rows[i]? = some row' → ∀ c,
      row' c = if ∀ k ∈ s.cols, k.cmp = c → row k = none then none
        else some (((s.cols.filter fun k => decide (k.cmp = c)).filterMap row).sum) := by
  obtain ⟨hc, hnd, hr⟩ := grp_spec colocated s
  refine ⟨fun c => ?_, nodup_group _ _ _ _, ?_, ?_⟩
  · unfold total
    rw [mem_group]
    constructor
    · rintro ⟨k, hk, rfl⟩
      obtain ⟨k', hk', rfl⟩ := (hc k).1 hk
      exact ⟨k', hk', rfl⟩
    · rintro ⟨k, hk, rfl⟩
      exact ⟨_, (hc _).2 ⟨k, hk, rfl⟩, rfl⟩
  · simp [total, group, hr]
  · intro i row row' hi hi' c
    have he : row' = fun c => sumMin1 (((grpDamage colocated s).cols.filter fun k => decide (k.cmp = c)).map fun k =>
        sumMin1 ((s.cols.filter fun k' => decide ((⟨k'.cmp, k'.loc, k'.ds⟩ : Key3) = k)).map row)) := by
      simp only [total, group, hr, List.getElem?_map, hi, Option.map_some, Option.some.injEq] at hi'
      exact hi'.symm
    have := sum_sum s.cols (grpDamage colocated s).cols hnd (fun k => (⟨k.cmp, k.loc, k.ds⟩ : Key3)) hc (fun k => k.cmp) c row
    rw [he]
    simp only at this ⊢
    rw [this]
    unfold sumMin1
    rw [List.filterMap_map, Function.id_comp]
    have hiff : List.filterMap row (s.cols.filter fun k => decide (k.cmp = c)) = [] ↔ ∀ k ∈ s.cols, k.cmp = c → row k = none := by
      rw [List.filterMap_eq_nil_iff]
      simp only [List.mem_filter, decide_eq_true_eq, and_imp]
    by_cases hn : ∀ k ∈ s.cols, k.cmp = c → row k = none
    · rw [if_pos hn, if_pos (hiff.2 hn)]
    · rw [if_neg hn, if_neg fun h => hn (hiff.1 h)]

example : (total (grpDamage false exSample)).rows.map (fun r => r (str "C")) = [some 4, some 4, none] := by decide +kernel

end Verif.ToolDmg
