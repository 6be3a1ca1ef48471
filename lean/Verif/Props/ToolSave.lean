import Verif.Model.ToolSave
import Verif.Props.ToolDmg

/-! # Property C101: saved components and losses, and the summary -/

namespace Verif.ToolSave

open Verif.FileIO (uniqueVals labelLe uniqueVals_mem uniqueVals_nodup)
open Verif.DmgQty (sumMin1)
open Verif.ToolDmg (Sample Key group le2 mem_group nodup_group sum_sum sumMin1_eq)

/-! ### Specification -/

/-- The total of some columns in a realization: missing if all of them are. -/
def totalOf (cols : List (List Str)) (row : List Str → Option ℚ) (p : List Str → Bool) : Option ℚ :=
  if ∀ k ∈ cols, p k = true → row k = none then none else some (((cols.filter p).map fun k => (row k).getD 0).sum)

/-- The quantity of a component in a damage state in a realization, over all locations; missing values are zero. -/
def quantityIn (s : Sample Key) (cmp ds : Str) (row : Key → Option ℚ) : ℚ :=
  ((s.cols.filter fun k => decide (k.cmp = cmp ∧ k.ds = ds)).map fun k => (row k).getD 0).sum

theorem sumMin1_total (cols : List (List Str)) (row : List Str → Option ℚ) (p : List Str → Bool) :
    sumMin1 ((cols.filter p).map row) = totalOf cols row p := by
  rw [sumMin1_eq]
  unfold totalOf
  have h : (∀ x ∈ (cols.filter p).map row, x = none) ↔ ∀ k ∈ cols, p k = true → row k = none := by
    simp only [List.mem_map, List.mem_filter]
    constructor
    · intro h k hk hp
      exact h _ ⟨k, ⟨hk, hp⟩, rfl⟩
    · rintro h x ⟨k, ⟨hk, hp⟩, rfl⟩
      exact h k hk hp
  by_cases hh : ∀ k ∈ cols, p k = true → row k = none
  · rw [if_pos hh, if_pos (h.2 hh)]
  · rw [if_neg hh, if_neg fun h' => hh (h.1 h'), List.map_map]
    rfl

/-- C101: with colocated results added there is one column for each label without `uid`, with the total in each realization.
Without this option the sample is saved as it is. -/
theorem C101_colocated (s : Sample (List Str)) :
    colocate false s = s ∧
    (∀ c, c ∈ (colocate true s).cols ↔ ∃ k ∈ s.cols, k.dropLast = c) ∧ (colocate true s).cols.Nodup ∧
    (colocate true s).rows = s.rows.map fun row c => totalOf s.cols row fun k => decide (k.dropLast = c) := by
  refine ⟨rfl, fun c => mem_group _ _ _ _ _, nodup_group _ _ _ _, ?_⟩
  unfold colocate group
  simp only [if_true]
  apply List.map_congr_left
  intro row _
  funext c
  exact sumMin1_total _ _ _

/-- C101: the grouped losses are the totals by decision variable, consequence and component, whether or not colocated results
were added first. -/
theorem C101_grouped (agg : Bool) (s : Sample (List Str)) (hl : ∀ k ∈ s.cols, 4 ≤ k.length) :
    (∀ c, c ∈ (grouped agg s).cols ↔ ∃ k ∈ s.cols, k.take 3 = c) ∧ (grouped agg s).cols.Nodup ∧
    (grouped agg s).rows = s.rows.map fun row c => totalOf s.cols row fun k => decide (k.take 3 = c) := by
  have htake : ∀ k ∈ s.cols, k.dropLast.take 3 = k.take 3 := by
    intro k hk
    have := hl k hk
    rw [List.dropLast_eq_take, List.take_take]
    congr 1
    omega
  cases agg with
  | false =>
    refine ⟨fun c => mem_group _ _ _ _ _, nodup_group _ _ _ _, ?_⟩
    unfold grouped group colocate
    simp only [Bool.false_eq_true, if_false]
    apply List.map_congr_left
    intro row _
    funext c
    exact sumMin1_total _ _ _
  | true =>
    have hm : ∀ c, c ∈ (colocate true s).cols ↔ ∃ k ∈ s.cols, k.dropLast = c := (C101_colocated s).2.1
    refine ⟨fun c => ?_, nodup_group _ _ _ _, ?_⟩
    · unfold grouped
      rw [mem_group]
      constructor
      · rintro ⟨k, hk, rfl⟩
        obtain ⟨k', hk', rfl⟩ := (hm k).1 hk
        exact ⟨k', hk', (htake k' hk').symm⟩
      · rintro ⟨k, hk, rfl⟩
        exact ⟨_, (hm _).2 ⟨k, hk, rfl⟩, htake k hk⟩
    · show (group (List.take 3) labelLe sumMin1 (group List.dropLast labelLe sumMin1 s)).rows = _
      simp only [group, List.map_map]
      apply List.map_congr_left
      intro row _
      funext c
      have h := sum_sum s.cols (colocate true s).cols (C101_colocated s).2.2.1 List.dropLast hm (List.take 3) c row
      refine h.trans ?_
      rw [← sumMin1_total]
      congr 2
      apply List.filter_congr
      intro k hk
      rw [htake k hk]

theorem firstUnit_eq {κ γ : Type} [DecidableEq γ] {g : κ → γ} {cols : List κ} {unit : κ → Option Str} {c : γ} {u : Str}
    (hc : ∃ k ∈ cols, g k = c) (h : ∀ k ∈ cols, g k = c → unit k = some u) : firstUnit g cols unit c = some u := by
  unfold firstUnit
  obtain ⟨k, hk, hg⟩ := hc
  cases hf : (cols.filter fun k => decide (g k = c)).filterMap unit with
  | nil =>
    exfalso
    have : u ∈ (cols.filter fun k => decide (g k = c)).filterMap unit :=
      List.mem_filterMap.2 ⟨k, List.mem_filter.2 ⟨hk, by simpa using hg⟩, h k hk hg⟩
    rw [hf] at this
    simp at this
  | cons a l =>
    have ha : a ∈ (cols.filter fun k => decide (g k = c)).filterMap unit := by rw [hf]; exact List.mem_cons_self ..
    obtain ⟨k', hk', hu⟩ := List.mem_filterMap.1 ha
    rw [List.mem_filter, decide_eq_true_eq] at hk'
    rw [h k' hk'.1 hk'.2] at hu
    rw [List.head?_cons, ← Option.some.inj hu]

/-- C101: totals have the unit of the results that are added, which is the same for all results of a component or consequence. -/
theorem C101_units (agg : Bool) (s : Sample (List Str)) (hl : ∀ k ∈ s.cols, 4 ≤ k.length) (unit : List Str → Option Str) (u : List Str → Str)
    (hu : ∀ k ∈ s.cols, unit k = some (u (k.take 3))) :
    (∀ c ∈ (grouped agg s).cols, groupedUnits agg s unit c = some (u c)) ∧
    ∀ c ∈ (colocate agg s).cols, colocateUnits agg s.cols unit c = some (u (c.take 3)) := by
  have htake : ∀ k ∈ s.cols, k.dropLast.take 3 = k.take 3 := by
    intro k hk
    have := hl k hk
    rw [List.dropLast_eq_take, List.take_take]
    congr 1
    omega
  have h2 : ∀ c ∈ (colocate agg s).cols, colocateUnits agg s.cols unit c = some (u (c.take 3)) := by
    intro c hc
    cases agg with
    | false => exact hu c hc
    | true =>
      have hc' := ((C101_colocated s).2.1 c).1 hc
      unfold colocateUnits
      simp only [if_true]
      apply firstUnit_eq hc'
      rintro k hk rfl
      rw [hu k hk, htake k hk]
  refine ⟨?_, h2⟩
  intro c hc
  unfold grouped at hc
  rw [mem_group] at hc
  unfold groupedUnits
  apply firstUnit_eq hc
  rintro k hk rfl
  exact h2 k hk

theorem append_dash_inj {a b c d : Str} (hb : '-' ∉ b) (hd : '-' ∉ d) (h : a ++ '-' :: b = c ++ '-' :: d) : a = c ∧ b = d := by
  rw [List.append_eq_append_iff] at h
  rcases h with ⟨e, h1, h2⟩ | ⟨e, h1, h2⟩
  · cases e with
    | nil =>
      simp only [List.nil_append, List.cons.injEq, true_and, List.append_nil] at h1 h2
      exact ⟨h1.symm, h2⟩
    | cons x e =>
      simp only [List.cons_append, List.cons.injEq] at h2
      exact absurd (h2.2 ▸ List.mem_append_right _ (List.mem_cons_self ..)) hb
  · cases e with
    | nil =>
      simp only [List.nil_append, List.cons.injEq, true_and, List.append_nil] at h1 h2
      exact ⟨h1, h2.symm⟩
    | cons x e =>
      simp only [List.cons_append, List.cons.injEq] at h2
      exact absurd (h2.2 ▸ List.mem_append_right _ (List.mem_cons_self ..)) hd

theorem flag_eq (s : Sample Key) (hds : ∀ k ∈ s.cols, '-' ∉ k.ds) (cmp ds : Str) (hd : '-' ∉ ds) :
    flag (cmp ++ '-' :: ds) (byState s) = .ok (s.rows.map fun row => some (quantityIn s cmp ds row)) := by
  have hm : ∀ c, c ∈ (byState s).cols ↔ ∃ k ∈ s.cols, (k.cmp, k.ds) = c := fun c => mem_group _ _ _ _ _
  have hnd : (byState s).cols.Nodup := nodup_group _ _ _ _
  have hlab : ∀ c ∈ (byState s).cols, (c.1 ++ '-' :: c.2 = cmp ++ '-' :: ds) ↔ c = (cmp, ds) := by
    intro c hc
    obtain ⟨k, hk, rfl⟩ := (hm c).1 hc
    constructor
    · intro h
      obtain ⟨h1, h2⟩ := append_dash_inj (hds k hk) hd h
      rw [← h1, ← h2]
    · intro h
      obtain ⟨h1, h2⟩ := Prod.mk.inj h
      simp only [h1, h2]
  have hf : (byState s).cols.filter (fun c => decide (c.1 ++ '-' :: c.2 = cmp ++ '-' :: ds)) =
      (byState s).cols.filter fun c => decide (c = (cmp, ds)) := by
    apply List.filter_congr
    intro c hc
    rw [decide_eq_decide]
    exact hlab c hc
  unfold flag
  rw [hf]
  have hval : ∀ row ∈ s.rows, (((s.cols.filter fun k => decide ((k.cmp, k.ds) = (cmp, ds))).map row).filterMap id).sum = quantityIn s cmp ds row := by
    intro row _
    rw [ToolDmg.sum_present, List.map_map]
    unfold quantityIn
    simp only [Prod.mk.injEq]
    rfl
  by_cases hin : (cmp, ds) ∈ (byState s).cols
  · have h1 : (byState s).cols.filter (fun c => decide (c = (cmp, ds))) = [(cmp, ds)] := by
      have hperm : ((byState s).cols.filter fun c => decide (c = (cmp, ds))).Perm [(cmp, ds)] := by
        rw [List.perm_ext_iff_of_nodup (hnd.filter _) (by simp)]
        intro c
        rw [List.mem_filter, decide_eq_true_eq, List.mem_singleton]
        constructor
        · exact fun h => h.2
        · rintro rfl; exact ⟨hin, rfl⟩
      exact List.perm_singleton.1 hperm
    rw [h1]
    simp only [byState, group, List.map_map]
    congr 1
    apply List.map_congr_left
    intro row hrow
    simp only [Function.comp]
    rw [hval row hrow]
  · have h1 : (byState s).cols.filter (fun c => decide (c = (cmp, ds))) = [] := by
      rw [List.filter_eq_nil_iff]
      intro c hc
      rw [decide_eq_true_eq]
      rintro rfl
      exact hin hc
    rw [h1]
    simp only [byState, group, List.map_map]
    congr 1
    apply List.map_congr_left
    intro row hrow
    simp only [Function.comp]
    rw [← hval row hrow]
    have h2 : s.cols.filter (fun k => decide ((k.cmp, k.ds) = (cmp, ds))) = [] := by
      rw [List.filter_eq_nil_iff]
      intro k hk
      rw [decide_eq_true_eq]
      intro h
      exact hin ((hm _).2 ⟨k, hk, h⟩)
    rw [h2]
    rfl

/-- C101: the summary has the aggregated losses as they are, and in each realization the quantity of collapse and of
irreparable damage, which is zero if they are not among the components or never occur. -/
theorem C101_summary (s : Sample Key) (hds : ∀ k ∈ s.cols, '-' ∉ k.ds) (agg : Option (List (Str × List (Option ℚ)))) :
    summary (some s) agg = .ok (agg.getD [] ++
      [(str "collapse", s.rows.map fun row => some (quantityIn s (str "collapse") (str "1") row)),
       (str "irreparable", s.rows.map fun row => some (quantityIn s (str "irreparable") (str "1") row))]) := by
  unfold summary
  have h1 := flag_eq s hds (str "collapse") (str "1") (by decide)
  have h2 := flag_eq s hds (str "irreparable") (str "1") (by decide)
  rw [show str "collapse" ++ '-' :: str "1" = str "collapse-1" by decide] at h1
  rw [show str "irreparable" ++ '-' :: str "1" = str "irreparable-1" by decide] at h2
  simp only [h1, h2]

/-- C101: without damage the summary has the aggregated losses only. -/
theorem C101_summary_losses (agg : Option (List (Str × List (Option ℚ)))) : summary none agg = .ok (agg.getD []) := rfl

/-! ### Examples -/

def exLoss : Sample (List Str) where
  cols := [[str "Cost", str "B", str "A", str "1", str "2", str "1", str "0"], [str "Cost", str "B", str "A", str "1", str "2", str "1", str "1"],
    [str "Time", str "B", str "A", str "1", str "2", str "1", str "0"]]
  rows := [fun k => if k.head? = some (str "Cost") then some 5 else none, fun k => if k.getLast? = some (str "1") then some 3 else none]

example : (∀ k ∈ exLoss.cols, 4 ≤ k.length) ∧ (grouped true exLoss).cols = [[str "Cost", str "B", str "A"], [str "Time", str "B", str "A"]] ∧
    ((grouped true exLoss).rows.map fun row => (grouped true exLoss).cols.map row) = [[some 10, none], [some 3, none]] := by decide +kernel

example : ∀ k ∈ exLoss.cols, (fun k : List Str => some (k.headD [])) k = some ((fun k : List Str => k.headD []) (k.take 3)) := by decide +kernel

def exDamage : Sample Key where
  cols := [⟨str "collapse", str "0", str "1", str "0", str "0"⟩, ⟨str "collapse", str "0", str "1", str "0", str "1"⟩, ⟨str "A", str "1", str "1", str "0", str "1"⟩]
  rows := [fun k => if k.cmp = str "collapse" then (if k.ds = str "1" then some 1 else some 0) else none, fun k => if k.ds = str "0" then some 1 else some 0]

example : (∀ k ∈ exDamage.cols, '-' ∉ k.ds) ∧ (summary (some exDamage) (some [(str "repair_cost-", [some 7, some 8])])).toOption =
    some [(str "repair_cost-", [some 7, some 8]), (str "collapse", [some 1, some 0]), (str "irreparable", [some 0, some 0])] := by decide +kernel

end Verif.ToolSave
