import Verif.Model.LossAgg
import Verif.Props.FileIO
import Verif.Lemmas.Lists
import Mathlib.Algebra.BigOperators.Group.List.Basic
import Mathlib.Algebra.Order.BigOperators.Group.List
import Mathlib.Tactic.IntervalCases
import Mathlib.Data.List.Dedup

/-!
# Properties C51, C52 and C54

C51: replacement excludes other losses.  C52: replacement thresholds.  C54: aggregated losses.
-/

namespace Verif.LossAgg

/-! ## Sums -/

theorem sum_indicator {β : Type} [DecidableEq β] (L : List β) (hL : L.Nodup) (a : β) (ha : a ∈ L) (x : ℚ) :
    (L.map fun b => if a = b then x else 0).sum = x := by
  induction L with
  | nil => simp at ha
  | cons b L ih =>
    rw [List.nodup_cons] at hL
    rw [List.map_cons, List.sum_cons]
    by_cases h : a = b
    · subst h
      rw [if_pos rfl]
      have : (L.map fun b => if a = b then x else 0) = L.map fun _ => (0 : ℚ) := by
        apply List.map_congr_left
        intro c hc
        rw [if_neg]
        rintro rfl; exact hL.1 hc
      rw [this]; simp
    · rw [if_neg h, ih hL.2 (by rcases List.mem_cons.1 ha with h' | h'; exact absurd h' h; exact h')]
      simp

/-- Summing group by group is summing everything. -/
theorem sum_groups {κ β : Type} [DecidableEq β] (L : List β) (hL : L.Nodup) (g : κ → β) (row : κ → ℚ) :
    ∀ cols : List κ, (∀ k ∈ cols, g k ∈ L) →
      (L.map fun b => sumOver cols (fun k => decide (g k = b)) row).sum = (cols.map row).sum := by
  intro cols
  induction cols with
  | nil => intro _; simp [sumOver]
  | cons k cols ih =>
    intro h
    have e : (L.map fun b => sumOver (k :: cols) (fun k => decide (g k = b)) row) =
        L.map fun b => (if g k = b then row k else 0) + sumOver cols (fun k => decide (g k = b)) row := by
      apply List.map_congr_left
      intro b _
      unfold sumOver
      by_cases hb : g k = b
      · rw [List.filter_cons_of_pos (by simpa using hb), if_pos hb]; simp
      · rw [List.filter_cons_of_neg (by simpa using hb), if_neg hb]; simp
    rw [e, List.sum_map_add, sum_indicator L hL _ (h k (by simp)), ih fun x hx => h x (List.mem_cons_of_mem _ hx)]
    simp

theorem sumOver_and {κ : Type} (cols : List κ) (p q : κ → Bool) (row : κ → ℚ) :
    sumOver cols (fun k => p k && q k) row = sumOver (cols.filter p) q row := by
  unfold sumOver
  rw [List.filter_filter]
  congr 2
  apply List.filter_congr
  intro k _
  rw [Bool.and_comm]

/-! ## C54 -/

/-- The total of a decision variable in a realization: the sum over its columns. -/
def Total (cols : List LKey) (dv : Str) (row : LKey → ℚ) : ℚ := ((cols.filter fun k => decide (k.dv = dv)).map row).sum

/-- The total of a decision variable at a location. -/
def TotalAt (cols : List LKey) (dv loc : Str) (row : LKey → ℚ) : ℚ :=
  ((cols.filter fun k => decide (k.dv = dv ∧ k.loc = loc)).map row).sum

theorem locsOf_nodup (cols : List LKey) (dv : Str) : (locsOf cols dv).Nodup := FileIO.uniqueVals_nodup [] _

theorem mem_locsOf (cols : List LKey) (dv loc : Str) : loc ∈ locsOf cols dv ↔ ∃ k ∈ cols, k.dv = dv ∧ k.loc = loc := by
  unfold locsOf
  rw [FileIO.uniqueVals_mem]
  simp only [List.mem_map, List.mem_filter, decide_eq_true_eq, List.not_mem_nil, not_false_eq_true, and_true]
  constructor
  · rintro ⟨k, ⟨h1, h2⟩, h3⟩; exact ⟨k, h1, h2, h3⟩
  · rintro ⟨k, h1, h2, h3⟩; exact ⟨k, ⟨h1, h2⟩, h3⟩

theorem locSum_eq (cols : List LKey) (dv loc : Str) (row : LKey → ℚ) : locSum cols dv loc row = TotalAt cols dv loc row := rfl

theorem seqTotal_eq (cols : List LKey) (dv : Str) (row : LKey → ℚ) : seqTotal cols dv row = Total cols dv row := by
  unfold seqTotal Total
  have := sum_groups (locsOf cols dv) (locsOf_nodup cols dv) (fun k : LKey => k.loc) row
    (cols.filter fun k => decide (k.dv = dv)) (by
      intro k hk
      rw [List.mem_filter, decide_eq_true_eq] at hk
      exact (mem_locsOf _ _ _).2 ⟨k, hk.1, hk.2, rfl⟩)
  rw [← this]
  congr 1
  apply List.map_congr_left
  intro l _
  unfold locSum sumOver
  rw [List.filter_filter]
  congr 2
  apply List.filter_congr
  intro k _
  by_cases h1 : k.dv = dv <;> by_cases h2 : k.loc = l <;> simp [h1, h2]

theorem maxL_spec (l : List ℚ) (hne : l ≠ []) : maxL l ∈ l ∧ ∀ x ∈ l, x ≤ maxL l := by
  induction l with
  | nil => exact absurd rfl hne
  | cons a l ih =>
    cases l with
    | nil => simp [maxL]
    | cons b l =>
      obtain ⟨h1, h2⟩ := ih (by simp)
      have e : maxL (a :: b :: l) = max a (maxL (b :: l)) := rfl
      rw [e]
      refine ⟨?_, ?_⟩
      · rcases max_choice a (maxL (b :: l)) with h | h
        · rw [h]; simp
        · rw [h]; exact List.mem_cons_of_mem _ h1
      · intro x hx
        rcases List.mem_cons.1 hx with rfl | hx
        · exact le_max_left _ _
        · exact (h2 x hx).trans (le_max_right _ _)

/-- The unit and factor used for a decision variable. -/
def UnitFactor (dvUnits : Dict Str Str) (table : Dict Str ℚ) (name : Str) (f : ℚ) : Prop :=
  ∃ u, dvUnits.get? name = some u ∧ table.get? u = some f

theorem toUnit_ok {dvUnits : Dict Str Str} {table : Dict Str ℚ} {c : Str × Str × List ℚ} {o : Str × List ℚ}
    (h : toUnit dvUnits table c = .ok o) : ∃ f, UnitFactor dvUnits table c.2.1 f ∧ o = (c.1, c.2.2.map fun v => v / f) := by
  unfold toUnit at h
  cases h1 : dvUnits.get? c.2.1 with
  | none => rw [h1] at h; simp at h
  | some u =>
    rw [h1] at h
    cases h2 : table.get? u with
    | none => simp [h2] at h
    | some f =>
      simp only [h2, Except.ok.injEq] at h
      refine ⟨f, ⟨u, h1, h2⟩, ?_⟩
      rw [← h]
      congr 1
      apply List.map_congr_left
      intro v _
      rw [mul_one_div]

theorem agg_totals (dvs : List Str) (dvUnits : Dict Str Str) (table : Dict Str ℚ) (s : LfSample) (out : List (Str × List ℚ))
    (h : aggregateSample dvs dvUnits table s = .ok out) (dv : Str) (hdv : dv ∈ dvs) (ht : dv ≠ str "Time")
    (hk : ∃ k ∈ s.cols, k.dv = dv) :
    ∃ f, UnitFactor dvUnits table (title (lower dv)) f ∧
      (str "repair_" ++ lower dv, s.rows.map fun row => Total s.cols dv row / f) ∈ out := by
  unfold aggregateSample at h
  have h2 := mapE_ok_iff.1 h
  have hmem : (str "repair_" ++ lower dv, title (lower dv), s.rows.map (seqTotal s.cols dv)) ∈ aggColumns dvs s := by
    unfold aggColumns
    apply List.mem_append_left
    refine List.mem_map.2 ⟨dv, List.mem_filter.2 ⟨hdv, ?_⟩, rfl⟩
    obtain ⟨k, h1, h2⟩ := hk
    simp only [decide_eq_true_eq]
    exact ⟨ht, List.mem_map.2 ⟨k, h1, h2⟩⟩
  obtain ⟨o, ho, hoo⟩ : ∃ o ∈ out, toUnit dvUnits table (str "repair_" ++ lower dv, title (lower dv), s.rows.map (seqTotal s.cols dv)) = .ok o :=
    forall₂_mem_left h2 hmem
  obtain ⟨f, hf, rfl⟩ := toUnit_ok hoo
  refine ⟨f, hf, ?_⟩
  convert ho using 2
  simp only [List.map_map]
  apply List.map_congr_left
  intro row _
  simp only [Function.comp_apply, seqTotal_eq]

theorem agg_time (dvs : List Str) (dvUnits : Dict Str Str) (table : Dict Str ℚ) (s : LfSample) (out : List (Str × List ℚ))
    (h : aggregateSample dvs dvUnits table s = .ok out) (hdv : str "Time" ∈ dvs)
    (hk : ∃ k ∈ s.cols, k.dv = str "Time") (hpos : ∀ u f, table.get? u = some f → 0 < f)
    (hnn : ∀ row ∈ s.rows, ∀ k ∈ s.cols, 0 ≤ row k) :
    ∃ f seq par, UnitFactor dvUnits table (str "Time") f ∧
      (str "repair_time-sequential", seq) ∈ out ∧ (str "repair_time-parallel", par) ∈ out ∧
      List.Forall₂ (fun row t => t = Total s.cols (str "Time") row / f) s.rows seq ∧
      List.Forall₂ (fun row t =>
        (∃ k ∈ s.cols, k.dv = str "Time" ∧ t = TotalAt s.cols (str "Time") k.loc row / f) ∧
        ∀ k ∈ s.cols, k.dv = str "Time" → TotalAt s.cols (str "Time") k.loc row / f ≤ t) s.rows par ∧
      List.Forall₂ (fun (p q : ℚ) => p ≤ q ∧ q ≤ (locsOf s.cols (str "Time")).length * p) par seq := by
  unfold aggregateSample at h
  have h2 := mapE_ok_iff.1 h
  have hin : str "Time" ∈ dvs ∧ str "Time" ∈ s.cols.map (·.dv) := by
    obtain ⟨k, h1, h2⟩ := hk
    exact ⟨hdv, List.mem_map.2 ⟨k, h1, h2⟩⟩
  have get : ∀ c ∈ aggColumns dvs s, ∃ o ∈ out, toUnit dvUnits table c = .ok o := fun c hc => forall₂_mem_left h2 hc
  obtain ⟨o1, ho1, e1⟩ := get (str "repair_time-sequential", str "Time", s.rows.map (seqTotal s.cols (str "Time"))) (by
    unfold aggColumns
    apply List.mem_append_right
    rw [if_pos hin]; exact List.mem_cons_self)
  obtain ⟨o2, ho2, e2⟩ := get (str "repair_time-parallel", str "Time", s.rows.map (parTotal s.cols (str "Time"))) (by
    unfold aggColumns
    apply List.mem_append_right
    rw [if_pos hin]; exact List.mem_cons_of_mem _ List.mem_cons_self)
  obtain ⟨f, hf, rfl⟩ := toUnit_ok e1
  obtain ⟨f', hf', rfl⟩ := toUnit_ok e2
  have hff : f' = f := by
    obtain ⟨u, a1, a2⟩ := hf
    obtain ⟨u', b1, b2⟩ := hf'
    simp only at a1 b1
    rw [a1] at b1; cases b1
    rw [a2] at b2; cases b2; rfl
  subst hff
  have hfpos : 0 < f' := by
    obtain ⟨u, _, a2⟩ := hf
    exact hpos u f' a2
  have hne : ∀ row, ((locsOf s.cols (str "Time")).map fun l => locSum s.cols (str "Time") l row) ≠ [] := by
    intro row
    obtain ⟨k, h1, h2⟩ := hk
    have : k.loc ∈ locsOf s.cols (str "Time") := (mem_locsOf _ _ _).2 ⟨k, h1, h2, rfl⟩
    intro hn
    rw [List.map_eq_nil_iff] at hn
    rw [hn] at this; simp at this
  refine ⟨f', _, _, hf, ho1, ho2, ?_, ?_, ?_⟩
  · rw [List.forall₂_map_right_iff, List.forall₂_map_right_iff, List.forall₂_same]
    intro row _
    rw [seqTotal_eq]
  · rw [List.forall₂_map_right_iff, List.forall₂_map_right_iff, List.forall₂_same]
    intro row _
    obtain ⟨h1, h2⟩ := maxL_spec _ (hne row)
    refine ⟨?_, ?_⟩
    · obtain ⟨l, hl, hl2⟩ := List.mem_map.1 h1
      obtain ⟨k, g1, g2, rfl⟩ := (mem_locsOf _ _ _).1 hl
      refine ⟨k, g1, g2, ?_⟩
      unfold parTotal
      rw [← hl2, locSum_eq]
    · intro k g1 g2
      apply div_le_div_of_nonneg_right _ hfpos.le
      exact h2 _ (List.mem_map.2 ⟨k.loc, (mem_locsOf _ _ _).2 ⟨k, g1, g2, rfl⟩, rfl⟩)
  · rw [List.forall₂_map_left_iff, List.forall₂_map_left_iff, List.forall₂_map_right_iff, List.forall₂_map_right_iff,
      List.forall₂_same]
    intro row hrow
    obtain ⟨h1, h2⟩ := maxL_spec _ (hne row)
    have hnn' : ∀ x ∈ (locsOf s.cols (str "Time")).map fun l => locSum s.cols (str "Time") l row, 0 ≤ x := by
      intro x hx
      obtain ⟨l, _, rfl⟩ := List.mem_map.1 hx
      apply List.sum_nonneg
      intro y hy
      obtain ⟨k, hk, rfl⟩ := List.mem_map.1 hy
      exact hnn row hrow k (List.mem_filter.1 hk).1
    refine ⟨?_, ?_⟩
    · apply div_le_div_of_nonneg_right _ hfpos.le
      exact List.single_le_sum hnn' _ h1
    · rw [← mul_div_assoc]
      apply div_le_div_of_nonneg_right _ hfpos.le
      have := List.sum_le_card_nsmul _ (maxL ((locsOf s.cols (str "Time")).map fun l => locSum s.cols (str "Time") l row)) h2
      rw [List.length_map, nsmul_eq_mul] at this
      exact this

theorem agg_no_other (dvs : List Str) (dvUnits : Dict Str Str) (table : Dict Str ℚ) (s : LfSample)
    (out : List (Str × List ℚ)) (h : aggregateSample dvs dvUnits table s = .ok out) (name : Str) (vals : List ℚ)
    (hm : (name, vals) ∈ out) :
    (∃ dv ∈ dvs, dv ≠ str "Time" ∧ (∃ k ∈ s.cols, k.dv = dv) ∧ name = str "repair_" ++ lower dv) ∨
    (str "Time" ∈ dvs ∧ (∃ k ∈ s.cols, k.dv = str "Time") ∧
      (name = str "repair_time-sequential" ∨ name = str "repair_time-parallel")) := by
  unfold aggregateSample at h
  have h2 := mapE_ok_iff.1 h
  obtain ⟨c, hc, hc2⟩ : ∃ c ∈ aggColumns dvs s, toUnit dvUnits table c = .ok (name, vals) := forall₂_mem_right h2 hm
  obtain ⟨f, _, hf⟩ := toUnit_ok hc2
  cases hf
  unfold aggColumns at hc
  rcases List.mem_append.1 hc with hc | hc
  · left
    obtain ⟨dv, h1, rfl⟩ := List.mem_map.1 hc
    rw [List.mem_filter, decide_eq_true_eq, List.mem_map] at h1
    exact ⟨dv, h1.1, h1.2.1, h1.2.2, rfl⟩
  · right
    split at hc
    · rename_i hT
      refine ⟨hT.1, List.mem_map.1 hT.2, ?_⟩
      simp only [List.mem_cons, List.not_mem_nil, or_false] at hc
      rcases hc with rfl | rfl
      · exact .inl rfl
      · exact .inr rfl
    · simp at hc

/-! ### Names of the columns -/

/-- Names like `Cost`: an upper case letter followed by lower case letters. -/
def Capitalised (dv : Str) : Prop :=
  ∃ c r, dv = c :: r ∧ ('A' ≤ c ∧ c ≤ 'Z') ∧ ∀ d ∈ r, 'a' ≤ d ∧ d ≤ 'z'

/-- The name of the aggregated column of a decision variable, e.g. `repair_cost`. -/
def repairColumn (dv : Str) : Str := str "repair_" ++ dv.map Char.toLower

theorem char_range {c lo hi : Char} (h1 : lo ≤ c) (h2 : c ≤ hi) :
    ∃ n, lo.toNat ≤ n ∧ n ≤ hi.toNat ∧ c = Char.ofNat n :=
  ⟨c.toNat, h1, h2, (Char.ofNat_toNat c).symm⟩

theorem lowerC_eq (c : Char) : lowerC c = c.toLower := by
  unfold lowerC
  by_cases h : 'A' ≤ c ∧ c ≤ 'Z'
  · rw [if_pos h]
    obtain ⟨n, h1, h2, rfl⟩ := char_range h.1 h.2
    have h1' : 65 ≤ n := h1
    have h2' : n ≤ 90 := h2
    clear h h1 h2
    interval_cases n <;> decide
  · rw [if_neg h]
    unfold Char.toLower
    split
    · rename_i hc
      exact absurd ⟨hc.1, hc.2⟩ h
    · rfl

theorem lower_name (dv : Str) : str "repair_" ++ lower dv = repairColumn dv := by
  unfold lower repairColumn
  congr 2
  funext c; exact lowerC_eq c

theorem isLetter_lower {d : Char} (h : 'a' ≤ d ∧ d ≤ 'z') : isLetter d = true ∧ lowerC d = d := by
  obtain ⟨n, h1, h2, rfl⟩ := char_range h.1 h.2
  have h1' : 97 ≤ n := h1
  have h2' : n ≤ 122 := h2
  clear h h1 h2
  interval_cases n <;> decide

theorem isLetter_upper {c : Char} (h : 'A' ≤ c ∧ c ≤ 'Z') : isLetter (lowerC c) = true ∧ upperC (lowerC c) = c := by
  obtain ⟨n, h1, h2, rfl⟩ := char_range h.1 h.2
  have h1' : 65 ≤ n := h1
  have h2' : n ≤ 90 := h2
  clear h h1 h2
  interval_cases n <;> decide

theorem titleFrom_lower : ∀ r : Str, (∀ d ∈ r, 'a' ≤ d ∧ d ≤ 'z') → titleFrom true (r.map lowerC) = r := by
  intro r
  induction r with
  | nil => intro _; rfl
  | cons d r ih =>
    intro h
    obtain ⟨h1, h2⟩ := isLetter_lower (h d (by simp))
    rw [List.map_cons, titleFrom, h2, h1, if_pos rfl, if_pos rfl, h2, ih fun x hx => h x (List.mem_cons_of_mem _ hx)]

theorem title_lower {dv : Str} (h : Capitalised dv) : title (lower dv) = dv := by
  obtain ⟨c, r, rfl, hc, hr⟩ := h
  obtain ⟨h1, h2⟩ := isLetter_upper hc
  unfold title lower
  rw [List.map_cons, titleFrom, h1, if_pos rfl, if_neg (by simp), h2, titleFrom_lower r hr]

/-- C54: every decision variable other than the time that occurs in the sample has exactly its total,
in its unit, in the result. -/
theorem C54_totals (dvs : List Str) (dvUnits : Dict Str Str) (table : Dict Str ℚ) (s : LfSample) (out : List (Str × List ℚ))
    (h : aggregateSample dvs dvUnits table s = .ok out) (dv : Str) (hdv : dv ∈ dvs) (ht : dv ≠ str "Time")
    (hc : Capitalised dv) (hk : ∃ k ∈ s.cols, k.dv = dv) :
    ∃ f, UnitFactor dvUnits table dv f ∧
      (repairColumn dv, s.rows.map fun row => Total s.cols dv row / f) ∈ out := by
  have := agg_totals dvs dvUnits table s out h dv hdv ht hk
  rwa [lower_name, title_lower hc] at this

theorem locsOf_length (cols : List LKey) (dv : Str) :
    (locsOf cols dv).length = (((cols.filter fun k => decide (k.dv = dv)).map (·.loc)).dedup).length := by
  apply List.Perm.length_eq
  rw [List.perm_ext_iff_of_nodup (locsOf_nodup _ _) (List.nodup_dedup _)]
  intro a
  rw [List.mem_dedup]
  unfold locsOf
  rw [FileIO.uniqueVals_mem]
  simp

/-- C54: for nonnegative losses, the sequential repair time is the total, the parallel one the largest
total of a location, and parallel ≤ sequential ≤ number of different locations × parallel. -/
theorem C54_time (dvs : List Str) (dvUnits : Dict Str Str) (table : Dict Str ℚ) (s : LfSample) (out : List (Str × List ℚ))
    (h : aggregateSample dvs dvUnits table s = .ok out) (hdv : str "Time" ∈ dvs)
    (hk : ∃ k ∈ s.cols, k.dv = str "Time") (hpos : ∀ u f, table.get? u = some f → 0 < f)
    (hnn : ∀ row ∈ s.rows, ∀ k ∈ s.cols, 0 ≤ row k) :
    ∃ f seq par, UnitFactor dvUnits table (str "Time") f ∧
      (str "repair_time-sequential", seq) ∈ out ∧ (str "repair_time-parallel", par) ∈ out ∧
      List.Forall₂ (fun row t => t = Total s.cols (str "Time") row / f) s.rows seq ∧
      List.Forall₂ (fun row t =>
        (∃ k ∈ s.cols, k.dv = str "Time" ∧ t = TotalAt s.cols (str "Time") k.loc row / f) ∧
        ∀ k ∈ s.cols, k.dv = str "Time" → TotalAt s.cols (str "Time") k.loc row / f ≤ t) s.rows par ∧
      List.Forall₂ (fun (p q : ℚ) => p ≤ q ∧
        q ≤ (((s.cols.filter fun k => decide (k.dv = str "Time")).map (·.loc)).dedup).length * p) par seq := by
  obtain ⟨f, seq, par, h1, h2, h3, h4, h5, h6⟩ := agg_time dvs dvUnits table s out h hdv hk hpos hnn
  refine ⟨f, seq, par, h1, h2, h3, h4, h5, ?_⟩
  rwa [locsOf_length] at h6

/-- C54: the result has nothing else. -/
theorem C54_no_other_columns (dvs : List Str) (dvUnits : Dict Str Str) (table : Dict Str ℚ) (s : LfSample)
    (out : List (Str × List ℚ)) (h : aggregateSample dvs dvUnits table s = .ok out) (name : Str) (vals : List ℚ)
    (hm : (name, vals) ∈ out) :
    (∃ dv ∈ dvs, dv ≠ str "Time" ∧ (∃ k ∈ s.cols, k.dv = dv) ∧ name = repairColumn dv) ∨
    (str "Time" ∈ dvs ∧ (∃ k ∈ s.cols, k.dv = str "Time") ∧
      (name = str "repair_time-sequential" ∨ name = str "repair_time-parallel")) := by
  rcases agg_no_other dvs dvUnits table s out h name vals hm with ⟨dv, h1, h2, h3, h4⟩ | h
  · exact .inl ⟨dv, h1, h2, h3, by rw [h4, lower_name]⟩
  · exact .inr h

theorem toUnit_error {dvUnits : Dict Str Str} {table : Dict Str ℚ} {c : Str × Str × List ℚ} {e : PyErr} :
    toUnit dvUnits table c = .error e ↔ e = .keyError ∧ ¬ ∃ f, UnitFactor dvUnits table c.2.1 f := by
  unfold toUnit UnitFactor
  cases h1 : dvUnits.get? c.2.1 with
  | none => simp [eq_comm]
  | some u =>
    cases h2 : table.get? u with
    | none => simp [h2, eq_comm]
    | some f => simp [h2]

/-- C54: the aggregation stops, with a `KeyError`, exactly if a decision variable that has losses has no
unit or an unknown unit.  (Names like `Cost`.) -/
theorem C54_refused_iff (dvs : List Str) (dvUnits : Dict Str Str) (table : Dict Str ℚ) (s : LfSample)
    (hc : ∀ dv ∈ dvs, Capitalised dv) :
    (aggregateSample dvs dvUnits table s = .error .keyError ↔
      ∃ dv ∈ dvs, (∃ k ∈ s.cols, k.dv = dv) ∧ ¬ ∃ f, UnitFactor dvUnits table dv f) ∧
    ∀ e, aggregateSample dvs dvUnits table s = .error e → e = .keyError := by
  have fwd : ∀ e, aggregateSample dvs dvUnits table s = .error e → e = .keyError ∧
      ∃ dv ∈ dvs, (∃ k ∈ s.cols, k.dv = dv) ∧ ¬ ∃ f, UnitFactor dvUnits table dv f := by
    intro e h
    unfold aggregateSample at h
    obtain ⟨c, hc1, hc2⟩ := mapE_error h
    rw [toUnit_error] at hc2
    refine ⟨hc2.1, ?_⟩
    unfold aggColumns at hc1
    rcases List.mem_append.1 hc1 with hx | hx
    · obtain ⟨dv, h1, rfl⟩ := List.mem_map.1 hx
      rw [List.mem_filter, decide_eq_true_eq, List.mem_map] at h1
      simp only [title_lower (hc dv h1.1)] at hc2
      exact ⟨dv, h1.1, h1.2.2, hc2.2⟩
    · split at hx
      · rename_i hT
        refine ⟨str "Time", hT.1, List.mem_map.1 hT.2, ?_⟩
        simp only [List.mem_cons, List.not_mem_nil, or_false] at hx
        rcases hx with rfl | rfl
        · exact hc2.2
        · exact hc2.2
      · simp at hx
  refine ⟨⟨fun h => (fwd _ h).2, ?_⟩, fun e h => (fwd e h).1⟩
  rintro ⟨dv, h1, h2, h3⟩
  cases hx : aggregateSample dvs dvUnits table s with
  | error e => rw [(fwd e hx).1]
  | ok out =>
    exfalso
    by_cases ht : dv = str "Time"
    · subst ht
      unfold aggregateSample at hx
      obtain ⟨o, _, e1⟩ := forall₂_mem_left (mapE_ok_iff.1 hx)
        (a := (str "repair_time-sequential", str "Time", s.rows.map (seqTotal s.cols (str "Time")))) (by
        unfold aggColumns
        apply List.mem_append_right
        rw [if_pos ⟨h1, List.mem_map.2 h2⟩]; exact List.mem_cons_self)
      obtain ⟨f, hf, _⟩ := toUnit_ok e1
      exact h3 ⟨f, hf⟩
    · obtain ⟨f, hf, _⟩ := C54_totals dvs dvUnits table s out hx dv h1 ht (hc dv h1) h2
      exact h3 ⟨f, hf⟩

/-- Where the code disagrees: the unit of a decision variable is looked up under its name in title case.
A decision variable `CO2` with a known unit and losses stops the aggregation. -/
theorem C54_name_in_capitals_refused (dvUnits : Dict Str Str) (table : Dict Str ℚ) (s : LfSample)
    (hk : ∃ k ∈ s.cols, k.dv = str "CO2") (hu : dvUnits.get? (str "Co2") = none) :
    aggregateSample [str "CO2"] dvUnits table s = .error .keyError := by
  cases hx : aggregateSample [str "CO2"] dvUnits table s with
  | error e =>
    unfold aggregateSample at hx
    obtain ⟨c, _, hc2⟩ := mapE_error hx
    rw [(toUnit_error.1 hc2).1]
  | ok out =>
    obtain ⟨f, ⟨u, hf, _⟩, _⟩ := agg_totals _ dvUnits table s out hx (str "CO2") (by simp) (by decide) hk
    rw [show title (lower (str "CO2")) = str "Co2" from by decide, hu] at hf
    cases hf

/-- The total of a decision variable over the damage states. -/
def TotalDs (cols : List (LKey × Str)) (dv : Str) (row : LKey × Str → ℚ) : ℚ :=
  ((cols.filter fun c => decide (c.1.dv = dv)).map row).sum

theorem colsOf_nodup (ds : Option DsSample) (lf : Option LfSample) : (colsOf ds lf).Nodup := FileIO.uniqueVals_nodup [] _

theorem sum_by_key' {κ : Type} (L : List LKey) (hL : L.Nodup) (cols : List κ) (g : κ → LKey) (row : κ → ℚ)
    (p : LKey → Bool) (hmem : ∀ c ∈ cols, g c ∈ L) :
    ((L.filter p).map fun k => sumOver cols (fun c => decide (g c = k)) row).sum =
      ((cols.filter fun c => p (g c)).map row).sum := by
  rw [← sum_groups (L.filter p) (hL.filter _) g row (cols.filter fun c => p (g c)) (by
    intro c hc
    rw [List.mem_filter] at hc
    exact List.mem_filter.2 ⟨hmem c hc.1, hc.2⟩)]
  congr 1
  apply List.map_congr_left
  intro k hk
  rw [List.mem_filter] at hk
  unfold sumOver
  rw [List.filter_filter]
  congr 2
  apply List.filter_congr
  intro c _
  by_cases h : g c = k
  · subst h; simp [hk.2]
  · simp [h]

theorem sum_by_key {κ : Type} (L : List LKey) (hL : L.Nodup) (cols : List κ) (g : κ → LKey) (row : κ → ℚ) (dv : Str)
    (hmem : ∀ c ∈ cols, g c ∈ L) :
    ((L.filter fun k => decide (k.dv = dv)).map fun k => sumOver cols (fun c => decide (g c = k)) row).sum =
      ((cols.filter fun c => decide ((g c).dv = dv)).map row).sum :=
  sum_by_key' L hL cols g row (fun k => decide (k.dv = dv)) hmem

/-- C54: joining the two samples and summing over damage states loses nothing and counts nothing
twice: the total of each decision variable is the total over all columns of both samples. -/
theorem C54_joined_total (ds : DsSample) (lf : LfSample) (i : Nat) (drow : LKey × Str → ℚ) (lrow row : LKey → ℚ) (dv : Str)
    (h1 : ds.rows[i]? = some drow) (h2 : lf.rows[i]? = some lrow)
    (h3 : (combined (some ds) (some lf)).rows[i]? = some row) :
    Total (combined (some ds) (some lf)).cols dv row = TotalDs ds.cols dv drow + Total lf.cols dv lrow := by
  unfold combined at h3 ⊢
  simp only [List.getElem?_map, Option.map_eq_some_iff] at h3
  obtain ⟨j, hj, rfl⟩ := h3
  have hj2 : j = i := by
    rw [List.getElem?_eq_some_iff] at hj
    obtain ⟨h, h'⟩ := hj
    rw [List.getElem_range] at h'
    exact h'.symm
  subst hj2
  unfold Total
  have e : (fun k => rowOf (some ds) (some lf) j k) = fun k => sumOver ds.cols (fun c => decide (c.1 = k)) drow +
      sumOver lf.cols (fun c => decide (c = k)) lrow := by
    funext k
    simp only [rowOf, h1, h2]
  have e' : rowOf (some ds) (some lf) j = fun k => rowOf (some ds) (some lf) j k := rfl
  rw [e', e, List.sum_map_add]
  have hm : ∀ k, k ∈ colsOf (some ds) (some lf) ↔ k ∈ ds.cols.map (·.1) ∨ k ∈ lf.cols := by
    intro k
    unfold colsOf
    rw [FileIO.uniqueVals_mem, List.mem_append]
    simp
  have e1 := sum_by_key _ (colsOf_nodup (some ds) (some lf)) ds.cols (·.1) drow dv (by
      intro c hc
      exact (hm _).2 (.inl (List.mem_map.2 ⟨c, hc, rfl⟩)))
  have e2 := sum_by_key _ (colsOf_nodup (some ds) (some lf)) lf.cols (fun k => k) lrow dv (by
      intro c hc
      exact (hm _).2 (.inr hc))
  simp only at e1 e2 ⊢
  rw [e1, e2]
  rfl

/-! ## C52 -/

/-- The losses of the realization other than replacement exceed the ratio of the replacement value in
this decision variable, and there is no replacement in it yet. -/
def Exceeds (cols : List LKey) (ratios : Dict Str ℚ) (dv : Str) (value : ℚ) (row : LKey → ℚ) : Prop :=
  (∀ k ∈ cols, k.dv = dv → k.loss = str "replacement" → row k ≤ 0) ∧
  ∃ ratio, ratios.get? dv = some ratio ∧
    value * ratio < ((cols.filter fun k => decide (k.dv = dv ∧ k.loss ≠ str "replacement")).map row).sum

theorem noReplacement_iff (cols : List LKey) (dv : Str) (row : LKey → ℚ) :
    noReplacement cols dv row = true ↔ ∀ k ∈ cols, k.dv = dv → k.loss = str "replacement" → row k ≤ 0 := by
  unfold noReplacement
  rw [Bool.not_eq_true', ← Bool.not_eq_true, List.any_eq_true]
  simp only [decide_eq_true_eq, not_exists, not_and, not_lt]

theorem flagsOf_spec (s : LfSample) (ratios : Dict Str ℚ) (dv : Str) (value : Nat → ℚ) (fl : List Bool)
    (h : flagsOf s ratios dv value = .ok fl) :
    fl.length = s.rows.length ∧ ∀ i row, s.rows[i]? = some row →
      (fl[i]? = some true ↔ Exceeds s.cols ratios dv (value i) row) := by
  unfold flagsOf at h
  split at h
  · simp at h
  · split at h
    · rename_i hall
      cases h
      refine ⟨by simp, fun i row hi => ?_⟩
      rw [List.getElem?_map, hi]
      simp only [Option.map_some, Option.some.injEq, Bool.false_eq_true, false_iff]
      rintro ⟨h1, _⟩
      have := hall row (List.mem_of_getElem? hi)
      rw [(noReplacement_iff _ _ _).2 h1] at this
      simp at this
    · cases hr : ratios.get? dv with
      | none => rw [hr] at h; simp at h
      | some ratio =>
        rw [hr] at h
        simp only [Except.ok.injEq] at h
        subst h
        refine ⟨by simp, fun i row hi => ?_⟩
        rw [List.getElem?_mapIdx, hi]
        simp only [Option.map_some, Option.some.injEq, Bool.and_eq_true, decide_eq_true_eq, noReplacement_iff]
        unfold Exceeds repairSum sumOver
        constructor
        · rintro ⟨h1, h2⟩; exact ⟨h1, ratio, hr, h2⟩
        · rintro ⟨h1, r, h2, h3⟩
          rw [hr] at h2; cases h2
          exact ⟨h1, h3⟩

/-- The column with the replacement triggered by thresholds for a decision variable. -/
def thresholdColumn (dv : Str) : LKey :=
  ⟨dv, str "replacement", str "threshold_exceedance", str "0", str "1", str "0"⟩

/-- C52: exactly the realizations in which some decision variable exceeds its threshold are flagged
and replaced; in these, every replacement column for thresholds has the sampled replacement value and
every other loss is zero; all other realizations are unchanged. -/
theorem C52_thresholds (s s' : LfSample) (cfg : Config) (flags : List (Str × List Bool)) (hnd : cfg.reg.NoDupKeys)
    (h : applyThresholds s cfg = .ok (s', flags)) :
    flags.map (·.1) = cfg.reg.keys ∧ s'.rows.length = s.rows.length ∧
    (∀ k, k ∈ s'.cols ↔ k ∈ s.cols ∨ ∃ dv ∈ cfg.reg.keys, k = thresholdColumn dv) ∧
    ∀ i row row', s.rows[i]? = some row → s'.rows[i]? = some row' →
      (∀ dv fl value, (dv, fl) ∈ flags → (dv, value) ∈ cfg.reg →
        (fl[i]? = some true ↔ Exceeds s.cols cfg.ratios dv (value i) row)) ∧
      ((∀ dv value, (dv, value) ∈ cfg.reg → ¬ Exceeds s.cols cfg.ratios dv (value i) row) →
        ∀ k ∈ s'.cols, row' k = if k ∈ s.cols then row k else 0) ∧
      ((∃ dv value, (dv, value) ∈ cfg.reg ∧ Exceeds s.cols cfg.ratios dv (value i) row) →
        (∀ dv value, (dv, value) ∈ cfg.reg → row' (thresholdColumn dv) = value i) ∧
        ∀ k ∈ s'.cols, k.dmg ≠ str "threshold_exceedance" → row' k = 0) := by
  rw [show thresholdColumn = thrKey from rfl]
  unfold applyThresholds at h
  split at h
  · simp at h
  · rename_i flags0 hfl
    simp only [Except.ok.injEq, Prod.mk.injEq] at h
    obtain ⟨rfl, rfl⟩ := h
    have hF := mapE_ok_iff.1 hfl
    have hF' : List.Forall₂ (fun (d : Str × (Nat → ℚ)) (f : Str × List Bool) => f.1 = d.1 ∧ flagsOf s cfg.ratios d.1 d.2 = .ok f.2) cfg.reg flags0 := by
      refine hF.imp ?_
      intro d f hdf
      cases hx : flagsOf s cfg.ratios d.1 d.2 with
      | error e => rw [hx] at hdf; simp at hdf
      | ok g =>
        rw [hx] at hdf
        simp only [Except.ok.injEq] at hdf
        subst hdf
        exact ⟨rfl, rfl⟩
    have hkeys : flags0.map (·.1) = cfg.reg.keys := (forall₂_map_eq hF' fun d f h => h.1.symm).symm
    have hflag : ∀ dv fl, (dv, fl) ∈ flags0 → ∃ value, (dv, value) ∈ cfg.reg ∧ flagsOf s cfg.ratios dv value = .ok fl := by
      intro dv fl h
      obtain ⟨d, h1, h2, h3⟩ := forall₂_mem_right hF' h
      simp only at h2 h3
      exact ⟨d.2, by rw [h2]; exact h1, by rw [h2]; exact h3⟩
    have hreg : ∀ dv value, (dv, value) ∈ cfg.reg → ∃ fl, (dv, fl) ∈ flags0 ∧ flagsOf s cfg.ratios dv value = .ok fl := by
      intro dv v h
      obtain ⟨f, h1, h2, h3⟩ := forall₂_mem_left hF' h
      simp only at h2 h3
      exact ⟨f.2, by rw [← h2]; exact h1, h3⟩
    refine ⟨hkeys, by simp, ?_, ?_⟩
    · intro k
      rw [FileIO.uniqueVals_mem, List.mem_append, List.mem_map]
      simp only [List.not_mem_nil, not_false_eq_true, and_true]
      constructor
      · rintro (h | ⟨d, hd, rfl⟩)
        · exact .inl h
        · exact .inr ⟨d.1, List.mem_map.2 ⟨d, hd, rfl⟩, rfl⟩
      · rintro (h | ⟨dv, hd, rfl⟩)
        · exact .inl h
        · obtain ⟨d, hd2, rfl⟩ := List.mem_map.1 hd
          exact .inr ⟨d, hd2, rfl⟩
    · intro i row row' hi hi'
      simp only [List.getElem?_mapIdx, hi, Option.map_some, Option.some.injEq] at hi'
      have hhit : exceeded flags0 i = true ↔ ∃ dv value, (dv, value) ∈ cfg.reg ∧ Exceeds s.cols cfg.ratios dv (value i) row := by
        unfold exceeded
        rw [List.any_eq_true]
        constructor
        · rintro ⟨f, hf, hf2⟩
          obtain ⟨value, h1, h2⟩ := hflag f.1 f.2 hf
          refine ⟨f.1, value, h1, ?_⟩
          rw [← (flagsOf_spec _ _ _ _ _ h2).2 i row hi]
          rw [List.getD_eq_getElem?_getD] at hf2
          cases hx : f.2[i]? with
          | none => rw [hx] at hf2; simp at hf2
          | some b => rw [hx] at hf2; simp at hf2; rw [hf2]
        · rintro ⟨dv, value, h1, h2⟩
          obtain ⟨fl, h3, h4⟩ := hreg dv value h1
          refine ⟨(dv, fl), h3, ?_⟩
          rw [← (flagsOf_spec _ _ _ _ _ h4).2 i row hi] at h2
          rw [List.getD_eq_getElem?_getD, h2]; rfl
      refine ⟨?_, ?_, ?_⟩
      · intro dv fl value h1 h2
        obtain ⟨value', h3, h4⟩ := hflag dv fl h1
        have : value' = value := by
          have a := Dict.get?_of_mem hnd h3
          have b := Dict.get?_of_mem hnd h2
          rw [a] at b; cases b; rfl
        subst this
        exact (flagsOf_spec _ _ _ _ _ h4).2 i row hi
      · intro hno k _
        have : exceeded flags0 i = false := by
          rw [← Bool.not_eq_true, hhit]
          rintro ⟨dv, value, h1, h2⟩
          exact hno dv value h1 h2
        rw [← hi']
        unfold replaceRow
        simp only [this, Bool.false_eq_true, if_false]
      · intro hyes
        have hx := hhit.2 hyes
        refine ⟨?_, ?_⟩
        · intro dv value h1
          rw [← hi']
          unfold replaceRow
          simp only [hx, if_true]
          rw [if_neg (by simp [thrKey])]
          have : cfg.reg.get? (thrKey dv).dv = some value := Dict.get?_of_mem hnd h1
          rw [this]
          simp only
          rw [if_pos]
          rfl
        · intro k _ hk
          rw [← hi']
          unfold replaceRow
          simp only [hx, if_true]
          rw [if_pos hk]

/-- C52: the thresholds are refused (`KeyError`) exactly if the losses have no column for a decision
variable of the registry, or if a ratio is needed and not given. -/
theorem C52_refused_iff (s : LfSample) (cfg : Config) :
    applyThresholds s cfg = .error .keyError ↔
      ∃ dv value, (dv, value) ∈ cfg.reg ∧ ((∀ k ∈ s.cols, k.dv ≠ dv) ∨
        (cfg.ratios.get? dv = none ∧
          ∃ row ∈ s.rows, ∀ k ∈ s.cols, k.dv = dv → k.loss = str "replacement" → row k ≤ 0)) := by
  have herr : ∀ dv value, (∀ e, flagsOf s cfg.ratios dv value = .error e → e = .keyError) ∧
      (flagsOf s cfg.ratios dv value = .error .keyError ↔ ((∀ k ∈ s.cols, k.dv ≠ dv) ∨
        (cfg.ratios.get? dv = none ∧
          ∃ row ∈ s.rows, ∀ k ∈ s.cols, k.dv = dv → k.loss = str "replacement" → row k ≤ 0))) := by
    intro dv value
    unfold flagsOf
    by_cases h1 : ∀ k ∈ s.cols, k.dv ≠ dv
    · rw [if_pos h1]
      exact ⟨fun e h => by cases h; rfl, by simp only [true_iff]; exact .inl h1⟩
    · rw [if_neg h1]
      by_cases h2 : ∀ row ∈ s.rows, noReplacement s.cols dv row = false
      · rw [if_pos h2]
        refine ⟨fun e h => by simp at h, ?_⟩
        simp only [reduceCtorEq, false_iff, not_or, not_and, not_exists]
        refine ⟨h1, fun _ row hr hx => ?_⟩
        have := h2 row hr
        rw [(noReplacement_iff _ _ _).2 hx] at this
        simp at this
      · rw [if_neg h2]
        push Not at h2
        obtain ⟨row, hr, hr2⟩ := h2
        rw [ne_eq, Bool.not_eq_false, noReplacement_iff] at hr2
        cases hg : cfg.ratios.get? dv with
        | none =>
          refine ⟨fun e h => by cases h; rfl, ?_⟩
          simp only [true_and, true_iff]
          exact .inr ⟨row, hr, hr2⟩
        | some r =>
          refine ⟨fun e h => by simp at h, ?_⟩
          simp only [reduceCtorEq, false_and, or_false, false_iff]
          exact h1
  unfold applyThresholds
  cases hm : mapE (fun (d : Str × (Nat → ℚ)) => match flagsOf s cfg.ratios d.1 d.2 with
      | .error e => Except.error e
      | .ok f => .ok (d.1, f)) cfg.reg with
  | ok flags =>
    simp only [reduceCtorEq, false_iff, not_exists, not_and]
    intro dv value hin hbad
    have hF := mapE_ok_iff.1 hm
    have hb := ((herr dv value).2).2 hbad
    have : ∃ f, (match flagsOf s cfg.ratios dv value with
      | .error e => Except.error e
      | .ok f => Except.ok (ε := PyErr) (dv, f)) = .ok f := by
      obtain ⟨f, _, hf⟩ := forall₂_mem_left hF hin
      exact ⟨f, hf⟩
    obtain ⟨f, hf⟩ := this
    rw [hb] at hf; simp at hf
  | error e =>
    obtain ⟨d, hd, hd2⟩ := mapE_error hm
    cases hx : flagsOf s cfg.ratios d.1 d.2 with
    | ok f => rw [hx] at hd2; simp at hd2
    | error e' =>
      rw [hx] at hd2
      simp only [Except.error.injEq] at hd2
      subst hd2
      have := (herr d.1 d.2).1 _ hx
      subst this
      simp only [true_iff]
      exact ⟨d.1, d.2, hd, ((herr d.1 d.2).2).1 hx⟩

/-! ## C51 -/

/-- C51, the part that holds: when replacement is triggered by a threshold, the total of each decision
variable is the replacement value alone.  (The column used for this may be in the sample already but no
other column with its name.)  Missing: replacement that is a consequence of damage, see
`C51_damage_replacement_adds_up`. -/
theorem C51_threshold_total_partial (s s' : LfSample) (cfg : Config) (flags : List (Str × List Bool)) (hnd : cfg.reg.NoDupKeys)
    (h : applyThresholds s cfg = .ok (s', flags))
    (hname : ∀ k ∈ s.cols, k.dmg = str "threshold_exceedance" → k = thresholdColumn k.dv)
    (i : Nat) (row row' : LKey → ℚ) (hi : s.rows[i]? = some row) (hi' : s'.rows[i]? = some row')
    (hex : ∃ dv value, (dv, value) ∈ cfg.reg ∧ Exceeds s.cols cfg.ratios dv (value i) row)
    (dv : Str) (value : Nat → ℚ) (hdv : (dv, value) ∈ cfg.reg) : Total s'.cols dv row' = value i := by
  rw [show thresholdColumn = thrKey from rfl] at hname
  have hs'nd : s'.cols.Nodup := by
    unfold applyThresholds at h
    split at h
    · simp at h
    · cases h; exact FileIO.uniqueVals_nodup [] _
  obtain ⟨_, _, hcols, hrows⟩ := C52_thresholds s s' cfg flags hnd h
  rw [show thresholdColumn = thrKey from rfl] at hcols hrows
  obtain ⟨_, _, h3⟩ := hrows i row row' hi hi'
  obtain ⟨h4, h5⟩ := h3 hex
  have hmem : thrKey dv ∈ s'.cols := (hcols _).2 (.inr ⟨dv, List.mem_map.2 ⟨_, hdv, rfl⟩, rfl⟩)
  unfold Total
  have key : ∀ L : List LKey, L.Nodup → (∀ k ∈ L, k ∈ s'.cols ∧ k.dv = dv) →
      (L.map row').sum = if thrKey dv ∈ L then value i else 0 := by
    intro L
    induction L with
    | nil => intro _ _; simp
    | cons k L ih =>
      intro hn hL
      rw [List.nodup_cons] at hn
      rw [List.map_cons, List.sum_cons, ih hn.2 fun x hx => hL x (List.mem_cons_of_mem _ hx)]
      obtain ⟨hk1, hk2⟩ := hL k (by simp)
      by_cases hk : k = thrKey dv
      · subst hk
        rw [if_neg hn.1, if_pos (by simp), h4 dv value hdv, add_zero]
      · have hz : row' k = 0 := by
          by_cases hd : k.dmg = str "threshold_exceedance"
          · exfalso
            rcases (hcols k).1 hk1 with hk3 | ⟨dv', _, rfl⟩
            · have := hname k hk3 hd
              rw [hk2] at this; exact hk this
            · apply hk
              have : dv' = dv := hk2
              rw [this]
          · exact h5 k hk1 hd
        have hk' : ¬ thrKey dv = k := fun h => hk h.symm
        rw [hz, zero_add]
        simp [hk']
  rw [key _ (hs'nd.filter _) (by
    intro k hk
    rw [List.mem_filter, decide_eq_true_eq] at hk
    exact hk), if_pos]
  rw [List.mem_filter, decide_eq_true_eq]
  exact ⟨hmem, rfl⟩

/-- The function that is meant to make replacement exclusive does so on the tables it is given: in the
realizations with a positive replacement loss, all other losses are zero, and nothing else changes. -/
theorem C51_exclusive_copies_partial (ds : DsSample) (lf : LfSample) (hlen : lf.rows.length = ds.rows.length) (i : Nat)
    (drow drow' : LKey × Str → ℚ) (lrow lrow' : LKey → ℚ)
    (h1 : ds.rows[i]? = some drow) (h2 : lf.rows[i]? = some lrow)
    (h3 : (makeExclusive ds (some lf)).1.rows[i]? = some drow')
    (h4 : ∃ lf', (makeExclusive ds (some lf)).2 = some lf' ∧ lf'.rows[i]? = some lrow') :
    ((∃ c ∈ ds.cols, c.1.loss = str "replacement" ∧ 0 < drow c) →
      (∀ c, c.1.loss ≠ str "replacement" → drow' c = 0) ∧ (∀ c, c.1.loss = str "replacement" → drow' c = drow c) ∧
      ∀ k, lrow' k = 0) ∧
    ((∀ c ∈ ds.cols, c.1.loss = str "replacement" → drow c ≤ 0) → drow' = drow ∧ lrow' = lrow) := by
  obtain ⟨lf', h4, h5⟩ := h4
  simp only [makeExclusive, Option.map_some, Option.some.injEq] at h3 h4
  subst h4
  simp only [exclusiveDs, List.getElem?_map, h1, Option.map_some, Option.some.injEq] at h3
  simp only [exclusiveLf, List.getElem?_zipWith, h1, h2, Option.some.injEq] at h5
  have hr : replacedRow ds.cols drow = true ↔ ∃ c ∈ ds.cols, c.1.loss = str "replacement" ∧ 0 < drow c := by
    unfold replacedRow
    rw [List.any_eq_true]
    simp only [decide_eq_true_eq]
  constructor
  · intro h
    rw [if_pos (hr.2 h)] at h3 h5
    subst h3 h5
    refine ⟨?_, ?_, ?_⟩
    · intro c hc
      simp only [zeroWhere]
      rw [if_pos (by simpa using hc)]
    · intro c hc
      simp only [zeroWhere]
      rw [if_neg (by simpa using hc)]
    · intro k; simp [zeroWhere]
  · intro h
    have hn : ¬ replacedRow ds.cols drow = true := by
      rw [hr]
      rintro ⟨c, hc1, hc2, hc3⟩
      exact absurd (h c hc1 hc2) (not_le.2 hc3)
    rw [if_neg hn] at h3 h5
    exact ⟨h3.symm, h5.symm⟩

/-- The loss of a component in damage state 1 and of the replacement after collapse. -/
def wallCost : LKey × Str := (⟨str "Cost", str "wall", str "wall", str "1", str "1", str "0"⟩, str "1")
def collapseCost : LKey × Str := (⟨str "Cost", str "replacement", str "collapse", str "0", str "1", str "0"⟩, str "1")

/-- C51 does not hold: exclusive losses are computed on copies that are then not used.  The asset is
replaced (100) and the repair of the wall (5) is added. -/
theorem C51_damage_replacement_adds_up :
    aggregateLosses (some ⟨[wallCost, collapseCost], [fun c => if c = wallCost then 5 else if c = collapseCost then 100 else 0]⟩)
      none none [str "Cost"] [(str "Cost", str "USD")] [(str "USD", 1)] = .ok ([(str "repair_cost", [105])], []) := by
  decide +kernel

/-- C51 does not hold, in general: without thresholds the aggregated value of a decision variable is
the total over all columns of both samples, replacement or not. -/
theorem C51_everything_is_added (ds : DsSample) (lf : LfSample) (dvs : List Str) (dvUnits : Dict Str Str) (table : Dict Str ℚ)
    (out : List (Str × List ℚ)) (flags : List (Str × List Bool))
    (h : aggregateLosses (some ds) (some lf) none dvs dvUnits table = .ok (out, flags))
    (hlen : lf.rows.length = ds.rows.length) (dv : Str) (hdv : dv ∈ dvs) (ht : dv ≠ str "Time")
    (hc : Capitalised dv) (hk : (∃ c ∈ ds.cols, c.1.dv = dv) ∨ ∃ k ∈ lf.cols, k.dv = dv) :
    flags = [] ∧ ∃ f vals, UnitFactor dvUnits table dv f ∧ (repairColumn dv, vals) ∈ out ∧
      ∀ (i : Nat) drow lrow, ds.rows[i]? = some drow → lf.rows[i]? = some lrow →
        vals[i]? = some ((TotalDs ds.cols dv drow + Total lf.cols dv lrow) / f) := by
  rw [← lower_name]
  rw [show UnitFactor dvUnits table dv = UnitFactor dvUnits table (title (lower dv)) from by rw [title_lower hc]]
  unfold aggregateLosses at h
  simp only [afterThresholds] at h
  split at h
  · simp at h
  · rename_i agg hagg
    simp only [Except.ok.injEq, Prod.mk.injEq] at h
    obtain ⟨rfl, rfl⟩ := h
    refine ⟨rfl, ?_⟩
    obtain ⟨f, hf, hm⟩ := agg_totals dvs dvUnits table (combined (some ds) (some lf)) agg hagg dv hdv ht (by
      have hm : ∀ k, k ∈ colsOf (some ds) (some lf) ↔ k ∈ ds.cols.map (·.1) ∨ k ∈ lf.cols := by
        intro k
        unfold colsOf
        rw [FileIO.uniqueVals_mem, List.mem_append]
        simp
      rcases hk with ⟨c, h1, h2⟩ | ⟨k, h1, h2⟩
      · exact ⟨c.1, (hm _).2 (.inl (List.mem_map.2 ⟨c, h1, rfl⟩)), h2⟩
      · exact ⟨k, (hm _).2 (.inr h1), h2⟩)
    refine ⟨f, _, hf, hm, ?_⟩
    intro i drow lrow h1 h2
    have hi : i < ds.rows.length := (List.getElem?_eq_some_iff.1 h1).1
    have h3 : (combined (some ds) (some lf)).rows[i]? = some (rowOf (some ds) (some lf) i) := by
      unfold combined
      rw [List.getElem?_map, List.getElem?_range (by simpa [nRows] using hi)]
      rfl
    rw [List.getElem?_map, h3]
    simp only [Option.map_some, Option.some.injEq]
    rw [C54_joined_total ds lf i drow lrow _ dv h1 h2 h3]

/-! ## From the two samples to the aggregated losses -/

/-- The sum of the losses of a realization over the columns of both samples that satisfy a condition. -/
def LossSum (ds : Option DsSample) (lf : Option LfSample) (p : LKey → Bool) (i : Nat) : ℚ :=
  ((ds.bind fun s => (s.rows[i]?).map fun row => ((s.cols.filter fun c => p c.1).map row).sum).getD 0) +
  ((lf.bind fun s => (s.rows[i]?).map fun row => ((s.cols.filter p).map row).sum).getD 0)

/-- There is a sample, and the samples have `n` realizations. -/
def Rows (ds : Option DsSample) (lf : Option LfSample) (n : Nat) : Prop :=
  (ds ≠ none ∨ lf ≠ none) ∧ (∀ s, ds = some s → s.rows.length = n) ∧ ∀ s, lf = some s → s.rows.length = n

/-- Some column of the samples satisfies a condition. -/
def HasColumn (ds : Option DsSample) (lf : Option LfSample) (p : LKey → Prop) : Prop :=
  (∃ s, ds = some s ∧ ∃ c ∈ s.cols, p c.1) ∨ ∃ s, lf = some s ∧ ∃ k ∈ s.cols, p k

theorem mem_colsOf (ds : Option DsSample) (lf : Option LfSample) (k : LKey) :
    k ∈ colsOf ds lf ↔ HasColumn ds lf (· = k) := by
  unfold colsOf HasColumn
  rw [FileIO.uniqueVals_mem, List.mem_append]
  cases ds <;> cases lf <;> simp

theorem hasColumn_colsOf (ds : Option DsSample) (lf : Option LfSample) (p : LKey → Prop) :
    HasColumn ds lf p ↔ ∃ k ∈ colsOf ds lf, p k := by
  constructor
  · rintro (⟨s, hs, c, hc, hp⟩ | ⟨s, hs, k, hk, hp⟩)
    · exact ⟨c.1, (mem_colsOf _ _ _).2 (.inl ⟨s, hs, c, hc, rfl⟩), hp⟩
    · exact ⟨k, (mem_colsOf _ _ _).2 (.inr ⟨s, hs, k, hk, rfl⟩), hp⟩
  · rintro ⟨k, hk, hp⟩
    rcases (mem_colsOf _ _ _).1 hk with ⟨s, hs, c, hc, rfl⟩ | ⟨s, hs, k', hk', rfl⟩
    · exact .inl ⟨s, hs, c, hc, hp⟩
    · exact .inr ⟨s, hs, k', hk', hp⟩

theorem rowOf_eq (ds : Option DsSample) (lf : Option LfSample) (i : Nat) (k : LKey) :
    rowOf ds lf i k = LossSum ds lf (fun k' => decide (k' = k)) i := by
  unfold rowOf LossSum sumOver
  congr 1
  · cases ds with
    | none => rfl
    | some s => simp only [Option.bind_some]; cases s.rows[i]? <;> rfl
  · cases lf with
    | none => rfl
    | some s => simp only [Option.bind_some]; cases s.rows[i]? <;> rfl

theorem combined_sum (ds : Option DsSample) (lf : Option LfSample) (p : LKey → Bool) (i : Nat) :
    (((colsOf ds lf).filter p).map (rowOf ds lf i)).sum = LossSum ds lf p i := by
  have e : rowOf ds lf i = fun k =>
      ((ds.bind fun s => (s.rows[i]?).map fun row => sumOver s.cols (fun c => decide (c.1 = k)) row).getD 0) +
      ((lf.bind fun s => (s.rows[i]?).map fun row => sumOver s.cols (fun c => decide (c = k)) row).getD 0) := by
    funext k
    rw [rowOf_eq]; rfl
  rw [e, List.sum_map_add]
  unfold LossSum
  congr 1
  · cases hds : ds with
    | none => simp
    | some s =>
      simp only [Option.bind_some]
      cases s.rows[i]? with
      | none => simp
      | some row =>
        exact sum_by_key' _ (colsOf_nodup _ _) s.cols (·.1) row p fun c hc =>
          (mem_colsOf _ _ _).2 (.inl ⟨s, rfl, c, hc, rfl⟩)
  · cases hlf : lf with
    | none => simp
    | some s =>
      simp only [Option.bind_some]
      cases s.rows[i]? with
      | none => simp
      | some row =>
        exact sum_by_key' _ (colsOf_nodup _ _) s.cols (fun k => k) row p fun c hc =>
          (mem_colsOf _ _ _).2 (.inr ⟨s, rfl, c, hc, rfl⟩)

theorem combined_rows {ds : Option DsSample} {lf : Option LfSample} {n : Nat} (h : Rows ds lf n) :
    (combined ds lf).rows = (List.range n).map (rowOf ds lf) := by
  obtain ⟨h1, h2, h3⟩ := h
  have : nRows ds lf = n := by
    unfold nRows
    cases ds with
    | some s => exact h2 s rfl
    | none => cases lf with
      | some s => exact h3 s rfl
      | none => simp at h1
  unfold combined
  rw [this]

theorem combined_row {ds : Option DsSample} {lf : Option LfSample} {n : Nat} (h : Rows ds lf n) {i : Nat} (hi : i < n) :
    (combined ds lf).rows[i]? = some (rowOf ds lf i) := by
  rw [combined_rows h, List.getElem?_map, List.getElem?_range hi]; rfl

/-- C54: without thresholds, the aggregated value of a decision variable in each realization is the sum of
all its losses in both samples, in its unit. -/
theorem C54_end_to_end (ds : Option DsSample) (lf : Option LfSample) (n : Nat) (hR : Rows ds lf n)
    (dvs : List Str) (dvUnits : Dict Str Str) (table : Dict Str ℚ) (out : List (Str × List ℚ)) (flags : List (Str × List Bool))
    (h : aggregateLosses ds lf none dvs dvUnits table = .ok (out, flags)) (dv : Str) (hdv : dv ∈ dvs)
    (ht : dv ≠ str "Time") (hc : Capitalised dv) (hk : HasColumn ds lf (·.dv = dv)) :
    flags = [] ∧ ∃ f, UnitFactor dvUnits table dv f ∧
      (repairColumn dv, (List.range n).map fun i => LossSum ds lf (fun k => decide (k.dv = dv)) i / f) ∈ out := by
  unfold aggregateLosses at h
  simp only [afterThresholds] at h
  split at h
  · simp at h
  · rename_i agg hagg
    simp only [Except.ok.injEq, Prod.mk.injEq] at h
    obtain ⟨rfl, rfl⟩ := h
    refine ⟨rfl, ?_⟩
    obtain ⟨f, hf, hm⟩ := C54_totals dvs dvUnits table _ agg hagg dv hdv ht hc
      ((hasColumn_colsOf ds lf (·.dv = dv)).1 hk)
    refine ⟨f, hf, ?_⟩
    rw [combined_rows hR, List.map_map] at hm
    have e : ∀ i, ((fun row => Total (combined ds lf).cols dv row / f) ∘ rowOf ds lf) i =
        LossSum ds lf (fun k => decide (k.dv = dv)) i / f := by
      intro i
      simp only [Function.comp_apply]
      rw [← combined_sum]
      rfl
    rw [funext e] at hm
    exact hm

theorem lossSum_nonneg {ds : Option DsSample} {lf : Option LfSample} (p : LKey → Bool) (i : Nat)
    (h1 : ∀ s, ds = some s → ∀ row ∈ s.rows, ∀ c ∈ s.cols, 0 ≤ row c)
    (h2 : ∀ s, lf = some s → ∀ row ∈ s.rows, ∀ k ∈ s.cols, 0 ≤ row k) : 0 ≤ LossSum ds lf p i := by
  unfold LossSum
  apply add_nonneg
  · cases ds with
    | none => simp
    | some s =>
      simp only [Option.bind_some]
      cases hr : s.rows[i]? with
      | none => simp
      | some row =>
        apply List.sum_nonneg
        intro y hy
        obtain ⟨k, hk, rfl⟩ := List.mem_map.1 hy
        exact h1 s rfl row (List.mem_of_getElem? hr) k (List.mem_filter.1 hk).1
  · cases lf with
    | none => simp
    | some s =>
      simp only [Option.bind_some]
      cases hr : s.rows[i]? with
      | none => simp
      | some row =>
        apply List.sum_nonneg
        intro y hy
        obtain ⟨k, hk, rfl⟩ := List.mem_map.1 hy
        exact h2 s rfl row (List.mem_of_getElem? hr) k (List.mem_filter.1 hk).1

/-- C54: without thresholds and for nonnegative losses, the sequential repair time in each realization is the
sum of all repair times of both samples, and the parallel one the largest sum for a location. -/
theorem C54_time_end_to_end (ds : Option DsSample) (lf : Option LfSample) (n : Nat) (hR : Rows ds lf n)
    (dvs : List Str) (dvUnits : Dict Str Str) (table : Dict Str ℚ) (out : List (Str × List ℚ)) (flags : List (Str × List Bool))
    (h : aggregateLosses ds lf none dvs dvUnits table = .ok (out, flags)) (hdv : str "Time" ∈ dvs)
    (hk : HasColumn ds lf (·.dv = str "Time")) (hpos : ∀ u f, table.get? u = some f → 0 < f)
    (hd : ∀ s, ds = some s → ∀ row ∈ s.rows, ∀ c ∈ s.cols, 0 ≤ row c)
    (hl : ∀ s, lf = some s → ∀ row ∈ s.rows, ∀ k ∈ s.cols, 0 ≤ row k) :
    ∃ f par, UnitFactor dvUnits table (str "Time") f ∧
      (str "repair_time-sequential",
        (List.range n).map fun i => LossSum ds lf (fun k => decide (k.dv = str "Time")) i / f) ∈ out ∧
      (str "repair_time-parallel", par) ∈ out ∧ par.length = n ∧ ∀ (i : Nat) t, par[i]? = some t →
        (∃ loc, HasColumn ds lf (fun k => k.dv = str "Time" ∧ k.loc = loc) ∧
          t = LossSum ds lf (fun k => decide (k.dv = str "Time" ∧ k.loc = loc)) i / f) ∧
        ∀ loc, HasColumn ds lf (fun k => k.dv = str "Time" ∧ k.loc = loc) →
          LossSum ds lf (fun k => decide (k.dv = str "Time" ∧ k.loc = loc)) i / f ≤ t := by
  unfold aggregateLosses at h
  simp only [afterThresholds] at h
  split at h
  · simp at h
  rename_i agg hagg
  simp only [Except.ok.injEq, Prod.mk.injEq] at h
  obtain ⟨rfl, rfl⟩ := h
  obtain ⟨f, seq, par, h1, h2, h3, h4, h5, _⟩ := C54_time dvs dvUnits table _ agg hagg hdv
    ((hasColumn_colsOf ds lf (·.dv = str "Time")).1 hk) hpos (by
      intro row hrow k _
      rw [combined_rows hR] at hrow
      obtain ⟨i, _, rfl⟩ := List.mem_map.1 hrow
      rw [rowOf_eq]
      exact lossSum_nonneg _ _ hd hl)
  have hseq : seq = (List.range n).map fun i => LossSum ds lf (fun k => decide (k.dv = str "Time")) i / f := by
    have e := forall₂_map_eq (f := fun row => Total (combined ds lf).cols (str "Time") row / f) (g := id) h4
      (fun row t ht => ht.symm)
    rw [List.map_id, combined_rows hR, List.map_map] at e
    rw [← e]
    apply List.map_congr_left
    intro i _
    simp only [Function.comp_apply]
    rw [← combined_sum]
    rfl
  have hlen : par.length = n := by
    rw [← h5.length_eq, combined_rows hR]; simp
  refine ⟨f, par, h1, hseq ▸ h2, h3, hlen, ?_⟩
  intro i t ht
  have hi : i < n := by rw [← hlen]; exact (List.getElem?_eq_some_iff.1 ht).1
  have h5' := (List.forall₂_iff_get.1 h5).2 i (by rw [h5.length_eq, hlen]; exact hi) (by rw [hlen]; exact hi)
  have er := combined_row hR hi
  rw [List.getElem?_eq_getElem (by rw [h5.length_eq, hlen]; exact hi), Option.some.injEq] at er
  rw [List.getElem?_eq_getElem (by rw [hlen]; exact hi), Option.some.injEq] at ht
  simp only [List.get_eq_getElem, er, ht] at h5'
  have et : ∀ loc, TotalAt (combined ds lf).cols (str "Time") loc (rowOf ds lf i) =
      LossSum ds lf (fun k => decide (k.dv = str "Time" ∧ k.loc = loc)) i := fun loc => combined_sum _ _ _ _
  constructor
  · obtain ⟨k, k1, k2, k3⟩ := h5'.1
    exact ⟨k.loc, (hasColumn_colsOf _ _ _).2 ⟨k, k1, k2, rfl⟩, by rw [← et]; exact k3⟩
  · intro loc hloc
    obtain ⟨k, k1, k2, rfl⟩ := (hasColumn_colsOf _ _ _).1 hloc
    rw [← et]
    exact h5'.2 k k1 k2

/-- The repair losses of a decision variable exceed the ratio of its replacement value in the realization,
and none of its replacement losses is positive. -/
def ExceedsThreshold (ds : Option DsSample) (lf : Option LfSample) (ratios : Dict Str ℚ) (dv : Str) (value : ℚ)
    (i : Nat) : Prop :=
  (∀ k : LKey, k.dv = dv → k.loss = str "replacement" → LossSum ds lf (fun k' => decide (k' = k)) i ≤ 0) ∧
  ∃ ratio, ratios.get? dv = some ratio ∧
    value * ratio < LossSum ds lf (fun k => decide (k.dv = dv ∧ k.loss ≠ str "replacement")) i

theorem lossSum_not_mem {ds : Option DsSample} {lf : Option LfSample} {k : LKey} (h : k ∉ colsOf ds lf) (i : Nat) :
    LossSum ds lf (fun k' => decide (k' = k)) i = 0 := by
  rw [← combined_sum, List.filter_eq_nil_iff.2]
  · rfl
  · intro a ha
    simp only [decide_eq_true_eq]
    rintro rfl; exact h ha

theorem exceeds_iff (ds : Option DsSample) (lf : Option LfSample) (ratios : Dict Str ℚ) (dv : Str) (value : ℚ) (i : Nat) :
    Exceeds (combined ds lf).cols ratios dv value (rowOf ds lf i) ↔ ExceedsThreshold ds lf ratios dv value i := by
  unfold Exceeds ExceedsThreshold
  have e : (((combined ds lf).cols.filter fun k => decide (k.dv = dv ∧ k.loss ≠ str "replacement")).map (rowOf ds lf i)).sum =
      LossSum ds lf (fun k => decide (k.dv = dv ∧ k.loss ≠ str "replacement")) i := combined_sum _ _ _ _
  rw [e]
  refine and_congr_left fun _ => ?_
  constructor
  · intro h k h1 h2
    by_cases hk : k ∈ colsOf ds lf
    · rw [← rowOf_eq]; exact h k hk h1 h2
    · rw [lossSum_not_mem hk]
  · intro h k _ h1 h2
    rw [rowOf_eq]; exact h k h1 h2

/-- C52: from the two samples to the results.  A decision variable of the registry is flagged in exactly the
realizations in which it exceeds its threshold.  In the realizations in which some decision variable does,
the aggregated value of every decision variable is its replacement value, or zero if it is not in the
registry; in all others it is the sum of all its losses. -/
theorem C52_end_to_end (ds : Option DsSample) (lf : Option LfSample) (n : Nat) (hR : Rows ds lf n)
    (cfg : Config) (hnd : cfg.reg.NoDupKeys) (hname : ¬ HasColumn ds lf (·.dmg = str "threshold_exceedance"))
    (dvs : List Str) (dvUnits : Dict Str Str) (table : Dict Str ℚ) (out : List (Str × List ℚ)) (flags : List (Str × List Bool))
    (h : aggregateLosses ds lf (some cfg) dvs dvUnits table = .ok (out, flags)) :
    flags.map (·.1) = cfg.reg.keys ∧
    (∀ dv fl value, (dv, fl) ∈ flags → cfg.reg.get? dv = some value →
      fl.length = n ∧ ∀ i < n, (fl[i]? = some true ↔ ExceedsThreshold ds lf cfg.ratios dv (value i) i)) ∧
    ∀ dv ∈ dvs, dv ≠ str "Time" → Capitalised dv → (HasColumn ds lf (·.dv = dv) ∨ dv ∈ cfg.reg.keys) →
      ∃ f vals, UnitFactor dvUnits table dv f ∧ (repairColumn dv, vals) ∈ out ∧ vals.length = n ∧ ∀ i < n,
        ((∃ d v, cfg.reg.get? d = some v ∧ ExceedsThreshold ds lf cfg.ratios d (v i) i) →
          vals[i]? = some ((match cfg.reg.get? dv with
            | some v => v i
            | none => 0) / f)) ∧
        ((¬ ∃ d v, cfg.reg.get? d = some v ∧ ExceedsThreshold ds lf cfg.ratios d (v i) i) →
          vals[i]? = some (LossSum ds lf (fun k => decide (k.dv = dv)) i / f)) := by
  unfold aggregateLosses at h
  simp only [afterThresholds] at h
  cases hA : applyThresholds (combined ds lf) cfg with
  | error e => rw [hA] at h; simp at h
  | ok sf =>
  obtain ⟨s', fl0⟩ := sf
  rw [hA] at h
  simp only at h
  split at h
  · simp at h
  rename_i agg hagg
  simp only [Except.ok.injEq, Prod.mk.injEq] at h
  obtain ⟨rfl, rfl⟩ := h
  obtain ⟨t1, t2, t3, t4⟩ := C52_thresholds _ s' cfg fl0 hnd hA
  have hs'nd : s'.cols.Nodup := by
    unfold applyThresholds at hA
    split at hA
    · simp at hA
    · cases hA; exact FileIO.uniqueVals_nodup [] _
  have hlen : (combined ds lf).rows.length = n := by rw [combined_rows hR]; simp
  have hget : ∀ d v, cfg.reg.get? d = some v ↔ (d, v) ∈ cfg.reg := fun d v => Dict.get?_iff_mem hnd
  have hcolname : ∀ k ∈ (combined ds lf).cols, k.dmg ≠ str "threshold_exceedance" := by
    intro k hk hd
    exact hname ((hasColumn_colsOf _ _ _).2 ⟨k, hk, hd⟩)
  refine ⟨t1, ?_, ?_⟩
  · intro dv fl value hfl hv
    constructor
    · unfold applyThresholds at hA
      split at hA
      · simp at hA
      rename_i flags0 hm
      simp only [Except.ok.injEq, Prod.mk.injEq] at hA
      obtain ⟨_, rfl⟩ := hA
      obtain ⟨d, _, hd⟩ := forall₂_mem_right (mapE_ok_iff.1 hm) hfl
      cases hx : flagsOf (combined ds lf) cfg.ratios d.1 d.2 with
      | error e => rw [hx] at hd; simp at hd
      | ok g =>
        rw [hx] at hd
        simp only [Except.ok.injEq, Prod.mk.injEq] at hd
        rw [← hd.2, (flagsOf_spec _ _ _ _ _ hx).1, hlen]
    · intro i hi
      have hi' : i < s'.rows.length := by rw [t2, hlen]; exact hi
      obtain ⟨a1, _⟩ := t4 i _ _ (combined_row hR hi) (List.getElem?_eq_getElem hi')
      rw [a1 dv fl value hfl ((hget _ _).1 hv), exceeds_iff]
  · intro dv hdv ht hc hk
    have hk' : ∃ k ∈ s'.cols, k.dv = dv := by
      rcases hk with hk | hk
      · obtain ⟨k, h1, h2⟩ := (hasColumn_colsOf _ _ _).1 hk
        exact ⟨k, (t3 k).2 (.inl h1), h2⟩
      · exact ⟨thresholdColumn dv, (t3 _).2 (.inr ⟨dv, hk, rfl⟩), rfl⟩
    obtain ⟨f, hf, hm⟩ := C54_totals dvs dvUnits table s' agg hagg dv hdv ht hc hk'
    refine ⟨f, _, hf, hm, by rw [List.length_map, t2, hlen], ?_⟩
    intro i hi
    have hi' : i < s'.rows.length := by rw [t2, hlen]; exact hi
    have hr' := List.getElem?_eq_getElem hi'
    obtain ⟨_, a2, a3⟩ := t4 i _ _ (combined_row hR hi) hr'
    have hex : (∃ d v, cfg.reg.get? d = some v ∧ ExceedsThreshold ds lf cfg.ratios d (v i) i) ↔
        ∃ d v, (d, v) ∈ cfg.reg ∧ Exceeds (combined ds lf).cols cfg.ratios d (v i) (rowOf ds lf i) := by
      simp only [hget, exceeds_iff]
    constructor
    · intro hyes
      rw [hex] at hyes
      rw [List.getElem?_map, hr', Option.map_some]
      congr 2
      cases hg : cfg.reg.get? dv with
      | some v =>
        exact C51_threshold_total_partial _ s' cfg fl0 hnd hA (fun k hk hd => absurd hd (hcolname k hk)) i _ _
          (combined_row hR hi) hr' hyes dv v ((hget _ _).1 hg)
      | none =>
        unfold Total
        apply List.sum_eq_zero
        intro x hx
        obtain ⟨k, hk, rfl⟩ := List.mem_map.1 hx
        rw [List.mem_filter, decide_eq_true_eq] at hk
        apply (a3 hyes).2 k hk.1
        rcases (t3 k).1 hk.1 with h1 | ⟨d, h1, rfl⟩
        · exact hcolname k h1
        · exfalso
          have : d = dv := hk.2
          subst this
          rw [Dict.get?_eq_none_iff] at hg
          exact hg h1
    · intro hno
      rw [hex] at hno
      have b := a2 fun d v h1 h2 => hno ⟨d, v, h1, h2⟩
      rw [List.getElem?_map, hr', Option.map_some]
      congr 2
      rw [← combined_sum]
      unfold Total
      have e : ((s'.cols.filter fun k => decide (k.dv = dv)).map s'.rows[i]).sum =
          ((s'.cols.filter fun k => decide (k.dv = dv)).map fun k =>
            if k ∈ colsOf ds lf then rowOf ds lf i k else 0).sum := by
        congr 1
        apply List.map_congr_left
        intro k hk
        exact b k (List.mem_filter.1 hk).1
      rw [e]
      have hp : ((s'.cols.filter fun k => decide (k.dv = dv)).filter fun k => decide (k ∈ colsOf ds lf)).Perm
          ((colsOf ds lf).filter fun k => decide (k.dv = dv)) := by
        rw [List.perm_ext_iff_of_nodup ((hs'nd.filter _).filter _) ((colsOf_nodup _ _).filter _)]
        intro k
        simp only [List.mem_filter, decide_eq_true_eq]
        constructor
        · rintro ⟨⟨_, h1⟩, h2⟩; exact ⟨h2, h1⟩
        · rintro ⟨h1, h2⟩; exact ⟨⟨(t3 k).2 (.inl h1), h2⟩, h1⟩
      rw [← (hp.map (rowOf ds lf i)).sum_eq]
      generalize s'.cols.filter (fun k => decide (k.dv = dv)) = L
      induction L with
      | nil => rfl
      | cons k L ih =>
        by_cases hk : k ∈ colsOf ds lf
        · rw [List.filter_cons_of_pos (by simpa using hk), List.map_cons, List.map_cons, List.sum_cons, List.sum_cons,
            if_pos hk, ih]
        · rw [List.filter_cons_of_neg (by simpa using hk), List.map_cons, List.sum_cons, if_neg hk, ih, zero_add]

/-! ## Examples -/

/-- Two locations, two realizations; in the second one the cost 9 exceeds 0.8 × 10. -/
def exCols : List LKey := [⟨str "Cost", str "a", str "a", str "1", str "1", str "0"⟩,
  ⟨str "Cost", str "a", str "a", str "2", str "1", str "0"⟩, ⟨str "Time", str "a", str "a", str "1", str "1", str "0"⟩,
  ⟨str "Time", str "a", str "a", str "2", str "1", str "0"⟩]

def exSample : LfSample := ⟨exCols, [fun k => if k.dv = str "Cost" then 2 else if k.loc = str "1" then 3 else 4,
  fun k => if k.loc = str "1" then 5 else 4]⟩

example : (aggregateSample [str "Cost", str "Time"] [(str "Cost", str "USD"), (str "Time", str "day")]
    [(str "USD", 1), (str "day", 2)] exSample).toOption =
    some [(str "repair_cost", [4, 9]), (str "repair_time-sequential", [7/2, 9/2]), (str "repair_time-parallel", [2, 5/2])] := by
  decide +kernel

example : ((applyThresholds exSample ⟨[(str "Cost", fun _ => 10), (str "Time", fun _ => 30)],
      [(str "Cost", 4/5), (str "Time", 1)]⟩).toOption.map fun r => (r.2, r.1.rows.map fun row => r.1.cols.map row)) =
    some ([(str "Cost", [false, true]), (str "Time", [false, false])], [[2, 2, 3, 4, 0, 0], [0, 0, 0, 0, 10, 30]]) := by
  decide +kernel

/-- The hypotheses of the theorems about whole runs are met: losses of damage states and of loss functions,
a threshold that is exceeded in the second realization. -/
example : (aggregateLosses (some ⟨[wallCost, collapseCost], [fun c => if c = wallCost then 5 else 0, fun c => if c = wallCost then 7 else 0]⟩)
      (some exSample) (some ⟨[(str "Cost", fun _ => 20)], [(str "Cost", 1/2)]⟩) [str "Cost", str "Time"]
      [(str "Cost", str "USD"), (str "Time", str "day")] [(str "USD", 2), (str "day", 1)]).toOption =
    some ([(str "repair_cost", [9/2, 10]), (str "repair_time-sequential", [7, 0]), (str "repair_time-parallel", [4, 0])],
      [(str "Cost", [false, true])]) := by
  decide +kernel
example : Rows (some ⟨[wallCost], [fun _ => 5, fun _ => 7]⟩) (some exSample) 2 := by
  refine ⟨by simp, ?_, ?_⟩
  · rintro s ⟨⟩; rfl
  · rintro s ⟨⟩; rfl
example : ¬ HasColumn (some ⟨[wallCost], [fun _ => 5, fun _ => 7]⟩) (some exSample) (·.dmg = str "threshold_exceedance") := by
  rw [hasColumn_colsOf]; decide +kernel
example : Capitalised (str "Cost") ∧ repairColumn (str "Cost") = str "repair_cost" :=
  ⟨⟨'C', str "ost", rfl, by decide, by decide⟩, by decide⟩

end Verif.LossAgg
