import Verif.Lemmas.PyStr
import Verif.Model.Labels
import Mathlib.Data.List.Basic
import Mathlib.Data.List.Perm.Basic
import Verif.Lemmas.PySort

/-! # Properties C06 and C07: index labels -/

namespace Verif.Labels

theorem maxLen_ge (ps : List (List Str)) : ∀ p ∈ ps, p.length ≤ maxLen ps := by
  induction ps with
  | nil => simp
  | cons a ps ih =>
    intro p hp
    simp only [maxLen, List.map_cons, List.foldr_cons]
    rcases List.mem_cons.1 hp with rfl | h
    · exact le_max_left _ _
    · exact le_trans (ih p h) (le_max_right _ _)

theorem maxLen_const (ps : List (List Str)) (n : Nat) (hne : ps ≠ [])
    (h : ∀ p ∈ ps, p.length = n) : maxLen ps = n := by
  induction ps with
  | nil => exact absurd rfl hne
  | cons a ps ih =>
    simp only [maxLen, List.map_cons, List.foldr_cons]
    have ha := h a (by simp)
    cases ps with
    | nil => simp [ha]
    | cons b ps =>
      have := ih (by simp) (fun p hp => h p (List.mem_cons_of_mem _ hp))
      simp only [maxLen] at this
      rw [this, ha]; simp

theorem length_splitChar (c : Char) (s : Str) : (splitChar c s).length = s.count c + 1 := by
  induction s with
  | nil => rfl
  | cons x xs ih =>
    simp only [splitChar]
    split
    · rename_i h; subst h; simp [ih]
    · rename_i h
      split
      · rename_i h'; exact absurd h' (splitChar_ne_nil _ _)
      · rename_i w ws h'
        rw [h'] at ih
        simp only [List.length_cons] at ih ⊢
        rw [ih, List.count_cons_of_ne h]

theorem length_split_join (c : Char) (ws : List Str) (hne : ws ≠ []) :
    (splitChar c (joinChar c ws)).length = ws.length + (ws.map (List.count c)).sum := by
  rw [length_splitChar]
  induction ws with
  | nil => exact absurd rfl hne
  | cons w ws ih =>
    cases ws with
    | nil => simp [joinChar]; omega
    | cons w' ws =>
      have := ih (by simp)
      simp only [joinChar, List.count_append, List.count_cons_self, List.length_cons,
        List.map_cons, List.sum_cons] at this ⊢
      omega

theorem le_sum_of_mem {l : List Nat} {a : Nat} (h : a ∈ l) : a ≤ l.sum := by
  induction l with
  | nil => simp at h
  | cons b l ih =>
    rw [List.sum_cons]
    rcases List.mem_cons.1 h with rfl | h
    · omega
    · have := ih h; omega

/-- C06: joining the levels of a `MultiIndex` and splitting the labels again restores
the index exactly when no level value contains a dash. -/
theorem C06_multi_round_trip (n : Nat) (rows : List (List Str)) (hn : 2 ≤ n) (hne : rows ≠ [])
    (hlen : ∀ r ∈ rows, r.length = n) :
    toMulti (toSimple (.multi n rows)) = .ok (.multi n rows) ↔
      ∀ r ∈ rows, ∀ lbl ∈ r, '-' ∉ lbl := by
  have h1 : 1 < n := by omega
  have hne' : rows.map (joinChar '-') ≠ [] := by simpa using hne
  simp only [toSimple, gt_iff_lt, h1, if_true, toMulti, hne', if_false, List.map_map]
  constructor
  · intro h r hr lbl hl hd
    split at h
    · rename_i hm
      simp only [Except.ok.injEq, Index.multi.injEq] at h
      have hr0 : r ≠ [] := by intro e; subst e; simp at hl
      have h2 := maxLen_ge (List.map (splitChar '-' ∘ joinChar '-') rows)
        (splitChar '-' (joinChar '-' r)) (List.mem_map.2 ⟨r, hr, rfl⟩)
      rw [h.1, length_split_join _ _ hr0, hlen r hr] at h2
      have h3 : 0 < List.count '-' lbl := List.count_pos_iff.2 hd
      have h4 : List.count '-' lbl ≤ (r.map (List.count '-')).sum :=
        le_sum_of_mem (List.mem_map.2 ⟨lbl, hl, rfl⟩)
      omega
    · simp at h
  · intro h
    have hs : ∀ r ∈ rows, splitChar '-' (joinChar '-' r) = r := fun r hr =>
      split_join '-' r (by intro e; have := hlen r hr; subst e; simp at this; omega) (h r hr)
    have hmap : List.map (splitChar '-' ∘ joinChar '-') rows = rows := by
      conv_rhs => rw [← List.map_id rows]
      exact List.map_congr_left (fun r hr => by simpa using hs r hr)
    have hmap2 : List.map (pad n ∘ splitChar '-' ∘ joinChar '-') rows = rows := by
      conv_rhs => rw [← List.map_id rows]
      exact List.map_congr_left (fun r hr => by simp [hs r hr, pad, hlen r hr])
    rw [hmap]
    have hm := maxLen_const rows n hne hlen
    rw [hm, hmap2]; simp [h1]

example : toMulti (toSimple (.multi 2 [[str "PFA", str "1"], [str "PID", str "2"]])) =
    .ok (.multi 2 [[str "PFA", str "1"], [str "PID", str "2"]]) := by decide +kernel
/-- The dash condition is not vacuous: a label with a dash is torn apart. -/
example : toMulti (toSimple (.multi 2 [[str "P-A", str "1"]])) =
    .ok (.multi 3 [[str "P", str "A", str "1"]]) := by decide +kernel

theorem join_pad (c : Char) (p : List Str) (hp : p ≠ []) (m : Nat) :
    joinChar c (p ++ List.replicate m []) = joinChar c p ++ List.replicate m c := by
  induction p with
  | nil => exact absurd rfl hp
  | cons w p ih =>
    cases p with
    | nil =>
      simp only [joinChar, List.cons_append, List.nil_append]
      clear hp ih
      induction m generalizing w with
      | zero => simp [joinChar]
      | succ m ih =>
        rw [List.replicate_succ, joinChar, ih, List.replicate_succ]
        simp
    | cons w' p =>
      have := ih (by simp)
      simp only [List.cons_append, joinChar] at this ⊢
      rw [this]; simp

/-- C06 converse, for arbitrary labels: splitting and joining again returns each label
followed by as many dashes as it had parts less than the longest one.  In particular
the labels are restored exactly when all have the same number of parts. -/
theorem C06_simple_round_trip (labels : List Str) (hne : labels ≠ []) :
    ∃ idx, toMulti (.simple labels) = .ok idx ∧
      toSimple idx = .simple (labels.map (fun l =>
        l ++ List.replicate (((labels.map (fun l => l.count '-')).foldr max 0) - l.count '-') '-')) := by
  have hm : maxLen (labels.map (splitChar '-')) =
      (labels.map (fun l => l.count '-')).foldr max 0 + 1 := by
    induction labels with
    | nil => exact absurd rfl hne
    | cons a labels ih =>
      cases labels with
      | nil => simp [maxLen, length_splitChar]
      | cons b labels =>
        have := ih (by simp)
        simp only [maxLen, List.map_cons, List.foldr_cons, length_splitChar] at this ⊢
        omega
  simp only [toMulti, hne, if_false, hm]
  split
  · rename_i h
    refine ⟨_, rfl, ?_⟩
    simp only [toSimple, h, if_true, List.map_map, Index.simple.injEq]
    apply List.map_congr_left
    intro l _
    simp only [Function.comp, pad, length_splitChar]
    rw [join_pad _ _ (splitChar_ne_nil _ _), join_split]
    congr 2
    omega
  · rename_i h
    refine ⟨_, rfl, ?_⟩
    simp only [toSimple, Index.simple.injEq]
    conv_lhs => rw [← List.map_id labels]
    apply List.map_congr_left
    intro l _
    have : (labels.map (fun l => l.count '-')).foldr max 0 = 0 := by omega
    simp [this]

/-- C06 corollary: equal numbers of parts, exact restoration. -/
theorem C06_simple_round_trip_uniform (labels : List Str) (hne : labels ≠ []) (k : Nat)
    (hk : ∀ l ∈ labels, l.count '-' = k) :
    ∃ idx, toMulti (.simple labels) = .ok idx ∧ toSimple idx = .simple labels := by
  obtain ⟨idx, h1, h2⟩ := C06_simple_round_trip labels hne
  refine ⟨idx, h1, ?_⟩
  rw [h2]
  have hmax : (labels.map (fun l => l.count '-')).foldr max 0 = k := by
    clear h1 h2
    induction labels with
    | nil => exact absurd rfl hne
    | cons a labels ih =>
      cases labels with
      | nil => simp [hk a (by simp)]
      | cons b labels =>
        rw [List.map_cons, List.foldr_cons,
          ih (by simp) (fun l hl => hk l (List.mem_cons_of_mem _ hl)), hk a (by simp)]
        simp
  rw [hmax]
  congr 1
  conv_rhs => rw [← List.map_id labels]
  apply List.map_congr_left
  intro l hl
  simp [hk l hl]

example : toMulti (.simple [str "1-PFA-0-1", str "1-PID-1-1"]) =
    .ok (.multi 4 [[str "1", str "PFA", str "0", str "1"], [str "1", str "PID", str "1", str "1"]]) := by
  decide +kernel

/-! ### C07 -/

variable {κ ρ : Type} [DecidableEq κ]

theorem withUid_eq (rows : List (κ × ρ)) : ∀ seen : List κ,
    withUid seen rows = (List.range rows.length).pmap
      (fun i (h : i < rows.length) => ((rows[i].1,
        decStr (seen.count rows[i].1 + ((rows.take i).map Prod.fst).count rows[i].1)), rows[i].2))
      (fun i h => List.mem_range.1 h) := by
  induction rows with
  | nil => intro seen; simp [withUid]
  | cons a rows ih =>
    intro seen
    obtain ⟨k, r⟩ := a
    simp only [withUid, List.length_cons, List.range_succ_eq_map, List.pmap_cons, List.pmap_map]
    rw [ih]
    simp only [List.getElem_cons_zero, List.take_zero, List.map_nil, List.count_nil, Nat.add_zero]
    congr 1
    apply List.pmap_congr_left
    intro i hi h1 h2
    simp only [List.getElem_cons_succ, List.take_succ_cons, List.map_cons, Prod.mk.injEq,
      true_and, and_true]
    congr 1
    rw [List.count_cons, List.count_cons]
    omega

/-- C07: the result consists of exactly the given rows, where row number `i` is labelled
with its own label and, as uid, the number of earlier rows with that label. -/
theorem C07_rows_and_uids (le : κ × Str → κ × Str → Bool) (rows : List (κ × ρ)) :
    (dedupeIndex le rows).Perm ((List.range rows.length).pmap
      (fun i (h : i < rows.length) =>
        ((rows[i].1, decStr (((rows.take i).map Prod.fst).count rows[i].1)), rows[i].2))
      (fun i h => List.mem_range.1 h)) := by
  unfold dedupeIndex
  refine (pySort_perm _ _).trans ?_
  rw [withUid_eq]
  simp

/-- C07: dropping the uid gives back the original rows (as a multiset). -/
theorem C07_rows_preserved (le : κ × Str → κ × Str → Bool) (rows : List (κ × ρ)) :
    ((dedupeIndex le rows).map (fun e => (e.1.1, e.2))).Perm rows := by
  unfold dedupeIndex
  refine ((pySort_perm _ _).map _).trans ?_
  have : ∀ seen : List κ, (withUid seen rows).map (fun e => (e.1.1, e.2)) = rows := by
    induction rows with
    | nil => intro; rfl
    | cons a rows ih => intro seen; obtain ⟨k, r⟩ := a; simp [withUid, ih]
  rw [this]

theorem withUid_keys (rows : List (κ × ρ)) : ∀ seen : List κ,
    ((withUid seen rows).map Prod.fst).Nodup ∧
    ∀ e ∈ (withUid seen rows).map Prod.fst, ∃ c, seen.count e.1 ≤ c ∧ e.2 = decStr c := by
  induction rows with
  | nil => intro; simp [withUid]
  | cons a rows ih =>
    intro seen
    obtain ⟨k, r⟩ := a
    obtain ⟨h1, h2⟩ := ih (k :: seen)
    simp only [withUid, List.map_cons, List.nodup_cons, List.mem_cons]
    refine ⟨⟨?_, h1⟩, ?_⟩
    · intro hm
      obtain ⟨c, hc, he⟩ := h2 _ hm
      simp only [List.count_cons_self] at hc
      have := decStr_inj he
      omega
    · rintro e (rfl | he)
      · exact ⟨_, le_refl _, rfl⟩
      · obtain ⟨c, hc, hh⟩ := h2 e he
        exact ⟨c, le_trans (List.count_le_count_cons) hc, hh⟩

/-- C07: no two rows of the result share their identifier. -/
theorem C07_ids_distinct (le : κ × Str → κ × Str → Bool) (rows : List (κ × ρ)) :
    ((dedupeIndex le rows).map Prod.fst).Nodup := by
  unfold dedupeIndex
  exact (((pySort_perm _ _).map _).nodup_iff).2 (withUid_keys rows []).1

/-- C07: the resulting table is ordered by its labels and uids. -/
theorem C07_sorted (le : κ × Str → κ × Str → Bool) (htot : ∀ a b, le a b = true ∨ le b a = true)
    (htr : ∀ a b c, le a b = true → le b c = true → le a c = true) (rows : List (κ × ρ)) :
    ((dedupeIndex le rows).map Prod.fst).Pairwise (fun a b => le a b = true) := by
  unfold dedupeIndex
  rw [List.pairwise_map]
  exact pySort_sorted (le := fun (a b : (κ × Str) × ρ) => le a.1 b.1) (fun a b => htot a.1 b.1) (fun a b c => htr a.1 b.1 c.1) _

example : dedupeIndex (fun a b => decide (a.1 < b.1) || (decide (a.1 = b.1) && strLe a.2 b.2))
    [(2, 'x'), (1, 'y'), (2, 'z')] =
      [((1, str "0"), 'y'), ((2, str "0"), 'x'), ((2, str "1"), 'z')] := by decide +kernel

end Verif.Labels
