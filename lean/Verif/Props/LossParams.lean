import Verif.Model.LossParams
import Verif.Model.UQRegistry
import Verif.Props.FileIO
import Verif.Props.DmgParams
import Mathlib.Data.List.Nodup

/-!
# Properties C49, C50, C57 and C78

C49: the loss map is completed without changing entries of the user.  C50: which definition of a
consequence is used.  C57: which definitions are reported as missing.  C78: the order of the rows of
the completed loss map.
-/

namespace Verif.LossParams

open DmgParams (Cell Row)

/-! ## C49 -/

theorem fill_spec (all : Bool) (cmps : List Str) : ∀ m : LossMap, ∃ added : LossMap,
    cmps.foldl (fillStep all) m = m ++ added ∧ (added.map (·.1)).Nodup ∧
    ∀ c v, (c, v) ∈ added ↔ v = c ∧ c ∈ cmps ∧ c ∉ m.map (·.1) ∧ (all = true ∨ c ≠ str "excessiveRID") := by
  induction cmps with
  | nil => intro m; exact ⟨[], by simp⟩
  | cons a cmps ih =>
    intro m
    rw [List.foldl_cons]
    by_cases h1 : a ∈ m.map (·.1)
    · have hs : fillStep all m a = m := by unfold fillStep; rw [if_pos h1]
      obtain ⟨added, h2, h3, h4⟩ := ih m
      refine ⟨added, by rw [hs, h2], h3, fun c v => ?_⟩
      rw [h4, List.mem_cons]
      constructor
      · rintro ⟨p, q, r⟩; exact ⟨p, .inr q, r⟩
      · rintro ⟨p, q | q, r⟩
        · subst q; exact absurd h1 r.1
        · exact ⟨p, q, r⟩
    · by_cases h5 : all = false ∧ a = str "excessiveRID"
      · have hs : fillStep all m a = m := by unfold fillStep; rw [if_neg h1, if_pos h5]
        obtain ⟨added, h2, h3, h4⟩ := ih m
        refine ⟨added, by rw [hs, h2], h3, fun c v => ?_⟩
        rw [h4, List.mem_cons]
        constructor
        · rintro ⟨p, q, r⟩; exact ⟨p, .inr q, r⟩
        · rintro ⟨p, q | q, r, s⟩
          · subst q
            rcases s with s | s
            · rw [h5.1] at s; simp at s
            · exact absurd h5.2 s
          · exact ⟨p, q, r, s⟩
      · have hs : fillStep all m a = m ++ [(a, a)] := by unfold fillStep; rw [if_neg h1, if_neg h5]
        obtain ⟨added, h2, h3, h4⟩ := ih (m ++ [(a, a)])
        refine ⟨(a, a) :: added, by rw [hs, h2]; simp, ?_, fun c v => ?_⟩
        · rw [List.map_cons, List.nodup_cons]
          refine ⟨?_, h3⟩
          intro h
          obtain ⟨x, hx, hx1⟩ := List.mem_map.1 h
          have := ((h4 x.1 x.2).1 hx).2.2.1
          apply this
          rw [List.map_append, List.mem_append]
          right
          simp [hx1]
        · have h6 : all = true ∨ a ≠ str "excessiveRID" := by
            cases all with
            | true => exact .inl rfl
            | false => exact .inr fun h => h5 ⟨rfl, h⟩
          rw [List.mem_cons, h4, Prod.mk.injEq, List.map_append, List.mem_append, List.mem_cons]
          simp only [List.map_cons, List.map_nil, List.mem_singleton, not_or]
          constructor
          · rintro (⟨rfl, rfl⟩ | ⟨p, q, r, s⟩)
            · exact ⟨rfl, .inl rfl, h1, h6⟩
            · exact ⟨p, .inr q, r.1, s⟩
          · rintro ⟨p, q, r, s⟩
            by_cases hca : c = a
            · exact .inl ⟨hca, by rw [p, hca]⟩
            · rcases q with q | q
              · exact absurd q hca
              · exact .inr ⟨p, q, ⟨r, hca⟩, s⟩

/-- Labels without dashes, none of which has the deprecated flag in it. -/
def PlainIds (rows : LossMap) : Prop := ∀ r ∈ rows, '-' ∉ r.1 ∧ ¬ str "DMG" <:+: r.1

theorem hasInfix_iff (w s : Str) : hasInfix w s = true ↔ w <:+: s := by
  induction s with
  | nil => simp [hasInfix]
  | cons c s ih =>
    rw [hasInfix, Bool.or_eq_true, ih, List.infix_cons_iff, List.isPrefixOf_iff_prefix]

theorem maxLen_singletons (ls : List Str) (h : ∀ l ∈ ls, '-' ∉ l) : Labels.maxLen (ls.map (splitChar '-')) ≤ 1 := by
  unfold Labels.maxLen
  induction ls with
  | nil => simp
  | cons a ls ih =>
    simp only [List.map_cons, List.foldr_cons]
    rw [splitChar_no_sep _ _ (h a (by simp))]
    exact max_le (by simp) (ih fun l hl => h l (List.mem_cons_of_mem _ hl))

theorem userMap_plain (rows : LossMap) (hne : rows ≠ []) (h : PlainIds rows) :
    userMap rows = .ok (pySort (fun a b => strLe a.1 b.1) rows) := by
  unfold userMap
  have h1 : Labels.toMulti (.simple (rows.map (·.1))) = .ok (.simple (rows.map (·.1))) := by
    unfold Labels.toMulti
    simp only
    rw [if_neg (by simpa using hne), if_neg]
    have := maxLen_singletons (rows.map (·.1)) (by
      intro l hl
      obtain ⟨r, hr, rfl⟩ := List.mem_map.1 hl
      exact (h r hr).1)
    omega
  rw [h1]
  simp only
  rw [if_neg]
  rw [List.any_eq_true]
  rintro ⟨r, hr, hr2⟩
  rw [hasInfix_iff] at hr2
  exact (h r (mem_pySort.1 hr)).2 hr2

/-- The completed map: the rows of the user in some order and one row `c ↦ c` for each component of the
asset that the user does not mention; `excessiveRID` only if `all`. -/
def Completed (all : Bool) (user : LossMap) (cmps : List Str) (m : LossMap) : Prop :=
  ∃ added : LossMap, m.Perm (user ++ added) ∧ (added.map (·.1)).Nodup ∧
    ∀ c v, (c, v) ∈ added ↔ v = c ∧ c ∈ cmps ∧ (∀ w, (c, w) ∉ user) ∧ (all = true ∨ c ≠ str "excessiveRID")

theorem not_mem_keys (m : LossMap) (c : Str) : c ∉ m.map (·.1) ↔ ∀ w, (c, w) ∉ m := by
  constructor
  · intro h w hw; exact h (List.mem_map.2 ⟨_, hw, rfl⟩)
  · intro h hc
    obtain ⟨x, hx, rfl⟩ := List.mem_map.1 hc
    exact h x.2 hx

theorem completed_of_perm (all : Bool) (user m : LossMap) (cmps : List Str) (hp : m.Perm user) :
    Completed all user cmps (cmps.foldl (fillStep all) m) := by
  obtain ⟨added, h1, h2, h3⟩ := fill_spec all cmps m
  refine ⟨added, by rw [h1]; exact hp.append_right added, h2, fun c v => ?_⟩
  rw [h3, not_mem_keys]
  have : (∀ w, (c, w) ∉ m) ↔ ∀ w, (c, w) ∉ user := by simp only [hp.mem_iff]
  rw [this]

/-- C49: with a map and the policy `fill` the result has the rows of the user as they are and all
missing components except `excessiveRID`; with `fill_all` without exception; with no policy only the
rows of the user. -/
theorem C49_user_map (rows : LossMap) (hne : rows ≠ []) (hids : PlainIds rows) (cmps : List Str) :
    (∃ m, addLossMap (some rows) (some (str "fill")) cmps = .ok m ∧ Completed false rows cmps m) ∧
    (∃ m, addLossMap (some rows) (some (str "fill_all")) cmps = .ok m ∧ Completed true rows cmps m) ∧
    (∃ m, addLossMap (some rows) none cmps = .ok m ∧ m.Perm rows) := by
  have hf : str "fill_all" ≠ str "fill" := by decide
  refine ⟨?_, ?_, ?_⟩
  · refine ⟨_, ?_, completed_of_perm false rows _ cmps (pySort_perm (fun a b => strLe a.1 b.1) rows)⟩
    simp [addLossMap, startMap, userMap_plain rows hne hids]
  · refine ⟨_, ?_, completed_of_perm true rows _ cmps (pySort_perm (fun a b => strLe a.1 b.1) rows)⟩
    simp [addLossMap, startMap, userMap_plain rows hne hids, hf]
  · refine ⟨_, ?_, pySort_perm (fun a b => strLe a.1 b.1) rows⟩
    simp [addLossMap, startMap, userMap_plain rows hne hids]

/-- C49: the same without a map of the user; without map and policy the call is refused, and so is
every unknown policy. -/
theorem C49_no_map (cmps : List Str) :
    (∃ m, addLossMap none (some (str "fill")) cmps = .ok m ∧ Completed false [] cmps m) ∧
    (∃ m, addLossMap none (some (str "fill_all")) cmps = .ok m ∧ Completed true [] cmps m) ∧
    addLossMap none none cmps = .error .valueError ∧
    (∀ given p, (∀ rows, given = some rows → rows ≠ [] ∧ PlainIds rows) → p ≠ str "fill" → p ≠ str "fill_all" →
      addLossMap given (some p) cmps = .error .valueError) := by
  have hf : str "fill_all" ≠ str "fill" := by decide
  refine ⟨⟨_, ?_, completed_of_perm false [] [] cmps (List.Perm.refl _)⟩,
    ⟨_, ?_, completed_of_perm true [] [] cmps (List.Perm.refl _)⟩, rfl, ?_⟩
  · simp [addLossMap, startMap]
  · simp [addLossMap, startMap, hf]
  · intro given p h0 h2 h3
    obtain ⟨m, h1⟩ : ∃ m, startMap given = .ok m := by
      cases given with
      | none => exact ⟨_, rfl⟩
      | some rows => exact ⟨_, userMap_plain rows (h0 rows rfl).1 (h0 rows rfl).2⟩
    unfold addLossMap
    rw [if_neg (by simp), h1]
    simp only
    rw [if_neg h2, if_neg h3]

theorem maxLen_two (ls : List Str) (hne : ls ≠ []) (h : ∀ l ∈ ls, '-' ∉ l) :
    Labels.maxLen ((ls.map fun l => str "DMG" ++ '-' :: l).map (splitChar '-')) = 2 := by
  have hD : '-' ∉ str "DMG" := by decide
  have e : ∀ l ∈ ls, splitChar '-' (str "DMG" ++ '-' :: l) = [str "DMG", l] := by
    intro l hl
    rw [splitChar_append_sep _ _ _ hD, splitChar_no_sep _ _ (h l hl)]
  unfold Labels.maxLen
  induction ls with
  | nil => exact absurd rfl hne
  | cons a ls ih =>
    simp only [List.map_cons, List.foldr_cons]
    rw [e a (by simp)]
    by_cases hls : ls = []
    · subst hls; simp
    · rw [ih hls (fun l hl => h l (List.mem_cons_of_mem _ hl)) fun l hl => e l (List.mem_cons_of_mem _ hl)]
      simp

theorem userMap_flagged (rows : LossMap) (hne : rows ≠ []) (h : ∀ r ∈ rows, '-' ∉ r.1) :
    ∃ m, userMap (rows.map fun r => (str "DMG" ++ '-' :: r.1, r.2)) = .ok m ∧ m.Perm rows := by
  have hD : '-' ∉ str "DMG" := by decide
  have e : ∀ r ∈ rows, splitChar '-' (str "DMG" ++ '-' :: r.1) = [str "DMG", r.1] := by
    intro r hr
    rw [splitChar_append_sep _ _ _ hD, splitChar_no_sep _ _ (h r hr)]
  unfold userMap
  have hlab : (rows.map fun r => (str "DMG" ++ '-' :: r.1, r.2)).map (·.1) =
      (rows.map (·.1)).map fun l => str "DMG" ++ '-' :: l := by
    rw [List.map_map, List.map_map]; rfl
  have h1 : Labels.toMulti (.simple ((rows.map fun r => (str "DMG" ++ '-' :: r.1, r.2)).map (·.1))) =
      .ok (.multi 2 (rows.map fun r => [str "DMG", r.1])) := by
    rw [hlab]
    unfold Labels.toMulti
    simp only
    rw [if_neg (by simpa using hne), maxLen_two _ (by simpa using hne) (by
      intro l hl
      obtain ⟨r, hr, rfl⟩ := List.mem_map.1 hl
      exact h r hr), if_pos (by omega)]
    congr 2
    rw [List.map_map, List.map_map, List.map_map]
    apply List.map_congr_left
    intro r hr
    simp only [Function.comp_apply, e r hr]
    rfl
  rw [h1]
  simp only
  have hzip : (rows.map fun r => [str "DMG", r.1]).zip
      ((rows.map fun r => (str "DMG" ++ '-' :: r.1, r.2)).map (·.2)) = rows.map fun r => ([str "DMG", r.1], r.2) := by
    rw [List.map_map, List.zip_map', ]
    rfl
  rw [hzip]
  set sorted := pySort (fun a b => FileIO.labelLe a.1 b.1) (rows.map fun r => ([str "DMG", r.1], r.2)) with hs
  have hp : sorted.Perm (rows.map fun r => ([str "DMG", r.1], r.2)) := pySort_perm _ _
  rw [if_pos]
  · refine ⟨_, rfl, ?_⟩
    refine (hp.map _).trans ?_
    rw [List.map_map]
    have : ((fun (r : List Str × Str) => (r.1.getD 1 [], r.2)) ∘ fun (r : Str × Str) => ([str "DMG", r.1], r.2)) = id := by
      funext r; rfl
    rw [this, List.map_id]
  · rw [List.any_eq_true]
    obtain ⟨r, hr⟩ := List.exists_mem_of_ne_nil rows hne
    exact ⟨([str "DMG", r.1], r.2), hp.mem_iff.2 (List.mem_map.2 ⟨r, hr, rfl⟩), by simp⟩

/-- C49: the deprecated form, in which every label has the prefix `DMG-`, means the same. -/
theorem C49_flagged_map (rows : LossMap) (hne : rows ≠ []) (hids : ∀ r ∈ rows, '-' ∉ r.1) (cmps : List Str) :
    ∃ m, addLossMap (some (rows.map fun r => (str "DMG-" ++ r.1, r.2))) (some (str "fill")) cmps = .ok m ∧
      Completed false rows cmps m := by
  obtain ⟨m, h1, h2⟩ := userMap_flagged rows hne hids
  refine ⟨_, ?_, completed_of_perm false rows m cmps h2⟩
  have : (rows.map fun r => (str "DMG-" ++ r.1, r.2)) = rows.map fun r => (str "DMG" ++ '-' :: r.1, r.2) := rfl
  rw [this]
  simp only [addLossMap, startMap, h1]
  simp

/-- When only some labels have the prefix, the other entries lose their names: the entry for `B`
is gone and `B` is mapped to itself. -/
theorem C49_mixed_flags_lose_entries :
    addLossMap (some [(str "DMG-A", str "x"), (str "B", str "y")]) (some (str "fill")) [str "A", str "B"] =
      .ok [([], str "y"), (str "A", str "x"), (str "B", str "B")] := by decide +kernel

/-- An id that contains the letters of the flag spoils the labels of all rows. -/
theorem C49_flag_inside_id :
    addLossMap (some [(str "ADMG", str "x"), (str "BC", str "y")]) none [str "ADMG", str "BC"] =
      .ok [(str "D", str "x"), (str "C", str "y")] := by decide +kernel

example : PlainIds [(str "B.10", str "x"), (str "excessiveRID", str "irreparable")] ∧
    addLossMap (some [(str "B.10", str "x")]) (some (str "fill")) [str "D.1", str "excessiveRID", str "B.10"] =
      .ok [(str "B.10", str "x"), (str "D.1", str "D.1")] := by
  refine ⟨?_, by decide +kernel⟩
  intro r hr
  simp only [List.mem_cons, List.not_mem_nil, or_false] at hr
  rcases hr with rfl | rfl
  · exact ⟨by decide, by rw [← hasInfix_iff]; decide⟩
  · exact ⟨by decide, by rw [← hasInfix_iff]; decide⟩

/-! ## C78 -/

/-- C78, the part that holds: whatever the order in which the set of components is iterated, the
completed map has the same rows. -/
theorem C78_same_rows_partial (given : Option LossMap) (policy : Option Str) (o1 o2 : List Str) (hp : o1.Perm o2)
    (m1 m2 : LossMap) (h1 : addLossMap given policy o1 = .ok m1) (h2 : addLossMap given policy o2 = .ok m2) :
    m1.Perm m2 := by
  unfold addLossMap at h1 h2
  by_cases hn : given = none ∧ policy = none
  · rw [if_pos hn] at h1; simp at h1
  · rw [if_neg hn] at h1 h2
    cases hu : startMap given with
    | error e => rw [hu] at h1; simp at h1
    | ok m =>
      rw [hu] at h1 h2
      simp only at h1 h2
      cases policy with
      | none =>
        simp only [Except.ok.injEq] at h1 h2
        rw [← h1, ← h2]
      | some p =>
        simp only at h1 h2
        have key : ∀ all, (o1.foldl (fillStep all) m).Perm (o2.foldl (fillStep all) m) := by
          intro all
          obtain ⟨a1, e1, n1, s1⟩ := fill_spec all o1 m
          obtain ⟨a2, e2, n2, s2⟩ := fill_spec all o2 m
          rw [e1, e2]
          apply List.Perm.append_left
          rw [List.perm_ext_iff_of_nodup (List.Nodup.of_map _ n1) (List.Nodup.of_map _ n2)]
          rintro ⟨c, v⟩
          rw [s1, s2, hp.mem_iff]
        by_cases hf : p = str "fill"
        · rw [if_pos hf] at h1 h2
          cases h1; cases h2; exact key false
        · rw [if_neg hf] at h1 h2
          by_cases hf : p = str "fill_all"
          · rw [if_pos hf] at h1 h2
            cases h1; cases h2; exact key true
          · rw [if_neg hf] at h1; simp at h1

/-- C78 does not hold: the random variables of the consequences are created in the order of the rows
of the loss map, which is the order in which the set of components is iterated (it changes between
processes).  With the same draws of the generator the component `A` gets another sample. -/
theorem C78_order_changes_sample :
    ∃ (o1 o2 : List Str) (m1 m2 : LossMap) (draws : Nat → List ℚ) (u1 u2 : Dict Str (List ℚ)), o1.Perm o2 ∧
      addLossMap none (some (str "fill")) o1 = .ok m1 ∧ addLossMap none (some (str "fill")) o2 = .ok m2 ∧
      UQ.assignUni .monteCarlo 1 (fun _ => []) draws 0 (rvComponents m1 o1) [] = .ok u1 ∧
      UQ.assignUni .monteCarlo 1 (fun _ => []) draws 0 (rvComponents m2 o2) [] = .ok u2 ∧
      u1.get? (str "A") ≠ u2.get? (str "A") := by
  refine ⟨[str "A", str "B"], [str "B", str "A"], [(str "A", str "A"), (str "B", str "B")],
    [(str "B", str "B"), (str "A", str "A")], fun i => [(i : ℚ)],
    [(str "A", [0]), (str "B", [1])], [(str "B", [0]), (str "A", [1])], List.Perm.swap _ _ _, ?_⟩
  refine ⟨by decide +kernel, by decide +kernel, by decide +kernel, by decide +kernel, by decide +kernel⟩

/-! ## C50 -/

/-- The cell `x` is the first one that is not missing, among the rows of the key `k` in the column `c`. -/
def FirstDefined (rows : List (Key × Row)) (k : Key) (c : Str × Str) (x : Cell) : Prop :=
  ∃ before row after, rows = before ++ (k, row) :: after ∧ row c = some x ∧ ∀ r ∈ before, r.1 = k → r.2 c = none

theorem firstCell_some (rows : List (Key × Row)) (k : Key) (c : Str × Str) (x : Cell) :
    firstCell rows k c = some x ↔ FirstDefined rows k c x := by
  unfold FirstDefined
  induction rows with
  | nil => simp [firstCell]
  | cons r rows ih =>
    unfold firstCell at ih ⊢
    rw [List.findSome?_cons]
    by_cases hr : r.1 = k
    · rw [if_pos hr]
      cases hc : r.2 c with
      | some y =>
        simp only [Option.some.injEq]
        constructor
        · rintro rfl
          exact ⟨[], r.2, rows, by rw [← hr]; rfl, hc, by simp⟩
        · rintro ⟨b, row, a, h1, h2, h3⟩
          cases b with
          | nil =>
            simp only [List.nil_append, List.cons.injEq] at h1
            obtain ⟨rfl, rfl⟩ := h1
            have h2' := h2.symm.trans (show row c = _ from hc)
            cases h2'; rfl
          | cons b0 b =>
            simp only [List.cons_append, List.cons.injEq] at h1
            obtain ⟨rfl, rfl⟩ := h1
            have := h3 r (by simp) hr
            rw [hc] at this; simp at this
      | none =>
        simp only
        rw [ih]
        constructor
        · rintro ⟨b, row, a, h1, h2, h3⟩
          refine ⟨r :: b, row, a, by rw [h1]; rfl, h2, ?_⟩
          intro s hs hk
          rcases List.mem_cons.1 hs with rfl | hs
          · exact hc
          · exact h3 s hs hk
        · rintro ⟨b, row, a, h1, h2, h3⟩
          cases b with
          | nil =>
            simp only [List.nil_append, List.cons.injEq] at h1
            obtain ⟨rfl, rfl⟩ := h1
            have h2' := h2.symm.trans (show row c = _ from hc)
            simp at h2'
          | cons b0 b =>
            simp only [List.cons_append, List.cons.injEq] at h1
            obtain ⟨rfl, rfl⟩ := h1
            exact ⟨b, row, a, rfl, h2, fun s hs => h3 s (List.mem_cons_of_mem _ hs)⟩
    · rw [if_neg hr]
      simp only
      rw [ih]
      constructor
      · rintro ⟨b, row, a, h1, h2, h3⟩
        refine ⟨r :: b, row, a, by rw [h1]; rfl, h2, ?_⟩
        intro s hs hk
        rcases List.mem_cons.1 hs with rfl | hs
        · exact absurd hk hr
        · exact h3 s hs hk
      · rintro ⟨b, row, a, h1, h2, h3⟩
        cases b with
        | nil =>
          simp only [List.nil_append, List.cons.injEq] at h1
          obtain ⟨rfl, rfl⟩ := h1
          exact absurd rfl hr
        | cons b0 b =>
          simp only [List.cons_append, List.cons.injEq] at h1
          obtain ⟨rfl, rfl⟩ := h1
          exact ⟨b, row, a, rfl, h2, fun s hs => h3 s (List.mem_cons_of_mem _ hs)⟩

theorem firstCell_append (a b : List (Key × Row)) (k : Key) (c : Str × Str) :
    firstCell (a ++ b) k c = (firstCell a k c).or (firstCell b k c) := by
  unfold firstCell
  rw [List.findSome?_append]

theorem groupFirst_keys (rows : List (Key × Row)) (k : Key) :
    k ∈ (groupFirst rows).map (·.1) ↔ k ∈ rows.map (·.1) := by
  unfold groupFirst
  rw [List.map_map]
  have : ((fun (r : Key × Row) => r.1) ∘ fun k => (k, firstCell rows k)) = id := rfl
  rw [this, List.map_id, mem_pySort, FileIO.uniqueVals_mem]
  simp

theorem groupFirst_nodup (rows : List (Key × Row)) : ((groupFirst rows).map (·.1)).Nodup := by
  unfold groupFirst
  rw [List.map_map]
  have : ((fun (r : Key × Row) => r.1) ∘ fun k => (k, firstCell rows k)) = id := rfl
  rw [this, List.map_id]
  exact (pySort_perm _ _).nodup_iff.2 (FileIO.uniqueVals_nodup [] _)

theorem firstCell_none_of_not_mem (rows : List (Key × Row)) (k : Key) (c : Str × Str) (h : k ∉ rows.map (·.1)) :
    firstCell rows k c = none := by
  unfold firstCell
  rw [List.findSome?_eq_none_iff]
  intro r hr
  rw [if_neg]
  rintro rfl
  exact h (List.mem_map.2 ⟨r, hr, rfl⟩)

/-- A table whose rows have distinct keys and are given by a function of the key. -/
theorem firstCell_map (ks : List Key) (f : Key → Row) (k : Key) (c : Str × Str) :
    firstCell (ks.map fun k => (k, f k)) k c = if k ∈ ks then f k c else none := by
  induction ks with
  | nil => rfl
  | cons a ks ih =>
    unfold firstCell at ih ⊢
    rw [List.map_cons, List.findSome?_cons]
    by_cases h : a = k
    · subst h
      simp only [if_true, List.mem_cons, true_or]
      cases hc : f a c with
      | some x => rfl
      | none =>
        simp only
        rw [ih]
        split
        · exact hc
        · rfl
    · have h' : ¬ k = a := fun x => h x.symm
      simp only [if_neg h, List.mem_cons, h', false_or]
      exact ih

theorem firstCell_groupFirst (rows : List (Key × Row)) (k : Key) (c : Str × Str) :
    firstCell (groupFirst rows) k c = firstCell rows k c := by
  unfold groupFirst
  rw [firstCell_map]
  split
  · rfl
  · rename_i h
    rw [mem_pySort, FileIO.uniqueVals_mem] at h
    symm
    apply firstCell_none_of_not_mem
    intro hk
    exact h ⟨hk, by simp⟩

/-- The table that results from loading the tables `tables` one after the other. -/
def IsMerge (tables : List (List (Key × Row))) (p : Option (List (Key × Row))) : Prop :=
  (tables = [] ∧ p = none) ∨
  (tables ≠ [] ∧ ∃ q, p = some q ∧ (q.map (·.1)).Nodup ∧
    ∀ k row, (k, row) ∈ q ↔ k ∈ (tables.flatten).map (·.1) ∧ row = firstCell tables.flatten k)

theorem isMerge_snoc (tables : List (List (Key × Row))) (p : Option (List (Key × Row))) (h : IsMerge tables p)
    (t : List (Key × Row)) : IsMerge (tables ++ [t]) (some (addSource p t)) := by
  right
  refine ⟨by simp, _, rfl, ?_⟩
  have hmem : ∀ rows : List (Key × Row), ∀ k row, (k, row) ∈ groupFirst rows ↔ k ∈ rows.map (·.1) ∧ row = firstCell rows k := by
    intro rows k row
    unfold groupFirst
    rw [List.mem_map]
    constructor
    · rintro ⟨x, hx, hx2⟩
      cases hx2
      rw [mem_pySort, FileIO.uniqueVals_mem] at hx
      exact ⟨hx.1, rfl⟩
    · rintro ⟨h1, rfl⟩
      exact ⟨k, by rw [mem_pySort, FileIO.uniqueVals_mem]; exact ⟨h1, by simp⟩, rfl⟩
  rcases h with ⟨rfl, rfl⟩ | ⟨hne, q, rfl, hnd, hq⟩
  · refine ⟨groupFirst_nodup t, fun k row => ?_⟩
    simp only [addSource]
    rw [hmem]
    simp
  · refine ⟨groupFirst_nodup _, fun k row => ?_⟩
    simp only [addSource]
    rw [hmem]
    have hkeys : ∀ k, k ∈ q.map (·.1) ↔ k ∈ (tables.flatten).map (·.1) := by
      intro k
      rw [List.mem_map]
      constructor
      · rintro ⟨x, hx, rfl⟩
        exact ((hq x.1 x.2).1 hx).1
      · intro hk
        exact ⟨_, (hq k _).2 ⟨hk, rfl⟩, rfl⟩
    have hcell : ∀ c, firstCell q k c = firstCell tables.flatten k c := by
      intro c
      by_cases hk : k ∈ q.map (·.1)
      · have hkk := hk
        obtain ⟨x, hx, hx1⟩ := List.mem_map.1 hk
        subst hx1
        have hxr := ((hq x.1 x.2).1 hx).2
        rw [← hxr]
        cases hc : x.2 c with
        | some y =>
          rw [firstCell_some]
          obtain ⟨b, a, hba⟩ := List.append_of_mem hx
          refine ⟨b, x.2, a, hba, hc, ?_⟩
          intro r hr hrk
          have : r = x := List.inj_on_of_nodup_map hnd (hba ▸ List.mem_append_left _ hr) hx hrk
          exfalso
          rw [hba, List.map_append, List.nodup_append] at hnd
          exact hnd.2.2 r.1 (List.mem_map.2 ⟨r, hr, rfl⟩) x.1 (by simp) hrk
        | none =>
          unfold firstCell
          rw [List.findSome?_eq_none_iff]
          intro r hr
          split
          · rename_i hrk
            have : r = x := List.inj_on_of_nodup_map hnd hr hx hrk
            rw [this, hc]
          · rfl
      · rw [firstCell_none_of_not_mem _ _ _ hk, firstCell_none_of_not_mem]
        rw [← hkeys]; exact hk
    rw [List.map_append, List.mem_append, hkeys, List.flatten_append, List.map_append, List.mem_append]
    have e : firstCell (q ++ t) k = firstCell (tables.flatten ++ [t].flatten) k := by
      funext c
      rw [firstCell_append, firstCell_append, hcell]
      simp
    rw [e]
    simp

/-- The tables for damage states, in the order of the sources. -/
def dsTables (sources : List Source) : List (List (Key × Row)) :=
  (sources.filter fun s => s.cols.any fun c => c.1 == str "DS1").map (·.rows)

/-- The tables of loss functions, in the order of the sources. -/
def lfTables (sources : List Source) : List (List (Key × Row)) :=
  (sources.filter fun s => !(s.cols.any fun c => c.1 == str "DS1")).map (·.rows)

theorem loadSources_merge (ss : List Source) : ∀ (ds lf : List (List (Key × Row))) (p p' : Params),
    IsMerge ds p.ds → IsMerge lf p.lf → loadSources p ss = .ok p' →
    IsMerge (ds ++ dsTables ss) p'.ds ∧ IsMerge (lf ++ lfTables ss) p'.lf := by
  induction ss with
  | nil =>
    intro ds lf p p' h1 h2 h
    simp only [loadSources, Except.ok.injEq] at h
    subst h
    simpa [dsTables, lfTables] using ⟨h1, h2⟩
  | cons s ss ih =>
    intro ds lf p p' h1 h2 h
    unfold loadSources at h
    cases hs : loadSource p s with
    | error e => rw [hs] at h; simp at h
    | ok p1 =>
      rw [hs] at h
      simp only at h
      unfold loadSource at hs
      split at hs
      · simp at hs
      · split at hs
        · simp at hs
        · by_cases hds : hasTop (str "DS1") s = true
          · rw [if_pos hds] at hs
            cases hs
            obtain ⟨g1, g2⟩ := ih (ds ++ [s.rows]) lf { p with ds := some (addSource p.ds s.rows) } p' (isMerge_snoc ds p.ds h1 s.rows) h2 h
            unfold hasTop at hds
            refine ⟨?_, ?_⟩
            · have : ds ++ dsTables (s :: ss) = ds ++ [s.rows] ++ dsTables ss := by
                simp only [dsTables, List.filter_cons, hds, if_true, List.map_cons, List.append_assoc, List.singleton_append]
              rw [this]; exact g1
            · have : lfTables (s :: ss) = lfTables ss := by
                simp only [lfTables, List.filter_cons, hds, Bool.not_true, Bool.false_eq_true, if_false]
              rw [this]; exact g2
          · rw [if_neg hds] at hs
            split at hs
            · cases hs
              obtain ⟨g1, g2⟩ := ih ds (lf ++ [s.rows]) { p with lf := some (addSource p.lf s.rows) } p' h1 (isMerge_snoc lf p.lf h2 s.rows) h
              unfold hasTop at hds
              rw [Bool.not_eq_true] at hds
              refine ⟨?_, ?_⟩
              · have : dsTables (s :: ss) = dsTables ss := by
                  simp only [dsTables, List.filter_cons, hds, Bool.false_eq_true, if_false]
                rw [this]; exact g1
              · have : lf ++ lfTables (s :: ss) = lf ++ [s.rows] ++ lfTables ss := by
                  simp only [lfTables, List.filter_cons, hds, Bool.not_false, if_true, List.map_cons, List.append_assoc, List.singleton_append]
                rw [this]; exact g2
            · simp at hs

/-- The definition of the consequence `k` that results from the tables: every cell is the first one
that is not missing. -/
def Merged (tables : List (List (Key × Row))) (k : Key) (row : Row) : Prop :=
  (∃ t ∈ tables, ∃ r, (k, r) ∈ t) ∧ ∀ c x, row c = some x ↔ FirstDefined tables.flatten k c x

theorem merged_iff (tables : List (List (Key × Row))) (k : Key) (row : Row) :
    Merged tables k row ↔ k ∈ (tables.flatten).map (·.1) ∧ row = firstCell tables.flatten k := by
  unfold Merged
  constructor
  · rintro ⟨⟨t, ht, r, hr⟩, h⟩
    refine ⟨List.mem_map.2 ⟨(k, r), List.mem_flatten.2 ⟨t, ht, hr⟩, rfl⟩, ?_⟩
    funext c
    cases hc : row c with
    | some x => exact ((firstCell_some _ _ _ _).2 ((h c x).1 hc)).symm
    | none =>
      cases hf : firstCell tables.flatten k c with
      | none => rfl
      | some x =>
        have := (h c x).2 ((firstCell_some _ _ _ _).1 hf)
        rw [hc] at this; simp at this
  · rintro ⟨h, rfl⟩
    obtain ⟨x, hx, rfl⟩ := List.mem_map.1 h
    obtain ⟨t, ht, hxt⟩ := List.mem_flatten.1 hx
    exact ⟨⟨t, ht, x.2, hxt⟩, fun c y => firstCell_some _ _ _ _⟩

/-- Rows of a model's parameters, none if it has no table. -/
def HasRow (p : Option (List (Key × Row))) (k : Key) (row : Row) : Prop := ∃ q, p = some q ∧ (k, row) ∈ q

theorem clean_spec (tables : List (List (Key × Row))) (p : Option (List (Key × Row))) (hm : IsMerge tables p)
    (m : LossMap) (k : Key) (row : Row) :
    HasRow (clean m p) k row ↔ (∃ c, (c, k.1) ∈ m) ∧ Merged tables k row ∧ row (str "Incomplete", []) ≠ some (.num 1) := by
  rw [merged_iff]
  have hmap : k.1 ∈ m.map (·.2) ↔ ∃ c, (c, k.1) ∈ m := by
    rw [List.mem_map]
    constructor
    · rintro ⟨x, hx, h2⟩; exact ⟨x.1, by rw [← h2]; exact hx⟩
    · rintro ⟨c, hc⟩; exact ⟨_, hc, rfl⟩
  rcases hm with ⟨rfl, rfl⟩ | ⟨_, q, rfl, _, hq⟩
  · simp [HasRow, clean]
  · unfold HasRow clean removeIncomplete dropUnused
    simp only [Option.map_some, Option.some.injEq, exists_eq_left', List.mem_filter, decide_eq_true_eq]
    rw [hq, hmap]
    tauto

/-- C50 does not hold as stated: the definition that is used is not a row of a source but takes, cell
by cell, the first source that has a value.  Proved: exactly these cells are used, for the consequences
in the loss map that are not marked as incomplete by the first source that fills that cell. -/
theorem C50_cellwise (sources : List Source) (m : LossMap) (dvs : List Str) (p : Params) (missing : List Key)
    (h : loadParams sources m dvs = .ok (p, missing)) (k : Key) (row : Row) :
    (HasRow p.ds k row ↔ (∃ c, (c, k.1) ∈ m) ∧ Merged (dsTables sources) k row ∧
      row (str "Incomplete", []) ≠ some (.num 1)) ∧
    (HasRow p.lf k row ↔ (∃ c, (c, k.1) ∈ m) ∧ Merged (lfTables sources) k row ∧
      row (str "Incomplete", []) ≠ some (.num 1)) := by
  unfold loadParams at h
  cases hl : loadSources ⟨none, none⟩ sources with
  | error e => rw [hl] at h; simp at h
  | ok p0 =>
    rw [hl] at h
    simp only [Except.ok.injEq, Prod.mk.injEq] at h
    obtain ⟨rfl, _⟩ := h
    obtain ⟨h1, h2⟩ := loadSources_merge sources [] [] ⟨none, none⟩ p0 (.inl ⟨rfl, rfl⟩) (.inl ⟨rfl, rfl⟩) hl
    rw [List.nil_append] at h1 h2
    exact ⟨clean_spec _ _ h1 m k row, clean_spec _ _ h2 m k row⟩

/-- A table of consequences that can be loaded: it has a column of units in which no decision variable has two
different ones, and columns for damage states or for loss functions. -/
structure Loadable (s : Source) : Prop where
  hasUnits : (str "DV", str "Unit") ∈ s.cols
  oneUnit : ∀ a ∈ s.rows, ∀ b ∈ s.rows, a.1.2 = b.1.2 → ∀ u v, a.2 (str "DV", str "Unit") = some u →
    b.2 (str "DV", str "Unit") = some v → u = v
  kind : (∃ c ∈ s.cols, c.1 = str "DS1") ∨ ∃ c ∈ s.cols, c.1 = str "LossFunction"

theorem unitsAgree_iff (s : Source) : unitsAgree s = true ↔ ∀ a ∈ s.rows, ∀ b ∈ s.rows, a.1.2 = b.1.2 →
    ∀ u v, a.2 (str "DV", str "Unit") = some u → b.2 (str "DV", str "Unit") = some v → u = v := by
  unfold unitsAgree
  simp only [List.all_eq_true, decide_eq_true_eq]
  constructor
  · intro h a ha b hb hab u v hu hv
    have := h a ha b hb hab (by simp [hu]) (by simp [hv])
    rw [hu, hv] at this
    exact Option.some.inj this
  · intro h a ha b hb hab hu hv
    obtain ⟨u, hu⟩ := Option.ne_none_iff_exists'.1 hu
    obtain ⟨v, hv⟩ := Option.ne_none_iff_exists'.1 hv
    rw [hu, hv, h a ha b hb hab u v hu hv]

theorem hasTop_iff (x : Str) (s : Source) : hasTop x s = true ↔ ∃ c ∈ s.cols, c.1 = x := by
  unfold hasTop
  simp

theorem loadSource_iff (p : Params) (s : Source) : (∃ q, loadSource p s = .ok q) ↔ Loadable s := by
  unfold loadSource
  by_cases h1 : (str "DV", str "Unit") ∉ s.cols
  · rw [if_pos h1]
    exact ⟨fun ⟨q, h⟩ => by simp at h, fun h => absurd h.hasUnits h1⟩
  · rw [if_neg h1]
    by_cases h2 : unitsAgree s = false
    · rw [if_pos h2]
      refine ⟨fun ⟨q, h⟩ => by simp at h, fun h => ?_⟩
      rw [(unitsAgree_iff s).2 h.oneUnit] at h2
      cases h2
    · rw [if_neg h2]
      have h2' := (unitsAgree_iff s).1 (by simpa using h2)
      by_cases h3 : hasTop (str "DS1") s = true
      · rw [if_pos h3]
        exact ⟨fun _ => ⟨not_not.1 h1, h2', .inl ((hasTop_iff _ _).1 h3)⟩, fun _ => ⟨_, rfl⟩⟩
      · rw [if_neg h3]
        by_cases h4 : hasTop (str "LossFunction") s = true
        · rw [if_pos h4]
          exact ⟨fun _ => ⟨not_not.1 h1, h2', .inr ((hasTop_iff _ _).1 h4)⟩, fun _ => ⟨_, rfl⟩⟩
        · rw [if_neg h4]
          refine ⟨fun ⟨q, h⟩ => by simp at h, fun h => ?_⟩
          rcases h.kind with h | h
          · exact absurd ((hasTop_iff _ _).2 h) h3
          · exact absurd ((hasTop_iff _ _).2 h) h4

/-- C50: parameters are accepted exactly if every source is a table that can be loaded. -/
theorem C50_accepted_iff (sources : List Source) (m : LossMap) (dvs : List Str) :
    (∃ r, loadParams sources m dvs = .ok r) ↔ ∀ s ∈ sources, Loadable s := by
  have h0 : ∀ p : Params, (∃ q, loadSources p sources = .ok q) ↔ ∀ s ∈ sources, Loadable s := by
    induction sources with
    | nil => intro p; simp [loadSources]
    | cons s ss ih =>
      intro p
      simp only [loadSources, List.forall_mem_cons]
      rw [← loadSource_iff p s]
      cases hs : loadSource p s with
      | error e => simp
      | ok q => simp [ih q]
  rw [← h0 ⟨none, none⟩]
  unfold loadParams
  cases loadSources ⟨none, none⟩ sources with
  | error e => simp
  | ok p => simp

/-- The row of the source with the highest priority. -/
def FirstRow (tables : List (List (Key × Row))) (k : Key) (row : Row) : Prop :=
  ∃ before after, tables.flatten = before ++ (k, row) :: after ∧ ∀ r ∈ before, r.1 ≠ k

/-- C50, the part that holds: the row of the source with the highest priority is used as it is if it
has a value in every column in which another row of the same consequence has one.  Missing: without
this condition the claim is false (`C50_mixture`). -/
theorem C50_first_row_partial (sources : List Source) (m : LossMap) (dvs : List Str) (p : Params) (missing : List Key)
    (h : loadParams sources m dvs = .ok (p, missing)) (k : Key) (row used : Row)
    (hu : HasRow p.ds k used) (hr : FirstRow (dsTables sources) k row)
    (hfull : ∀ t ∈ dsTables sources, ∀ r, (k, r) ∈ t → ∀ c, r c ≠ none → row c ≠ none) : used = row := by
  obtain ⟨_, hm, _⟩ := ((C50_cellwise sources m dvs p missing h k used).1).1 hu
  obtain ⟨before, after, h1, h2⟩ := hr
  funext c
  cases hc : row c with
  | some x =>
    exact (hm.2 c x).2 ⟨before, row, after, h1, hc, fun r hr hk => absurd hk (h2 r hr)⟩
  | none =>
    cases hc2 : used c with
    | none => rfl
    | some x =>
      exfalso
      obtain ⟨b, r, a, g1, g2, _⟩ := (hm.2 c x).1 hc2
      have : (k, r) ∈ (dsTables sources).flatten := by rw [g1]; simp
      obtain ⟨t, ht, htr⟩ := List.mem_flatten.1 this
      exact hfull t ht r htr c (by rw [g2]; simp) hc

def unitCol : Str × Str := (str "DV", str "Unit")
def ds1Col : Str × Str := (str "DS1", str "Theta_0")
def ds2Col : Str × Str := (str "DS2", str "Theta_0")
def incCol : Str × Str := (str "Incomplete", [])

/-- The row of the user (one damage state) and the row of the library (two damage states). -/
def userRow : Row := fun c => if c = unitCol then some (.text (str "USD")) else if c = ds1Col then some (.num 10) else none
def libRow : Row := fun c => if c = unitCol then some (.text (str "USD")) else if c = ds1Col then some (.num 3)
  else if c = ds2Col then some (.num 7) else none
/-- A row of the library that is marked as incomplete. -/
def libIncomplete : Row := fun c => if c = unitCol then some (.text (str "USD")) else if c = incCol then some (.num 1) else none

/-- C50 fails: the user redefines a consequence with a single damage state; the damage state 2 of the
library is still used, so the definition is a mixture of both. -/
theorem C50_mixture : ∃ p missing used, loadParams
      [⟨[unitCol, ds1Col], [((str "A", str "Cost"), userRow)]⟩,
       ⟨[unitCol, ds1Col, ds2Col], [((str "A", str "Cost"), libRow)]⟩] [(str "A", str "A")] [str "Cost"] = .ok (p, missing) ∧
    HasRow p.ds (str "A", str "Cost") used ∧ used ds1Col = some (.num 10) ∧ used ds2Col = some (.num 7) := by
  refine ⟨_, _, firstCell [((str "A", str "Cost"), firstCell [((str "A", str "Cost"), userRow)] (str "A", str "Cost")),
    ((str "A", str "Cost"), libRow)] (str "A", str "Cost"), rfl, ⟨_, rfl, ?_⟩, by decide +kernel, by decide +kernel⟩
  exact List.mem_cons_self

/-- C50 fails in the other direction as well: the definition of the user is complete, but because the
library marks its own row as incomplete, the consequence is removed. -/
theorem C50_incomplete_leaks : ∃ p, loadParams
      [⟨[unitCol, ds1Col], [((str "A", str "Cost"), userRow)]⟩,
       ⟨[unitCol, ds1Col, incCol], [((str "A", str "Cost"), libIncomplete)]⟩] [(str "A", str "A")] [str "Cost"] =
        .ok (p, [(str "A", str "Cost")]) ∧
    ∀ row, ¬ HasRow p.ds (str "A", str "Cost") row := by
  refine ⟨_, rfl, ?_⟩
  rintro row ⟨q, h1, h2⟩
  cases h1
  exact absurd h2 (by
    have : (removeIncomplete (dropUnused [(str "A", str "A")]
      (addSource (some (addSource none [((str "A", str "Cost"), userRow)])) [((str "A", str "Cost"), libIncomplete)]))).length = 0 := by
        decide +kernel
    rw [List.length_eq_zero_iff] at this
    exact fun h => (List.not_mem_nil (this ▸ h : (_, row) ∈ ([] : List (Key × Row)))).elim)

/-! ## C57 -/

/-- C57: the consequences reported as missing are exactly the pairs of an entry of the loss map and a
decision variable for which neither model has parameters; each is reported once. -/
theorem C57_missing_exact (sources : List Source) (m : LossMap) (dvs : List Str) (p : Params) (missing : List Key)
    (h : loadParams sources m dvs = .ok (p, missing)) :
    missing.Nodup ∧ ∀ id dv, (id, dv) ∈ missing ↔
      (∃ c, (c, id) ∈ m) ∧ dv ∈ dvs ∧ (∀ row, ¬ HasRow p.ds (id, dv) row) ∧ (∀ row, ¬ HasRow p.lf (id, dv) row) := by
  unfold loadParams at h
  cases hl : loadSources ⟨none, none⟩ sources with
  | error e => rw [hl] at h; simp at h
  | ok p0 =>
    rw [hl] at h
    simp only [Except.ok.injEq, Prod.mk.injEq] at h
    obtain ⟨rfl, rfl⟩ := h
    have hav : ∀ (q : Option (List (Key × Row))) (k : Key), k ∉ available q ↔ ∀ row, ¬ HasRow q k row := by
      intro q k
      unfold available HasRow
      cases q with
      | none => simp
      | some q =>
        simp only [Option.some.injEq, exists_eq_left', List.mem_map, not_exists, not_and]
        constructor
        · intro h row hr; exact h _ hr rfl
        · rintro h x hx rfl; exact h x.2 hx
    unfold missingOf
    refine ⟨(FileIO.uniqueVals_nodup [] _).filter _, fun id dv => ?_⟩
    rw [List.mem_filter, FileIO.uniqueVals_mem, decide_eq_true_eq, hav, hav]
    simp only [List.mem_flatMap, List.mem_map, Prod.mk.injEq, List.not_mem_nil, not_false_eq_true, and_true]
    constructor
    · rintro ⟨⟨dv', h1, r, h2, rfl, rfl⟩, h3, h4⟩
      exact ⟨⟨r.1, h2⟩, h1, h3, h4⟩
    · rintro ⟨⟨c, h1⟩, h2, h3, h4⟩
      exact ⟨⟨dv, h2, (c, id), h1, rfl, rfl⟩, h3, h4⟩

/-- C57 in terms of the sources: a required consequence is missing exactly if, in the tables of each
kind, it is not defined or the cell that marks incomplete definitions ends up as one. -/
theorem C57_missing_sources (sources : List Source) (m : LossMap) (dvs : List Str) (p : Params) (missing : List Key)
    (h : loadParams sources m dvs = .ok (p, missing)) (id dv : Str) :
    (id, dv) ∈ missing ↔ (∃ c, (c, id) ∈ m) ∧ dv ∈ dvs ∧
      ∀ tables ∈ [dsTables sources, lfTables sources],
        (∃ t ∈ tables, ∃ r, ((id, dv), r) ∈ t) → FirstDefined tables.flatten (id, dv) (str "Incomplete", []) (.num 1) := by
  rw [(C57_missing_exact sources m dvs p missing h).2 id dv]
  have key : ∀ tables, (∃ c, (c, id) ∈ m) →
      ((∀ row, ¬ ((∃ c, (c, id) ∈ m) ∧ Merged tables (id, dv) row ∧ row (str "Incomplete", []) ≠ some (.num 1))) ↔
      ((∃ t ∈ tables, ∃ r, ((id, dv), r) ∈ t) → FirstDefined tables.flatten (id, dv) (str "Incomplete", []) (.num 1))) := by
    intro tables hm
    constructor
    · intro h1 h2
      by_contra h3
      apply h1 (firstCell tables.flatten (id, dv))
      exact ⟨hm, ⟨h2, fun c x => firstCell_some _ _ _ _⟩, fun h4 => h3 ((firstCell_some _ _ _ _).1 h4)⟩
    · rintro h1 row ⟨_, h2, h3⟩
      exact h3 ((h2.2 _ _).2 (h1 h2.1))
  constructor
  · rintro ⟨h1, h2, h3, h4⟩
    refine ⟨h1, h2, ?_⟩
    intro tables ht
    simp only [List.mem_cons, List.not_mem_nil, or_false] at ht
    rcases ht with rfl | rfl
    · apply (key _ h1).1
      intro row
      rw [← (C50_cellwise sources m dvs p missing h (id, dv) row).1]
      exact h3 row
    · apply (key _ h1).1
      intro row
      rw [← (C50_cellwise sources m dvs p missing h (id, dv) row).2]
      exact h4 row
  · rintro ⟨h1, h2, h3⟩
    refine ⟨h1, h2, fun row => ?_, fun row => ?_⟩
    · rw [(C50_cellwise sources m dvs p missing h (id, dv) row).1]
      exact (key _ h1).2 (h3 _ (by simp)) row
    · rw [(C50_cellwise sources m dvs p missing h (id, dv) row).2]
      exact (key _ h1).2 (h3 _ (by simp)) row

/-- Two decision variables are required, the library defines one of them. -/
example : ∃ p, loadParams [⟨[unitCol, ds1Col, ds2Col], [((str "A", str "Cost"), libRow)]⟩] [(str "C1", str "A")]
    [str "Cost", str "Time"] = .ok (p, [(str "A", str "Time")]) := ⟨_, rfl⟩

end Verif.LossParams
