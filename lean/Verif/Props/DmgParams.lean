import Verif.Model.DmgParams
import Verif.Lemmas.PySort

/-! # Property C40: the first definition of a component wins -/

namespace Verif.DmgParams

theorem get?_firsts (rows : List (Str × Row)) : ∀ (seen : List Str) (c : Str),
    Dict.get? (firsts seen rows) c = if c ∈ seen then none else Dict.get? rows c := by
  induction rows with
  | nil => intro seen c; simp [firsts]
  | cons r rows ih =>
    intro seen c
    obtain ⟨k, v⟩ := r
    unfold firsts
    by_cases hk : k ∈ seen
    · rw [if_pos hk, ih]
      by_cases hc : c ∈ seen
      · rw [if_pos hc, if_pos hc]
      · rw [if_neg hc, if_neg hc, Dict.get?_cons, if_neg]
        rintro rfl; exact hc hk
    · rw [if_neg hk, Dict.get?_cons, ih, Dict.get?_cons]
      by_cases hkc : k = c
      · subst hkc; rw [if_pos rfl, if_neg hk, if_pos rfl]
      · rw [if_neg hkc, if_neg hkc]
        have hck : ¬ c = k := fun h => hkc h.symm
        by_cases hc : c ∈ seen
        · rw [if_pos hc, if_pos (by simp [hc])]
        · rw [if_neg hc, if_neg (by simp [hc, hck])]

theorem firsts_nodup (rows : List (Str × Row)) : ∀ seen, ((firsts seen rows).map (·.1)).Nodup ∧
    ∀ k ∈ (firsts seen rows).map (·.1), k ∉ seen := by
  induction rows with
  | nil => intro seen; simp [firsts]
  | cons r rows ih =>
    intro seen
    unfold firsts
    by_cases hk : r.1 ∈ seen
    · rw [if_pos hk]; exact ih seen
    · rw [if_neg hk]
      obtain ⟨h1, h2⟩ := ih (r.1 :: seen)
      refine ⟨?_, ?_⟩
      · rw [List.map_cons, List.nodup_cons]
        exact ⟨fun h => h2 _ h (by simp), h1⟩
      · intro k hkk
        rw [List.map_cons, List.mem_cons] at hkk
        rcases hkk with rfl | hkk
        · exact hk
        · exact fun h => h2 k hkk (List.mem_cons_of_mem _ h)

theorem get?_perm {a b : List (Str × Row)} (h : a.Perm b) (ha : (a.map (·.1)).Nodup) (c : Str) :
    Dict.get? a c = Dict.get? b c := by
  have hb : (b.map (·.1)).Nodup := (h.map _).nodup_iff.1 ha
  cases hg : Dict.get? a c with
  | some v =>
    exact (Dict.get?_of_mem (d := b) hb (h.mem_iff.1 (Dict.mem_of_get? hg))).symm
  | none =>
    symm
    rw [Dict.get?_eq_none_iff] at hg ⊢
    intro hc
    exact hg ((h.map (·.1)).mem_iff.2 hc)

theorem groupFirst_nodup (rows : List (Str × Row)) : ((groupFirst rows).map (·.1)).Nodup :=
  ((pySort_perm _ _).map _).nodup_iff.2 (firsts_nodup rows []).1

theorem get?_groupFirst (rows : List (Str × Row)) (c : Str) : Dict.get? (groupFirst rows) c = Dict.get? rows c := by
  unfold groupFirst
  rw [get?_perm (pySort_perm _ _) (groupFirst_nodup rows), get?_firsts]
  simp

theorem get?_append (a b : List (Str × Row)) (c : Str) :
    Dict.get? (a ++ b) c = (Dict.get? a c).or (Dict.get? b c) := by
  induction a with
  | nil => simp
  | cons x a ih =>
    obtain ⟨k, v⟩ := x
    simp only [List.cons_append, Dict.get?_cons, ih]
    by_cases h : k = c <;> simp [h]

theorem addSources_spec (ss : List Source) : ∀ (p q : List (Str × Row)), addSources (some p) ss = .ok (some q) →
    (p.map (·.1)).Nodup → (q.map (·.1)).Nodup ∧
    ∀ c, Dict.get? q c = (Dict.get? p c).or (Dict.get? (ss.flatMap (·.rows)) c) := by
  induction ss with
  | nil => intro p q h hp; simp [addSources] at h; subst h; simp [hp]
  | cons s ss ih =>
    intro p q h hp
    unfold addSources at h
    split at h
    · obtain ⟨h1, h2⟩ := ih _ _ h (groupFirst_nodup _)
      refine ⟨h1, fun c => ?_⟩
      rw [h2 c]
      simp only [addSource, get?_groupFirst, get?_append, List.flatMap_cons]
      rw [Option.or_assoc]
    · simp at h

theorem addSources_some (ss : List Source) : ∀ (p : List (Str × Row)) (r : Option (List (Str × Row))),
    addSources (some p) ss = .ok r → ∃ q, r = some q := by
  induction ss with
  | nil => intro p r h; simp [addSources] at h; exact ⟨p, h.symm⟩
  | cons s ss ih =>
    intro p r h
    unfold addSources at h
    split at h
    · exact ih _ _ h
    · simp at h

theorem get?_filter (p : List (Str × Row)) (f : Str × Row → Bool) (hp : (p.map (·.1)).Nodup) (c : Str) :
    Dict.get? (p.filter f) c = (Dict.get? p c).filter fun row => f (c, row) := by
  induction p with
  | nil => rfl
  | cons x p ih =>
    obtain ⟨k, v⟩ := x
    rw [List.map_cons, List.nodup_cons] at hp
    by_cases hk : k = c
    · subst hk
      have hnone : Dict.get? (p.filter f) k = none := by
        rw [Dict.get?_eq_none_iff]
        intro h
        obtain ⟨y, hy, rfl⟩ := List.mem_map.1 h
        exact hp.1 (List.mem_map.2 ⟨y, (List.mem_filter.1 hy).1, rfl⟩)
      rw [Dict.get?_cons, if_pos rfl]
      by_cases hf : f (k, v) = true
      · rw [List.filter_cons_of_pos hf, Dict.get?_cons, if_pos rfl]
        simp [Option.filter, hf]
      · rw [List.filter_cons_of_neg hf, hnone]
        simp [Option.filter, hf]
    · rw [Dict.get?_cons, if_neg hk, ← ih hp.2]
      by_cases hf : f (k, v) = true
      · rw [List.filter_cons_of_pos hf, Dict.get?_cons, if_neg hk]
      · rw [List.filter_cons_of_neg hf]

/-- The sources that define the component `c`, in order of priority, give the rows `rows`; the row
used is the first one of the list of all rows. -/
def WinningRow (sources : List Source) (c : Str) (row : Row) : Prop :=
  ∃ before after, sources.flatMap (·.rows) = before ++ (c, row) :: after ∧ c ∉ before.map (·.1)

theorem winning_iff (sources : List Source) (c : Str) (row : Row) :
    WinningRow sources c row ↔ Dict.get? (sources.flatMap (·.rows)) c = some row := by
  unfold WinningRow
  generalize sources.flatMap (·.rows) = l
  constructor
  · rintro ⟨a, b, rfl, h⟩
    rw [get?_append, (Dict.get?_eq_none_iff a c).2 h]
    simp [Dict.get?_cons]
  · intro h
    induction l with
    | nil => simp at h
    | cons x l ih =>
      obtain ⟨k, v⟩ := x
      rw [Dict.get?_cons] at h
      by_cases hk : k = c
      · subst hk
        rw [if_pos rfl] at h
        cases h
        exact ⟨[], l, rfl, by simp⟩
      · rw [if_neg hk] at h
        obtain ⟨a, b, rfl, h2⟩ := ih h
        exact ⟨(k, v) :: a, b, rfl, by simp only [List.map_cons, List.mem_cons, not_or]; exact ⟨fun x => hk x.symm, h2⟩⟩

/-- C40: each component of the asset that is not marked as incomplete in the row that wins has
exactly that row, with all its missing cells, and appears once; nothing else is in the parameters. -/
theorem C40_first_row_wins (sources : List Source) (cmpSet : List Str) (params : List (Str × Row)) (missing : List Str)
    (h : loadParams sources cmpSet = .ok (some params, missing)) :
    (params.map (·.1)).Nodup ∧
    ∀ c row, (c, row) ∈ params ↔
      c ∈ cmpSet ∧ WinningRow sources c row ∧ row (str "Incomplete", []) ≠ some (.num 1) := by
  unfold loadParams at h
  cases ha : addSources none sources with
  | error e => rw [ha] at h; simp at h
  | ok r =>
    rw [ha] at h
    cases r with
    | none => simp at h
    | some p =>
      simp only [Except.ok.injEq, Prod.mk.injEq, Option.some.injEq] at h
      obtain ⟨rfl, _⟩ := h
      have hp : (p.map (·.1)).Nodup ∧ ∀ c, Dict.get? p c = Dict.get? (sources.flatMap (·.rows)) c := by
        cases sources with
        | nil => simp [addSources] at ha
        | cons s ss =>
          unfold addSources at ha
          split at ha
          · obtain ⟨h1, h2⟩ := addSources_spec ss _ _ ha (groupFirst_nodup _)
            refine ⟨h1, fun c => ?_⟩
            rw [h2 c]
            simp only [addSource, get?_groupFirst, List.flatMap_cons, get?_append]
          · simp at ha
      obtain ⟨hnd, hget⟩ := hp
      have hnd1 : ((dropUnused cmpSet p).map (·.1)).Nodup := hnd.sublist ((List.filter_sublist).map _)
      have hnd2 : ((removeIncomplete (dropUnused cmpSet p)).map (·.1)).Nodup := hnd1.sublist ((List.filter_sublist).map _)
      refine ⟨hnd2, ?_⟩
      intro c row
      rw [← Dict.get?_iff_mem (d := removeIncomplete (dropUnused cmpSet p)) hnd2, winning_iff]
      unfold removeIncomplete
      rw [get?_filter _ _ hnd1]
      unfold dropUnused
      rw [get?_filter _ _ hnd, hget]
      simp only [Option.filter_eq_some_iff, decide_eq_true_eq]
      tauto

/-- C40: the components reported as missing are those of the asset without parameters. -/
theorem C40_missing (sources : List Source) (cmpSet : List Str) (params : List (Str × Row)) (missing : List Str)
    (h : loadParams sources cmpSet = .ok (some params, missing)) (c : Str) :
    c ∈ missing ↔ c ∈ cmpSet ∧ ∀ row, (c, row) ∉ params := by
  unfold loadParams at h
  cases ha : addSources none sources with
  | error e => rw [ha] at h; simp at h
  | ok r =>
    rw [ha] at h
    cases r with
    | none => simp at h
    | some p =>
      simp only [Except.ok.injEq, Prod.mk.injEq, Option.some.injEq] at h
      obtain ⟨rfl, rfl⟩ := h
      rw [List.mem_filter, decide_eq_true_eq, List.mem_map]
      constructor
      · rintro ⟨h1, h2⟩; exact ⟨h1, fun row hr => h2 ⟨_, hr, rfl⟩⟩
      · rintro ⟨h1, h2⟩
        refine ⟨h1, ?_⟩
        rintro ⟨x, hx, rfl⟩
        exact h2 x.2 hx

/-- A component whose first row is marked as incomplete has no parameters, even if a later source
has a complete row for it. -/
theorem C40_incomplete_row_hides (sources : List Source) (cmpSet : List Str) (params : List (Str × Row)) (missing : List Str)
    (h : loadParams sources cmpSet = .ok (some params, missing)) (c : Str) (row : Row)
    (hw : WinningRow sources c row) (hi : row (str "Incomplete", []) = some (.num 1)) :
    ∀ row', (c, row') ∉ params := by
  intro row' hr
  obtain ⟨_, h2, h3⟩ := ((C40_first_row_wins sources cmpSet params missing h).2 c row').1 hr
  rw [winning_iff] at hw h2
  rw [hw] at h2
  cases h2
  exact h3 hi

/-- C40: the parameters are refused exactly when a source has no limit state 1. -/
theorem C40_refused_iff (sources : List Source) (cmpSet : List Str) :
    loadParams sources cmpSet = .error .valueError ↔ ∃ s ∈ sources, ∀ c ∈ s.cols, c.1 ≠ str "LS1" := by
  have key : ∀ p, addSources p sources = .error .valueError ↔ ∃ s ∈ sources, ∀ c ∈ s.cols, c.1 ≠ str "LS1" := by
    induction sources with
    | nil => intro p; simp [addSources]
    | cons s ss ih =>
      intro p
      unfold addSources
      have hds : isForDs s = true ↔ ¬ ∀ c ∈ s.cols, c.1 ≠ str "LS1" := by
        unfold isForDs
        rw [List.any_eq_true]
        push Not
        constructor
        · rintro ⟨c, h1, h2⟩; exact ⟨c, h1, by simpa using h2⟩
        · rintro ⟨c, h1, h2⟩; exact ⟨c, h1, by simpa using h2⟩
      by_cases hs : isForDs s = true
      · rw [if_pos hs, ih]
        constructor
        · rintro ⟨t, h1, h2⟩; exact ⟨t, List.mem_cons_of_mem _ h1, h2⟩
        · rintro ⟨t, h1, h2⟩
          rcases List.mem_cons.1 h1 with rfl | h1
          · exact absurd h2 (hds.1 hs)
          · exact ⟨t, h1, h2⟩
      · rw [if_neg hs]
        simp only [true_iff]
        exact ⟨s, by simp, not_not.1 fun h => hs (hds.2 h)⟩
  have err : ∀ (ss : List Source) p e, addSources p ss = .error e → e = .valueError := by
    intro ss
    induction ss with
    | nil => intro p e h; simp [addSources] at h
    | cons s ss ih =>
      intro p e h
      unfold addSources at h
      split at h
      · exact ih _ _ h
      · cases h; rfl
  rw [← key none]
  unfold loadParams
  cases ha : addSources none sources with
  | error e => rw [err _ _ _ ha]; simp
  | ok r => cases r <;> simp

/-- A user table and a library: the user's row wins although its second limit state is missing. -/
example : ∃ params missing, loadParams
    [⟨[(str "LS1", str "Theta_0")], [(str "A", fun c => if c = (str "LS1", str "Theta_0") then some (.num 1) else none)]⟩,
     ⟨[(str "LS1", str "Theta_0"), (str "LS2", str "Theta_0")],
       [(str "A", fun _ => some (.num 7)), (str "B", fun _ => some (.num 3))]⟩] [str "A", str "C"] = .ok (some params, missing) ∧
    params.map (·.1) = [str "A"] ∧ (∀ r ∈ params, r.2 (str "LS2", str "Theta_0") = none) ∧ missing = [str "C"] := by
  refine ⟨[(str "A", fun c => if c = (str "LS1", str "Theta_0") then some (.num 1) else none)], [str "C"], ?_⟩
  refine ⟨rfl, ?_⟩
  decide +kernel

end Verif.DmgParams
