import Verif.Model.Asset
import Verif.Props.Labels
import Verif.Lemmas.LocDir
import Verif.Lemmas.Lists

/-! # Properties C27, C62 and C74: component tables and unit strings -/

namespace Verif.Asset

open Verif.UQ (Entry Family scaleDistribution)

/-! ### C62 -/

/-- C62: a plain unit has its own factor, white space around it is ignored. -/
theorem C62_plain_unit (table : Dict Str ℚ) (name pre post : Str) (f : ℚ)
    (hn : ∀ c ∈ name, isSpace c = false) (hpre : ∀ c ∈ pre, isSpace c = true)
    (hpost : ∀ c ∈ post, isSpace c = true) (hne : name ≠ []) (h : table.get? name = some f) :
    calcUnitScaleFactor table (pre ++ name ++ post) = .ok (.fin f) := by
  have hs : strip isSpace (pre ++ name ++ post) = name := by
    unfold strip rstrip lstrip
    have e1 : (pre ++ name ++ post).dropWhile isSpace = name ++ post := by
      rw [List.append_assoc, List.dropWhile_append_of_pos hpre]
      cases name with
      | nil => exact absurd rfl hne
      | cons x xs => exact dropWhile_cons_false (hn x (by simp))
    rw [e1, List.reverse_append, List.dropWhile_append_of_pos (fun c hc => hpost c (List.mem_reverse.1 hc))]
    have e2 : name.reverse.dropWhile isSpace = name.reverse := by
      cases hr : name.reverse with
      | nil => rfl
      | cons x xs => exact dropWhile_cons_false (hn x (by rw [← List.mem_reverse, hr]; simp))
    rw [e2, List.reverse_reverse]
  unfold calcUnitScaleFactor
  rw [hs, splitChar_no_sep ' ' name (fun hh => by simpa [isSpace] using hn ' ' hh)]
  simp [unitFactor, h]

/-- C62: `'q unit'` has `q` times the factor of the unit. -/
theorem C62_leading_quantity (table : Dict Str ℚ) (count name : Str) (q f : ℚ)
    (hn : ∀ c ∈ name, isSpace c = false) (hne : name ≠ []) (hc : ∀ c ∈ count, isSpace c = false)
    (hq : pyFloat? count = some (.fin q)) (h : table.get? name = some f) :
    calcUnitScaleFactor table (count ++ ' ' :: name) = .ok (.fin (q * f)) := by
  have hcne : count ≠ [] := by
    rintro rfl
    have : pyFloat? [] = none := by decide +kernel
    rw [this] at hq; cases hq
  have hs : strip isSpace (count ++ ' ' :: name) = count ++ ' ' :: name := by
    apply strip_eq_self
    · intro c hh
      cases count with
      | nil => exact absurd rfl hcne
      | cons x xs => simp at hh; subst hh; exact hc _ (by simp)
    · intro c hh
      rw [List.getLast?_append] at hh
      cases name with
      | nil => exact absurd rfl hne
      | cons x xs =>
        rw [List.getLast?_cons_cons] at hh
        cases hl : (x :: xs).getLast? with
        | none => simp at hl
        | some d =>
          rw [hl] at hh
          simp at hh
          subst hh
          exact hn _ (List.mem_of_getLast? hl)
  have hsp : ∀ w : Str, (∀ c ∈ w, isSpace c = false) → ' ' ∉ w :=
    fun w hw hh => by simpa [isSpace] using hw ' ' hh
  unfold calcUnitScaleFactor
  rw [hs, splitChar_append_sep ' ' count name (hsp _ hc), splitChar_no_sep ' ' name (hsp _ hn)]
  simp [scaledUnit, hq, unitFactor, h, mulQ]

/-- C62: an unknown unit is refused with `KeyError`, with or without a quantity; a quantity that is
no number and a string with more than two parts are refused with `ValueError`.  A result
therefore always comes from a listed unit. -/
theorem C62_refused (table : Dict Str ℚ) (unit : Str) :
    (∀ name, splitChar ' ' (strip isSpace unit) = [name] → table.get? name = none →
      calcUnitScaleFactor table unit = .error .keyError) ∧
    (∀ count name, splitChar ' ' (strip isSpace unit) = [count, name] → table.get? name = none →
      (pyFloat? count).isSome → calcUnitScaleFactor table unit = .error .keyError) ∧
    (∀ count name, splitChar ' ' (strip isSpace unit) = [count, name] →
      pyFloat? count = none → calcUnitScaleFactor table unit = .error .valueError) ∧
    (2 < (splitChar ' ' (strip isSpace unit)).length →
      calcUnitScaleFactor table unit = .error .valueError) := by
  unfold calcUnitScaleFactor
  refine ⟨?_, ?_, ?_, ?_⟩
  · intro name h1 h2; simp [h1, unitFactor, h2]
  · intro count name h1 h2 h3
    obtain ⟨q, hq⟩ := Option.isSome_iff_exists.1 h3
    simp [h1, scaledUnit, hq, unitFactor, h2]
  · intro count name h1 h2
    simp [h1, scaledUnit, h2]
  · intro h
    split
    · simp_all
    · simp_all
    · rfl

/-- Violation of C62: the quantity `nan` is accepted; the scale factor is then no number. -/
theorem C62_nan_quantity_accepted :
    calcUnitScaleFactor [(str "ft", 3048 / 10000)] (str "nan ft") = .ok .nan := by
  decide +kernel

example : calcUnitScaleFactor [(str "ft", 3048 / 10000)] (str "100 ft") = .ok (.fin (3048 / 100)) := by
  decide +kernel

/-! ### C27 -/

/-- The labels written out of one row: all combinations of a location and a direction. -/
def RowLabels (stories : Option Int) (row : CmpRow) (labels : List (Str × Str × Str)) : Prop :=
  ∃ locs dirs, LocDir.getLocations stories row.location = .ok locs ∧
    LocDir.getDirections (some row.direction) = .ok dirs ∧
    labels.length = locs.length * dirs.length ∧
    ∀ c l d, labels.count (c, l, d) = if c = row.cmp then locs.count l * dirs.count d else 0

theorem count_map_pair (c x : Str) (dirs : List Str) (c' l d : Str) :
    (dirs.map fun d => (c, x, d)).count (c', l, d) = if c' = c ∧ l = x then dirs.count d else 0 := by
  induction dirs with
  | nil => simp
  | cons y ys ih =>
    rw [List.map_cons, List.count_cons, ih, List.count_cons]
    by_cases h1 : c' = c ∧ l = x
    · obtain ⟨rfl, rfl⟩ := h1
      by_cases h2 : y = d
      · subst h2; simp
      · simp [h2]
    · rw [if_neg h1, if_neg h1]
      have : ¬ ((c, x, y) == (c', l, d)) = true := by
        simp only [beq_iff_eq, Prod.mk.injEq]
        rintro ⟨rfl, rfl, _⟩
        exact h1 ⟨rfl, rfl⟩
      simp only [this]
      simp

theorem count_product (c : Str) (locs dirs : List Str) (c' l d : Str) :
    (locs.flatMap fun l => dirs.map fun d => (c, l, d)).count (c', l, d) =
      if c' = c then locs.count l * dirs.count d else 0 := by
  induction locs with
  | nil => simp
  | cons x xs ih =>
    rw [List.flatMap_cons, List.count_append, ih, count_map_pair, List.count_cons]
    by_cases h1 : c' = c
    · by_cases h2 : l = x
      · subst h2; simp [h1, Nat.add_mul, Nat.add_comm]
      · have : ¬ x = l := fun h => h2 h.symm
        simp [h1, h2, this]
    · simp [h1]

theorem length_product (c : Str) (locs dirs : List Str) :
    (locs.flatMap fun l => dirs.map fun d => (c, l, d)).length = locs.length * dirs.length := by
  induction locs with
  | nil => simp
  | cons x xs ih => rw [List.flatMap_cons, List.length_append, ih]; simp [Nat.add_mul, Nat.add_comm]

/-- What one row contributes: its labels, its number of blocks and its parameters `conv`. -/
def RowGroups (stories : Option Int) (conv : CmpRow → Params → Prop) (row : CmpRow)
    (g : List ((Str × Str × Str) × PG)) : Prop :=
  RowLabels stories row (g.map Prod.fst) ∧
  ∀ e ∈ g, (row.blocks = none → e.2.blocks = 1) ∧
    (∀ n : Int, row.blocks = some (n : ℚ) → e.2.blocks = n) ∧ conv row e.2.params

theorem expandRow_groups {stories : Option Int} {rows : List CmpRow} {row : CmpRow}
    {g : List ((Str × Str × Str) × PG)} (h : expandRow stories rows row = .ok g) :
    RowGroups stories (fun r p => p = r.params) row g ∧
      ∀ e ∈ g, e.2.unit = cmpUnit rows row.cmp := by
  unfold expandRow at h
  cases hl : LocDir.getLocations stories row.location with
  | error e => rw [hl] at h; simp at h
  | ok locs =>
    rw [hl] at h
    simp only at h
    cases hd : LocDir.getDirections (some row.direction) with
    | error e => rw [hd] at h; simp at h
    | ok dirs =>
      rw [hd] at h
      simp only [Except.ok.injEq] at h
      have hlab : g.map Prod.fst = locs.flatMap fun l => dirs.map fun d => (row.cmp, l, d) := by
        rw [← h, List.map_flatMap]
        congr 1
        funext l
        rw [List.map_map]; rfl
      have hmem : ∀ e ∈ g, e.2 = ⟨blocksOf row.blocks, cmpUnit rows row.cmp, row.params⟩ := by
        rw [← h]
        intro e he
        obtain ⟨l, _, he⟩ := List.mem_flatMap.1 he
        obtain ⟨d, _, rfl⟩ := List.mem_map.1 he
        rfl
      refine ⟨⟨⟨locs, dirs, hl, hd, ?_, ?_⟩, ?_⟩, ?_⟩
      · rw [hlab, length_product]
      · intro c l d; rw [hlab, count_product]
      · intro e he
        rw [hmem e he]
        refine ⟨?_, ?_, rfl⟩
        · intro hb; simp [blocksOf, hb]
        · intro n hb; simp only [blocksOf, hb, truncQ_int]
      · intro e he; rw [hmem e he]

theorem RowGroups.imp {stories : Option Int} {conv conv' : CmpRow → Params → Prop} {row : CmpRow}
    {g : List ((Str × Str × Str) × PG)} (h : RowGroups stories conv row g)
    (hc : ∀ p, conv row p → conv' row p) : RowGroups stories conv' row g :=
  ⟨h.1, fun e he => ⟨(h.2 e he).1, (h.2 e he).2.1, hc _ (h.2 e he).2.2⟩⟩

/-- Rearranged inputs give rearranged outputs. -/
theorem mapE_perm {α β : Type} {f : α → Except PyErr β} {l l' : List α} (hp : l.Perm l')
    {r : List β} (h : mapE f l = .ok r) : ∃ r', mapE f l' = .ok r' ∧ r.Perm r' := by
  have hall : ∀ a ∈ l, ∃ b, f a = .ok b := by
    intro a ha
    have hf := mapE_ok_iff.1 h
    obtain ⟨hlen, hg⟩ := List.forall₂_iff_get.1 hf
    obtain ⟨i, hi, rfl⟩ := List.mem_iff_getElem.1 ha
    exact ⟨_, hg i hi (by rw [← hlen]; exact hi)⟩
  classical
  let g : α → Option β := fun a => match f a with | .ok b => some b | .error _ => none
  have key : ∀ (l : List α) (r : List β), mapE f l = .ok r → r = l.filterMap g := by
    intro l r h
    have hf := mapE_ok_iff.1 h
    clear h
    induction hf with
    | nil => rfl
    | cons hab _ ih => simp only [List.filterMap_cons, g, hab]; rw [ih]
  obtain ⟨r', hr'⟩ := mapE_ok_of_forall (f := f) (l := l') (fun a ha => hall a (hp.mem_iff.2 ha))
  refine ⟨r', hr', ?_⟩
  rw [key l r h, key l' r' hr']
  exact hp.filterMap g

theorem mapE_flatten {α β : Type} {f : α → Except PyErr β} (ls : List (List α)) (r : List β)
    (h : mapE f ls.flatten = .ok r) :
    ∃ rs, List.Forall₂ (fun l r => mapE f l = .ok r) ls rs ∧ r = rs.flatten := by
  induction ls generalizing r with
  | nil => simp [mapE] at h; exact ⟨[], .nil, by simp [← h]⟩
  | cons l ls ih =>
    have hf := mapE_ok_iff.1 h
    rw [List.flatten_cons] at hf
    obtain ⟨r1, r2, hr1, hr2, rfl⟩ : ∃ r1 r2, List.Forall₂ (fun a b => f a = .ok b) l r1 ∧
        List.Forall₂ (fun a b => f a = .ok b) ls.flatten r2 ∧ r = r1 ++ r2 := by
      have h1 := List.forall₂_take_append r l ls.flatten hf.flip
      have h2 := List.forall₂_drop_append r l ls.flatten hf.flip
      exact ⟨_, _, h1.flip, h2.flip, (List.take_append_drop _ _).symm⟩
    obtain ⟨rs, hrs, rfl⟩ := ih r2 (mapE_ok_iff.2 hr2)
    exact ⟨r1 :: rs, .cons (mapE_ok_iff.2 hr1) hrs, rfl⟩

theorem loadCmpModel_groups (table : Dict Str ℚ) (stories : Option Int) (rows : List CmpRow)
    (r : List (((Str × Str × Str) × Str) × PG)) (h : loadCmpModel table stories rows = .ok r) :
    (r.map Prod.fst).Nodup ∧
    ∃ groups, List.Forall₂ (RowGroups stories
        (fun row p => convertParams table (cmpUnit rows row.cmp) row.params = .ok p)) rows groups ∧
      (r.map fun e => (e.1.1, e.2)).Perm groups.flatten := by
  unfold loadCmpModel at h
  cases hg : mapE (expandRow stories rows) rows with
  | error e => rw [hg] at h; simp at h
  | ok groups =>
    rw [hg] at h
    simp only at h
    split at h
    · simp at h
    · -- labels are kept by the conversion
      have hlab : ∀ (l : List (((Str × Str × Str) × Str) × PG)) r, mapE (convertPG table) l = .ok r →
          r.map Prod.fst = l.map Prod.fst := by
        intro l r hr
        have hf := mapE_ok_iff.1 hr
        clear hr
        induction hf with
        | nil => rfl
        | @cons a b l' r' hab _ ih =>
          rw [List.map_cons, List.map_cons, ih]
          congr 1
          unfold convertPG at hab
          cases hc : convertParams table a.2.unit a.2.params with
          | error e => rw [hc] at hab; simp at hab
          | ok p => rw [hc] at hab; cases hab; rfl
      refine ⟨by rw [hlab _ _ h]; exact Labels.C07_ids_distinct _ _, ?_⟩
      -- drop the uid
      let conv : (Str × Str × Str) × PG → Except PyErr ((Str × Str × Str) × PG) := fun e =>
        match convertParams table e.2.unit e.2.params with
        | .ok p => .ok (e.1, { e.2 with params := p })
        | .error err => .error err
      have hdrop : ∀ (l : List (((Str × Str × Str) × Str) × PG)) r, mapE (convertPG table) l = .ok r →
          mapE conv (l.map fun e => (e.1.1, e.2)) = .ok (r.map fun e => (e.1.1, e.2)) := by
        intro l r hr
        have hf := mapE_ok_iff.1 hr
        clear hr
        rw [mapE_ok_iff]
        induction hf with
        | nil => exact .nil
        | @cons a b l' r' hab _ ih =>
          refine .cons ?_ ih
          unfold convertPG at hab
          cases hc : convertParams table a.2.unit a.2.params with
          | error e => rw [hc] at hab; simp at hab
          | ok p => rw [hc] at hab; cases hab; simp only [conv, hc]
      obtain ⟨r', hr', hperm⟩ := mapE_perm (Labels.C07_rows_preserved labelLe groups.flatten)
        (hdrop _ _ h)
      obtain ⟨rs, hrs, rfl⟩ := mapE_flatten groups r' hr'
      refine ⟨rs, ?_, hperm⟩
      have hexp := mapE_ok_iff.1 hg
      have htrans : ∀ (rows' : List CmpRow) (gs rs : List (List ((Str × Str × Str) × PG))),
          List.Forall₂ (fun a b => expandRow stories rows a = .ok b) rows' gs →
          List.Forall₂ (fun l r => mapE conv l = .ok r) gs rs →
          List.Forall₂ (RowGroups stories (fun row p =>
            convertParams table (cmpUnit rows row.cmp) row.params = .ok p)) rows' rs := by
        intro rows' gs rs h1 h2
        induction h1 generalizing rs with
        | nil => cases h2; exact .nil
        | @cons row g rows'' gs' hrow _ ih =>
          cases h2 with
          | @cons _ r'' _ rs'' hm h2' =>
            refine .cons ?_ (ih _ h2')
            obtain ⟨⟨hl, he⟩, hu⟩ := expandRow_groups hrow
            have hf := mapE_ok_iff.1 hm
            have hfst : r''.map Prod.fst = g.map Prod.fst := by
              clear hu he hl hrow hm
              induction hf with
              | nil => rfl
              | @cons a b l' r' hab _ ih2 =>
                rw [List.map_cons, List.map_cons, ih2]
                congr 1
                simp only [conv] at hab
                cases hc : convertParams table a.2.unit a.2.params with
                | error e => rw [hc] at hab; simp at hab
                | ok p => rw [hc] at hab; cases hab; rfl
            refine ⟨by rw [hfst]; exact hl, ?_⟩
            intro e' he'
            obtain ⟨hlen, hget⟩ := List.forall₂_iff_get.1 hf
            obtain ⟨i, hi, rfl⟩ := List.mem_iff_getElem.1 he'
            have hig : i < g.length := by rw [hlen]; exact hi
            have hab := hget i hig hi
            simp only [List.get_eq_getElem] at hab
            have hmem : g[i] ∈ g := List.getElem_mem _
            obtain ⟨b1, b2, b3⟩ := he _ hmem
            have bu := hu _ hmem
            simp only [conv] at hab
            cases hc : convertParams table g[i].2.unit g[i].2.params with
            | error e => rw [hc] at hab; simp at hab
            | ok p =>
              rw [hc] at hab
              simp only [Except.ok.injEq] at hab
              rw [← hab]
              refine ⟨b1, b2, ?_⟩
              simp only
              rw [← bu, ← b3, hc]
      exact htrans rows groups rs hexp hrs

/-- C27: a loaded component model has, for each row, one performance group for every combination
of a location and a direction of that row, with the row's number of blocks; there are no other
groups and no two groups share their identifier (component, location, direction, uid). -/
theorem C27_product (table : Dict Str ℚ) (stories : Option Int) (rows : List CmpRow)
    (r : List (((Str × Str × Str) × Str) × PG)) (h : loadCmpModel table stories rows = .ok r) :
    (r.map Prod.fst).Nodup ∧
    ∃ groups, List.Forall₂ (RowGroups stories (fun _ _ => True)) rows groups ∧
      (r.map fun e => (e.1.1, e.2)).Perm groups.flatten := by
  obtain ⟨h1, groups, h2, h3⟩ := loadCmpModel_groups table stories rows r h
  exact ⟨h1, groups, h2.imp (fun _ _ hg => hg.imp (fun _ _ => trivial)), h3⟩

/-- C27: a row whose first distribution parameter is missing makes the whole table fail with an assertion
error (provided all locations and directions can be read and the row has at least one of each). -/
theorem C27_missing_quantity (table : Dict Str ℚ) (stories : Option Int) (rows : List CmpRow)
    (hread : ∀ row ∈ rows, (∃ locs, LocDir.getLocations stories row.location = .ok locs) ∧
      ∃ dirs, LocDir.getDirections (some row.direction) = .ok dirs)
    (row : CmpRow) (hrow : row ∈ rows) (rest : List (Entry ℚ)) (hmiss : row.params.theta = .nan :: rest)
    (l d : Str) (locs dirs : List Str) (hl : LocDir.getLocations stories row.location = .ok (l :: locs))
    (hd : LocDir.getDirections (some row.direction) = .ok (d :: dirs)) :
    loadCmpModel table stories rows = .error .assertionError := by
  obtain ⟨groups, hg⟩ := mapE_ok_of_forall (f := expandRow stories rows) (l := rows) (by
    intro row hrow
    obtain ⟨⟨locs, h1⟩, dirs, h2⟩ := hread row hrow
    exact ⟨_, by rw [expandRow, h1]; simp only [h2]; rfl⟩)
  unfold loadCmpModel
  rw [hg]
  simp only
  rw [if_pos]
  obtain ⟨g, hgm, hge⟩ := forall₂_mem_left (mapE_ok_iff.1 hg) hrow
  rw [expandRow, hl] at hge
  simp only [hd, Except.ok.injEq] at hge
  rw [List.any_eq_true]
  refine ⟨((row.cmp, l, d), ⟨blocksOf row.blocks, cmpUnit rows row.cmp, row.params⟩), ?_, ?_⟩
  · refine List.mem_flatten.2 ⟨g, hgm, ?_⟩
    rw [← hge]; simp
  · simp [missingTheta0, hmiss]

/-- C27: a table without units is loaded whenever its locations and directions can be read and its
quantities are given. -/
theorem C27_accepted (table : Dict Str ℚ) (stories : Option Int) (rows : List CmpRow)
    (hread : ∀ row ∈ rows, (∃ locs, LocDir.getLocations stories row.location = .ok locs) ∧
      ∃ dirs, LocDir.getDirections (some row.direction) = .ok dirs)
    (hq : ∀ row ∈ rows, ∃ x rest, row.params.theta = x :: rest ∧ x ≠ .nan)
    (hunit : ∀ row ∈ rows, row.unit = none) :
    ∃ r, loadCmpModel table stories rows = .ok r := by
  obtain ⟨groups, hg⟩ := mapE_ok_of_forall (f := expandRow stories rows) (l := rows) (by
    intro row hrow
    obtain ⟨⟨locs, h1⟩, dirs, h2⟩ := hread row hrow
    exact ⟨_, by rw [expandRow, h1]; simp only [h2]; rfl⟩)
  have hparams : ∀ e ∈ groups.flatten, e.2.unit = none ∧ missingTheta0 e.2.params = false := by
    intro e he
    obtain ⟨g, hg1, hg2⟩ := List.mem_flatten.1 he
    obtain ⟨row, hr1, hr2⟩ := forall₂_mem_right (mapE_ok_iff.1 hg) hg1
    obtain ⟨⟨_, h1⟩, h2⟩ := expandRow_groups hr2
    refine ⟨?_, ?_⟩
    · rw [h2 e hg2, cmpUnit, List.findSome?_eq_none_iff]
      intro a ha
      exact hunit a (List.mem_filter.1 ha).1
    · rw [(h1 e hg2).2.2]
      obtain ⟨x, rest, hx, hne⟩ := hq row hr1
      rw [missingTheta0, hx]
      cases x <;> simp_all
  unfold loadCmpModel
  rw [hg]
  simp only
  rw [if_neg]
  · refine mapE_ok_of_forall ?_
    intro a ha
    have hm : (a.1.1, a.2) ∈ groups.flatten :=
      (Labels.C07_rows_preserved labelLe groups.flatten).mem_iff.1 (List.mem_map_of_mem (f := fun e => (e.1.1, e.2)) ha)
    have hu := (hparams _ hm).1
    simp only at hu
    exact ⟨_, by simp only [convertPG, convertParams, hu]; rfl⟩
  · rw [Bool.not_eq_true, List.any_eq_false]
    intro e he
    simp [(hparams e he).2]

/-- Two rows, one of them on all four stories of a building. -/
example : ∃ r, loadCmpModel [] (some 4)
    [⟨str "B1033.061b", str "all", str "1,2", some 2, none, ⟨.normal, false, [.num 3, .num 1], some 0, none⟩⟩,
     ⟨str "C3032", str "1--3", str "0", none, none, ⟨.deterministic, false, [.num 4], none, none⟩⟩] = .ok r := by
  refine C27_accepted _ _ _ ?_ ?_ ?_
  · intro row hrow
    simp only [List.mem_cons, List.not_mem_nil, or_false] at hrow
    rcases hrow with rfl | rfl
    · exact ⟨⟨[str "1", str "2", str "3", str "4"], by decide +kernel⟩, [str "1", str "2"], by decide +kernel⟩
    · exact ⟨⟨[str "1", str "2", str "3"], by decide +kernel⟩, [str "0"], by decide +kernel⟩
  · intro row hrow
    simp only [List.mem_cons, List.not_mem_nil, or_false] at hrow
    rcases hrow with rfl | rfl <;> exact ⟨_, _, rfl, by simp⟩
  · intro row hrow
    simp only [List.mem_cons, List.not_mem_nil, or_false] at hrow
    rcases hrow with rfl | rfl <;> rfl

example : loadCmpModel [] (some 4)
    [⟨str "B1033.061b", str "all", str "1,2", some 2, none, ⟨.normal, false, [.nan, .num 1], some 0, none⟩⟩] =
    .error .assertionError :=
  C27_missing_quantity _ _ _ (by
    intro row hrow
    simp only [List.mem_cons, List.not_mem_nil, or_false] at hrow
    subst hrow
    exact ⟨⟨[str "1", str "2", str "3", str "4"], by decide +kernel⟩, [str "1", str "2"], by decide +kernel⟩)
    _ (List.mem_cons_self) _ rfl (str "1") (str "1") [str "2", str "3", str "4"] [str "2"]
    (by decide +kernel) (by decide +kernel)

/-- The parameters of a row converted with a unit: unchanged without a unit, otherwise
distribution and limits scaled by the factor of the unit (empirical rows are left alone). -/
def ConvertedWith (table : Dict Str ℚ) (unit : Option Str) (p p' : Params) : Prop :=
  (unit = none → p' = p) ∧
  ∀ u, unit = some u → ∃ f, calcUnitScaleFactor table u = .ok (.fin f) ∧
    (p.empirical = true ∧ p' = p ∨ p.empirical = false ∧ p'.family = p.family ∧
      scaleDistribution f p.family p.theta (some (p.lower, p.upper)) =
        .ok (p'.theta, some (p'.lower, p'.upper)))

theorem convertParams_spec {table : Dict Str ℚ} {unit : Option Str} {p p' : Params}
    (h : convertParams table unit p = .ok p') : ConvertedWith table unit p p' := by
  unfold convertParams at h
  constructor
  · rintro rfl; simpa using h.symm
  · rintro u rfl
    simp only at h
    cases hf : calcUnitScaleFactor table u with
    | error e => rw [hf] at h; simp at h
    | ok v =>
      rw [hf] at h
      cases v with
      | nan => simp at h
      | inf b => simp at h
      | fin f =>
        refine ⟨f, rfl, ?_⟩
        simp only at h
        split at h
        · rename_i he; cases h; exact .inl ⟨he, rfl⟩
        · rename_i he
          refine .inr ⟨by simpa using he, ?_⟩
          cases hs : scaleDistribution f p.family p.theta (some (p.lower, p.upper)) with
          | error e => rw [hs] at h; simp at h
          | ok v =>
            obtain ⟨t, lim⟩ := v
            have hsome : lim = some (UQ.scaleLimit f p.lower, UQ.scaleLimit f p.upper) := by
              unfold scaleDistribution at hs
              split at hs
              · simp at hs
              · split at hs
                · simp at hs
                · simp only [Except.ok.injEq, Prod.mk.injEq] at hs
                  exact hs.2.symm
            subst hsome
            rw [hs] at h
            cases h
            exact ⟨rfl, rfl⟩

/-- C74, when the rows of one component agree on their unit: every row's parameters are converted
with that row's own unit.  Without this condition the property is false, see
`C74_second_row_uses_first_unit`. -/
theorem C74_own_unit_partial (table : Dict Str ℚ) (stories : Option Int) (rows : List CmpRow)
    (r : List (((Str × Str × Str) × Str) × PG)) (h : loadCmpModel table stories rows = .ok r)
    (hu : ∀ a ∈ rows, ∀ b ∈ rows, a.cmp = b.cmp → a.unit = b.unit) :
    ∃ groups, List.Forall₂ (RowGroups stories
        (fun row p => ConvertedWith table row.unit row.params p)) rows groups ∧
      (r.map fun e => (e.1.1, e.2)).Perm groups.flatten := by
  obtain ⟨_, groups, h2, h3⟩ := loadCmpModel_groups table stories rows r h
  refine ⟨groups, ?_, h3⟩
  have hunit : ∀ row ∈ rows, cmpUnit rows row.cmp = row.unit := by
    intro row hrow
    unfold cmpUnit
    have hall : ∀ a ∈ rows.filter (fun r => r.cmp = row.cmp), a.unit = row.unit := by
      intro a ha
      obtain ⟨ha, hc⟩ := List.mem_filter.1 ha
      exact hu a ha row hrow (by simpa using hc)
    have hmem : row ∈ rows.filter (fun r => r.cmp = row.cmp) := List.mem_filter.2 ⟨hrow, by simp⟩
    generalize rows.filter (fun r => r.cmp = row.cmp) = l at hall hmem
    cases hru : row.unit with
    | none =>
      rw [List.findSome?_eq_none_iff]
      intro a ha; rw [hall a ha, hru]
    | some u =>
      cases l with
      | nil => simp at hmem
      | cons a l => rw [List.findSome?_cons, hall a (by simp), hru]
  obtain ⟨hlen, hget⟩ := List.forall₂_iff_get.1 h2
  refine List.forall₂_iff_get.2 ⟨hlen, fun i h1 h2 => (hget i h1 h2).imp ?_⟩
  intro p hp
  rw [hunit _ (by rw [List.get_eq_getElem]; exact List.getElem_mem _)] at hp
  exact convertParams_spec hp

/-- Two rows of component `B`, the first in feet, the second in metres. -/
def twoUnits : List CmpRow :=
  [⟨str "B", str "1", str "1", none, some (str "ft"), ⟨.deterministic, false, [.num 10], none, none⟩⟩,
   ⟨str "B", str "2", str "1", none, some (str "m"), ⟨.deterministic, false, [.num 10], none, none⟩⟩]

/-- Violation of C74: the unit of a component is taken from the first of its rows, so ten metres
in the second row are stored as ten feet. -/
theorem C74_second_row_uses_first_unit :
    (loadCmpModel [(str "ft", 3048 / 10000), (str "m", 1)] none twoUnits).map
      (fun r => r.map fun e => (e.1.1.2.1, e.2.params.theta)) =
    .ok [(str "1", [.num (3048 / 1000)]), (str "2", [.num (3048 / 1000)])] := by
  decide +kernel

/-- The hypotheses of C27 and C74 are met by a table with a repeated row. -/
def okRows : List CmpRow :=
  [⟨str "B", str "1--2", str "1,2", some 3, some (str "ft"), ⟨.lognormal, false, [.num 10, .num (1/2)], none, none⟩⟩,
   ⟨str "B", str "1", str "1", none, some (str "ft"), ⟨.deterministic, false, [.num 10], none, none⟩⟩]

set_option synthInstance.maxSize 1000 in
example : (loadCmpModel [(str "ft", 3048 / 10000)] none okRows).map
      (fun r => r.map fun e => (e.1, e.2.blocks)) =
    .ok [(((str "B", str "1", str "1"), str "0"), 3), (((str "B", str "1", str "1"), str "1"), 1),
      (((str "B", str "1", str "2"), str "0"), 3), (((str "B", str "2", str "1"), str "0"), 3),
      (((str "B", str "2", str "2"), str "0"), 3)] := by
  decide +kernel

end Verif.Asset
