import Verif.Model.RegFilter
import Verif.Lemmas.PyStr
import Verif.Lemmas.PyNum
import Verif.Lemmas.PySort
import Verif.Lemmas.Lists
import Verif.Props.FileIO
import Mathlib.Data.List.Sort

/-! # C68: id filters -/

namespace Verif.RegFilter

open Verif.FileIO (uniqueVals uniqueVals_mem uniqueVals_nodup)

theorem mem_pyRange (a b x : Int) : x ∈ pyRange a b ↔ a ≤ x ∧ x ≤ b := by
  unfold pyRange
  rw [List.mem_map]
  constructor
  · rintro ⟨i, hi, rfl⟩
    rw [List.mem_range] at hi
    omega
  · rintro ⟨h1, h2⟩
    exact ⟨(x - a).toNat, by rw [List.mem_range]; omega, by omega⟩

/-- What a part of a filter means: an integer, or two integers with a dash between them, of which the
first is not larger. -/
inductive Means : Str → Int → Prop
  | one {p : Str} {n : Int} : '-' ∉ p → pyInt? p = some n → Means p n
  | range {s t : Str} {a b x : Int} : '-' ∉ s → pyInt? s = some a → pyInt? t = some b → a ≤ x → x ≤ b → Means (s ++ '-' :: t) x

/-- A part that is not blank is well formed. -/
def WellFormed (p : Str) : Prop := ∃ x, Means p x

theorem splitChar1_some {c : Char} {s t : Str} (h : c ∉ s) : splitChar1 c (s ++ c :: t) = (s, some t) := by
  induction s with
  | nil => simp [splitChar1]
  | cons x s ih =>
    simp only [List.mem_cons, not_or] at h
    simp only [List.cons_append, splitChar1]
    rw [if_neg (Ne.symm h.1), ih h.2]

theorem first_split (c : Char) (p : Str) (h : c ∈ p) : ∃ s t, p = s ++ c :: t ∧ c ∉ s := by
  induction p with
  | nil => simp at h
  | cons x p ih =>
    by_cases hx : x = c
    · exact ⟨[], p, by rw [hx]; rfl, by simp⟩
    · have hp : c ∈ p := by simpa [Ne.symm hx] using h
      obtain ⟨s'', t'', h1, h2⟩ := ih hp
      exact ⟨x :: s'', t'', by rw [h1]; rfl, by simp [h2, Ne.symm hx]⟩

theorem splitChar1_cases (c : Char) (p : Str) :
    (c ∉ p ∧ splitChar1 c p = (p, none)) ∨ ∃ s t, c ∉ s ∧ p = s ++ c :: t ∧ splitChar1 c p = (s, some t) := by
  by_cases h : c ∈ p
  · right
    obtain ⟨s, t, he, hs⟩ := first_split c p h
    exact ⟨s, t, hs, he, by rw [he]; exact splitChar1_some hs⟩
  · exact Or.inl ⟨h, splitChar1_none h⟩

theorem means_unique_split {s t s' t' : Str} (h : '-' ∉ s) (h' : '-' ∉ s') (he : s ++ '-' :: t = s' ++ '-' :: t') : s = s' ∧ t = t' := by
  have h1 := splitChar1_some (t := t) h
  have h2 := splitChar1_some (t := t') h'
  rw [he, h2] at h1
  simp only [Prod.mk.injEq, Option.some.injEq] at h1
  exact ⟨h1.1.symm, h1.2.symm⟩

theorem means_range_iff {s t : Str} (hs : '-' ∉ s) (x : Int) :
    Means (s ++ '-' :: t) x ↔ ∃ a b, pyInt? s = some a ∧ pyInt? t = some b ∧ a ≤ x ∧ x ≤ b := by
  constructor
  · intro h
    generalize hp : s ++ '-' :: t = p at h
    cases h with
    | one h1 _ => exact absurd (by rw [← hp]; simp) h1
    | range h1 h2 h3 h4 h5 =>
      obtain ⟨rfl, rfl⟩ := means_unique_split hs h1 hp
      exact ⟨_, _, h2, h3, h4, h5⟩
  · rintro ⟨a, b, h1, h2, h3, h4⟩
    exact Means.range hs h1 h2 h3 h4

theorem means_one_iff {p : Str} (hp : '-' ∉ p) (x : Int) : Means p x ↔ pyInt? p = some x := by
  constructor
  · intro h
    cases h with
    | one _ h => exact h
    | range _ _ _ _ _ => exact absurd (by simp) hp
  · exact Means.one hp

theorem parsePart_spec (p : Str) :
    (∀ l, parsePart p = .ok l → (p = [] ∨ WellFormed p) ∧ ∀ x, x ∈ l ↔ Means p x) ∧
    (∀ e, parsePart p = .error e → e = .valueError ∧ p ≠ [] ∧ ¬ WellFormed p) := by
  by_cases hp : p = []
  · subst hp
    have hm : ∀ x, ¬ Means [] x := by
      intro x h
      rw [means_one_iff (by simp)] at h
      exact absurd h (by simp [pyInt?, strip, rstrip, lstrip])
    have : parsePart [] = .ok [] := by simp [parsePart]
    rw [this]
    refine ⟨?_, fun e h => by cases h⟩
    intro l h
    cases h
    exact ⟨Or.inl rfl, fun x => by simp [hm x]⟩
  · rcases splitChar1_cases '-' p with ⟨hd, hs⟩ | ⟨s, t, hd, he, hs⟩
    · cases hn : pyInt? p with
      | none =>
        have : parsePart p = .error .valueError := by simp [parsePart, hp, hs, hn]
        rw [this]
        refine ⟨(fun l h => by cases h), ?_⟩
        intro e h
        cases h
        refine ⟨rfl, hp, ?_⟩
        rintro ⟨x, hx⟩
        rw [means_one_iff hd, hn] at hx
        cases hx
      | some n =>
        have : parsePart p = .ok [n] := by simp [parsePart, hp, hs, hn]
        rw [this]
        refine ⟨?_, fun e h => by cases h⟩
        intro l h
        cases h
        refine ⟨Or.inr ⟨n, Means.one hd hn⟩, fun x => ?_⟩
        rw [means_one_iff hd, hn]
        simp [eq_comm]
    · have hwf : ∀ x, Means p x ↔ ∃ a b, pyInt? s = some a ∧ pyInt? t = some b ∧ a ≤ x ∧ x ≤ b := by
        intro x; rw [he]; exact means_range_iff hd x
      have hdef : parsePart p = rangePart (pyInt? s) (pyInt? t) := by
        simp [parsePart, hp, hs]
      rw [hdef]
      unfold rangePart
      cases h1 : pyInt? s with
      | none =>
        refine ⟨(fun l h => by simp at h), ?_⟩
        intro e h
        simp only [Except.error.injEq] at h
        refine ⟨h.symm, hp, ?_⟩
        rintro ⟨x, hx⟩
        obtain ⟨a, b, h2, _⟩ := (hwf x).1 hx
        rw [h1] at h2; cases h2
      | some a =>
        cases h2 : pyInt? t with
        | none =>
          refine ⟨(fun l h => by simp at h), ?_⟩
          intro e h
          simp only [Except.error.injEq] at h
          refine ⟨h.symm, hp, ?_⟩
          rintro ⟨x, hx⟩
          obtain ⟨a, b, _, h3, _⟩ := (hwf x).1 hx
          rw [h2] at h3; cases h3
        | some b =>
          have hx : ∀ x, Means p x ↔ a ≤ x ∧ x ≤ b := by
            intro x
            rw [hwf, h1, h2]
            constructor
            · rintro ⟨a', b', h3, h4, h5⟩
              cases h3; cases h4
              exact h5
            · intro h; exact ⟨a, b, rfl, rfl, h⟩
          simp only
          by_cases hab : a > b
          · rw [if_pos hab]
            refine ⟨(fun l h => by cases h), ?_⟩
            intro e h
            cases h
            refine ⟨rfl, hp, ?_⟩
            rintro ⟨x, h⟩
            have := (hx x).1 h
            omega
          · rw [if_neg hab]
            refine ⟨?_, fun e h => by cases h⟩
            intro l h
            cases h
            refine ⟨Or.inr ⟨a, (hx a).2 ⟨le_refl _, by omega⟩⟩, fun x => ?_⟩
            rw [mem_pyRange, hx]

theorem intLe_total (a b : Int) : intLe a b = true ∨ intLe b a = true := by
  simp only [intLe, decide_eq_true_eq]; omega

theorem intLe_trans (a b c : Int) (h1 : intLe a b = true) (h2 : intLe b c = true) : intLe a c = true := by
  simp only [intLe, decide_eq_true_eq] at *; omega

theorem sorted_unique (l : List Int) : (pySort intLe (uniqueVals [] l)).Pairwise (· < ·) ∧
    ∀ x, x ∈ pySort intLe (uniqueVals [] l) ↔ x ∈ l := by
  constructor
  · have h1 := pySort_sorted (le := intLe) intLe_total intLe_trans (uniqueVals [] l)
    have h2 : (pySort intLe (uniqueVals [] l)).Nodup := (pySort_perm _ _).nodup_iff.2 (uniqueVals_nodup _ _)
    refine (h1.and h2).imp ?_
    rintro a b ⟨h, hne⟩
    simp only [intLe, decide_eq_true_eq] at h
    omega
  · intro x
    rw [mem_pySort, uniqueVals_mem]
    simp

/-- **C68, accepted filters.** If a filter is accepted, every part between commas is blank or well formed,
and the ids are exactly those that some part means, in increasing order without duplicates. -/
theorem C68_exact (s : Str) (ids : List Int) (h : parseIdFilter s = .ok ids) :
    ids.Pairwise (· < ·) ∧ (∀ x, x ∈ ids ↔ ∃ p ∈ splitChar ',' s, Means (strip isSpace p) x) ∧
    ∀ p ∈ splitChar ',' s, strip isSpace p = [] ∨ WellFormed (strip isSpace p) := by
  unfold parseIdFilter at h
  cases hm : mapE (fun p => parsePart (strip isSpace p)) (splitChar ',' s) with
  | error e => rw [hm] at h; cases h
  | ok l =>
    rw [hm] at h
    simp only [Except.ok.injEq] at h
    subst h
    obtain ⟨h1, h2⟩ := sorted_unique l.flatten
    have hf := (mapE_ok_iff).1 hm
    refine ⟨h1, fun x => ?_, ?_⟩
    · rw [h2, List.mem_flatten]
      constructor
      · rintro ⟨y, hy, hx⟩
        obtain ⟨p, hp, hpy⟩ := forall₂_mem_right hf hy
        exact ⟨p, hp, (((parsePart_spec _).1 y hpy).2 x).1 hx⟩
      · rintro ⟨p, hp, hx⟩
        obtain ⟨y, hy, hpy⟩ := forall₂_mem_left hf hp
        exact ⟨y, hy, (((parsePart_spec _).1 y hpy).2 x).2 hx⟩
    · intro p hp
      obtain ⟨y, hy, hpy⟩ := forall₂_mem_left hf hp
      exact ((parsePart_spec _).1 y hpy).1

/-- **C68, refused filters.** A filter is refused, with a ValueError, exactly if some part between commas
is neither blank nor well formed; decreasing ranges are not well formed. -/
theorem C68_refused (s : Str) :
    (∃ p ∈ splitChar ',' s, strip isSpace p ≠ [] ∧ ¬ WellFormed (strip isSpace p)) ↔ parseIdFilter s = .error .valueError := by
  constructor
  · rintro ⟨p, hp, hne, hw⟩
    cases h : parseIdFilter s with
    | ok ids =>
      rcases (C68_exact s ids h).2.2 p hp with h' | h'
      · exact absurd h' hne
      · exact absurd h' hw
    | error e =>
      unfold parseIdFilter at h
      cases hm : mapE (fun p => parsePart (strip isSpace p)) (splitChar ',' s) with
      | ok l => rw [hm] at h; cases h
      | error e' =>
        rw [hm] at h
        cases h
        obtain ⟨q, _, hq⟩ := mapE_error hm
        rw [((parsePart_spec _).2 _ hq).1]
  · intro h
    unfold parseIdFilter at h
    cases hm : mapE (fun p => parsePart (strip isSpace p)) (splitChar ',' s) with
    | ok l => rw [hm] at h; cases h
    | error e' =>
      obtain ⟨q, hq1, hq⟩ := mapE_error hm
      exact ⟨q, hq1, ((parsePart_spec _).2 _ hq).2⟩

/-- A decreasing range is not well formed. -/
theorem C68_decreasing (a b : Nat) (h : b < a) : ¬ WellFormed (decStr a ++ '-' :: decStr b) := by
  rintro ⟨x, hx⟩
  have hd : '-' ∉ decStr a := by
    intro hm
    have := decStr_digits a '-' hm
    revert this
    decide
  rw [means_range_iff hd] at hx
  obtain ⟨a', b', h1, h2, h3, h4⟩ := hx
  have e1 := pyInt?_intStr (a : Int)
  have e2 := pyInt?_intStr (b : Int)
  have i1 : intStr (a : Int) = decStr a := rfl
  have i2 : intStr (b : Int) = decStr b := rfl
  rw [i1, h1] at e1
  rw [i2, h2] at e2
  cases e1; cases e2
  omega

/-! ### Filters as users write them -/

/-- An entry of a filter. -/
inductive Item
  | one (n : Nat)
  | range (a b : Nat)

/-- The text of an entry. -/
def Item.text : Item → Str
  | .one n => decStr n
  | .range a b => decStr a ++ '-' :: decStr b

/-- The ids of an entry. -/
def Item.Has (x : Int) : Item → Prop
  | .one n => x = n
  | .range a b => (a : Int) ≤ x ∧ x ≤ b

/-- Ranges are not decreasing. -/
def Item.Ok : Item → Prop
  | .one _ => True
  | .range a b => a ≤ b

theorem dec_no_dash (n : Nat) : '-' ∉ decStr n := by
  intro hm
  have := decStr_digits n '-' hm
  revert this
  decide

theorem dec_no_comma (n : Nat) : ',' ∉ decStr n := by
  intro hm
  have := decStr_digits n ',' hm
  revert this
  decide

theorem pyInt_dec (n : Nat) : pyInt? (decStr n) = some (n : Int) := pyInt?_intStr (n : Int)

theorem item_means (it : Item) (x : Int) : Means it.text x ↔ it.Has x := by
  cases it with
  | one n =>
    unfold Item.text Item.Has
    rw [means_one_iff (dec_no_dash n), pyInt_dec]
    simp [eq_comm]
  | range a b =>
    unfold Item.text Item.Has
    rw [means_range_iff (dec_no_dash a), pyInt_dec, pyInt_dec]
    constructor
    · rintro ⟨a', b', h1, h2, h⟩
      cases h1; cases h2
      exact h
    · intro h; exact ⟨a, b, rfl, rfl, h⟩

theorem item_space (it : Item) : ∀ c ∈ it.text, isSpace c = false := by
  have hd : ∀ n : Nat, ∀ c ∈ decStr n, isSpace c = false := fun n => intStr_no_space (n : Int)
  cases it with
  | one n => exact hd n
  | range a b =>
    intro c hc
    unfold Item.text at hc
    rcases List.mem_append.1 hc with h | h
    · exact hd a c h
    · rcases List.mem_cons.1 h with h | h
      · rw [h]; decide
      · exact hd b c h

theorem item_comma (it : Item) : ',' ∉ it.text := by
  cases it with
  | one n => exact dec_no_comma n
  | range a b =>
    intro hc
    unfold Item.text at hc
    rcases List.mem_append.1 hc with h | h
    · exact dec_no_comma a h
    · rcases List.mem_cons.1 h with h | h
      · revert h; decide
      · exact dec_no_comma b h

theorem dropWhile_append_all {p : Char → Bool} {w t : Str} (hw : ∀ c ∈ w, p c = true) : (w ++ t).dropWhile p = t.dropWhile p := by
  induction w with
  | nil => rfl
  | cons x w ih =>
    rw [List.cons_append, List.dropWhile_cons, if_pos (hw x (by simp)), ih fun c hc => hw c (by simp [hc])]

theorem strip_pad {w1 t w2 : Str} (h1 : ∀ c ∈ w1, isSpace c = true) (ht : ∀ c ∈ t, isSpace c = false) (hne : t ≠ [])
    (h2 : ∀ c ∈ w2, isSpace c = true) : strip isSpace (w1 ++ (t ++ w2)) = t := by
  unfold strip rstrip lstrip
  rw [dropWhile_append_all h1]
  have e1 : (t ++ w2).dropWhile isSpace = t ++ w2 := by
    cases t with
    | nil => exact absurd rfl hne
    | cons x t =>
      rw [List.cons_append, List.dropWhile_cons, if_neg (by rw [ht x (by simp)]; simp)]
  rw [e1, List.reverse_append, dropWhile_append_all fun c hc => h2 c (List.mem_reverse.1 hc)]
  have e2 : t.reverse.dropWhile isSpace = t.reverse := by
    cases hr : t.reverse with
    | nil => rfl
    | cons x r =>
      have : x ∈ t := by rw [← List.mem_reverse, hr]; simp
      rw [List.dropWhile_cons, if_neg (by rw [ht x this]; simp)]
  rw [e2, List.reverse_reverse]

theorem item_ne_nil (it : Item) : it.text ≠ [] := by
  cases it with
  | one n => exact decStr_ne_nil n
  | range a b => unfold Item.text; simp

/-- **C68.** A filter with numbers and ranges, separated by commas, with white space around the entries,
selects exactly the listed ids in increasing order without duplicates. -/
theorem C68_listed (l : List (Str × Item × Str)) (hne : l ≠ [])
    (hs : ∀ e ∈ l, (∀ c ∈ e.1, isSpace c = true) ∧ e.2.1.Ok ∧ ∀ c ∈ e.2.2, isSpace c = true) :
    ∃ ids, parseIdFilter (joinChar ',' (l.map fun e => e.1 ++ (e.2.1.text ++ e.2.2))) = .ok ids ∧
      ids.Pairwise (· < ·) ∧ ∀ x, x ∈ ids ↔ ∃ e ∈ l, e.2.1.Has x := by
  have hsplit : splitChar ',' (joinChar ',' (l.map fun e => e.1 ++ (e.2.1.text ++ e.2.2))) =
      l.map fun e => e.1 ++ (e.2.1.text ++ e.2.2) := by
    apply split_join
    · simpa using hne
    · intro w hw
      obtain ⟨e, he, rfl⟩ := List.mem_map.1 hw
      obtain ⟨h1, _, h2⟩ := hs e he
      intro hc
      rcases List.mem_append.1 hc with h | h
      · have := h1 _ h; revert this; decide
      · rcases List.mem_append.1 h with h | h
        · exact item_comma _ h
        · have := h2 _ h; revert this; decide
  have hstrip : ∀ e ∈ l, strip isSpace (e.1 ++ (e.2.1.text ++ e.2.2)) = e.2.1.text := by
    intro e he
    obtain ⟨h1, _, h2⟩ := hs e he
    exact strip_pad h1 (item_space _) (item_ne_nil _) h2
  cases h : parseIdFilter (joinChar ',' (l.map fun e => e.1 ++ (e.2.1.text ++ e.2.2))) with
  | error err =>
    exfalso
    have herr : err = .valueError := by
      unfold parseIdFilter at h
      cases hm : mapE (fun p => parsePart (strip isSpace p)) (splitChar ',' (joinChar ',' (l.map fun e => e.1 ++ (e.2.1.text ++ e.2.2)))) with
      | ok l => rw [hm] at h; cases h
      | error e' =>
        rw [hm] at h
        cases h
        obtain ⟨q, _, hq⟩ := mapE_error hm
        exact ((parsePart_spec _).2 _ hq).1
    rw [herr] at h
    obtain ⟨p, hp, _, hw⟩ := (C68_refused _).2 h
    rw [hsplit] at hp
    obtain ⟨e, he, rfl⟩ := List.mem_map.1 hp
    apply hw
    rw [hstrip e he]
    obtain ⟨_, hok, _⟩ := hs e he
    cases hi : e.2.1 with
    | one n => exact ⟨n, (item_means (.one n) n).2 rfl⟩
    | range a b =>
      rw [hi] at hok
      exact ⟨a, (item_means (.range a b) a).2 ⟨le_refl _, by exact_mod_cast hok⟩⟩
  | ok ids =>
    obtain ⟨h1, h2, _⟩ := C68_exact _ _ h
    refine ⟨ids, rfl, h1, fun x => ?_⟩
    rw [h2, hsplit]
    constructor
    · rintro ⟨p, hp, hx⟩
      obtain ⟨e, he, rfl⟩ := List.mem_map.1 hp
      rw [hstrip e he, item_means] at hx
      exact ⟨e, he, hx⟩
    · rintro ⟨e, he, hx⟩
      refine ⟨_, List.mem_map.2 ⟨e, he, rfl⟩, ?_⟩
      rw [hstrip e he, item_means]
      exact hx

/-- Not vacuous. -/
example : joinChar ',' ([(([] : Str), Item.one 8, ([] : Str)), (str " ", .range 3 5, str " "), (str " ", .one 4, [])].map
    fun e => e.1 ++ (e.2.1.text ++ e.2.2)) = str "8, 3-5 , 4" := by decide

example : parseIdFilter (str "8, 3-5 , 4,,") = .ok [3, 4, 5, 8] := by decide +kernel

example : parseIdFilter (str "8, 5-3") = .error .valueError := by decide +kernel

/-! ### Selection -/

theorem locRows_mem {α : Type} (inv : List (Int × α)) (ids : List Int) (r : Int × α) :
    r ∈ locRows inv ids ↔ r ∈ inv ∧ r.1 ∈ ids := by
  unfold locRows
  rw [List.mem_flatMap]
  constructor
  · rintro ⟨i, hi, hr⟩
    rw [List.mem_filter, decide_eq_true_eq] at hr
    exact ⟨hr.1, by rw [hr.2]; exact hi⟩
  · rintro ⟨h1, h2⟩
    exact ⟨r.1, h2, List.mem_filter.2 ⟨h1, by simp⟩⟩

theorem filter_id {α : Type} (inv : List (Int × α)) (hnd : (inv.map (·.1)).Nodup) (i : Int) (hi : i ∈ inv.map (·.1)) :
    (inv.filter fun r => decide (r.1 = i)).map (·.1) = [i] := by
  induction inv with
  | nil => simp at hi
  | cons r inv ih =>
    rw [List.map_cons, List.nodup_cons] at hnd
    by_cases h : r.1 = i
    · rw [List.filter_cons_of_pos (by simpa using h)]
      have : (inv.filter fun r => decide (r.1 = i)) = [] := by
        rw [List.filter_eq_nil_iff]
        intro x hx hxi
        rw [decide_eq_true_eq] at hxi
        exact hnd.1 (by rw [h, ← hxi]; exact List.mem_map.2 ⟨x, hx, rfl⟩)
      rw [this]
      simp [h]
    · rw [List.filter_cons_of_neg (by simpa using h)]
      apply ih hnd.2
      simpa [Ne.symm h] using hi

/-- **C68, selection.** With a filter that lists at least one id, the simulated buildings are exactly the
rows of the inventory with a listed id, in the order of the listed ids; ids that are not in the
inventory are refused. -/
theorem C68_selected {α : Type} (s : Str) (inv inv' : List (Int × α)) (hnd : (inv.map (·.1)).Nodup) (ids : List Int)
    (hp : parseIdFilter s = .ok ids) (hne : ids ≠ []) (hs : s ≠ []) (h : applyFilter (some s) inv = .ok inv') :
    inv'.map (·.1) = ids ∧ ∀ r, r ∈ inv' ↔ r ∈ inv ∧ r.1 ∈ ids := by
  unfold applyFilter at h
  simp only [hs, if_false, hp, hne] at h
  by_cases ha : (ids.any fun i => decide (i ∉ inv.map (·.1))) = true
  · rw [if_pos ha] at h; cases h
  · rw [if_neg ha] at h
    cases h
    refine ⟨?_, locRows_mem _ _⟩
    have hall : ∀ i ∈ ids, i ∈ inv.map (·.1) := by
      intro i hi
      by_contra hc
      exact ha (List.any_eq_true.2 ⟨i, hi, by simpa using hc⟩)
    unfold locRows
    rw [List.map_flatMap]
    clear ha hp hne
    induction ids with
    | nil => rfl
    | cons i ids ih =>
      rw [List.flatMap_cons, filter_id inv hnd i (hall i (by simp)), ih fun j hj => hall j (by simp [hj])]
      rfl

/-- **C68, selection.** A filter with an id that is not in the inventory is refused. -/
theorem C68_unknown_refused {α : Type} (s : Str) (inv : List (Int × α)) (ids : List Int)
    (hp : parseIdFilter s = .ok ids) (i : Int) (hi : i ∈ ids) (hn : i ∉ inv.map (·.1)) (hs : s ≠ []) :
    applyFilter (some s) inv = .error .valueError := by
  unfold applyFilter
  have hne : ids ≠ [] := by rintro rfl; simp at hi
  simp only [hs, if_false, hp, hne]
  rw [if_pos]
  exact List.any_eq_true.2 ⟨i, hi, by simpa using hn⟩

/-- **C68, selection.** If all listed ids are in the inventory, the filter is accepted. -/
theorem C68_known_accepted {α : Type} (s : Str) (inv : List (Int × α)) (ids : List Int)
    (hp : parseIdFilter s = .ok ids) (hk : ∀ i ∈ ids, i ∈ inv.map (·.1)) : ∃ inv', applyFilter (some s) inv = .ok inv' := by
  unfold applyFilter
  simp only
  by_cases hs : s = []
  · rw [if_pos hs]; exact ⟨_, rfl⟩
  · rw [if_neg hs, hp]
    simp only
    by_cases he : ids = []
    · rw [if_pos he]; exact ⟨_, rfl⟩
    · rw [if_neg he, if_neg]
      · exact ⟨_, rfl⟩
      · rw [Bool.not_eq_true, List.any_eq_false]
        intro i hi
        simpa using hk i hi

/-- **C68, selection.** Without a filter, the whole inventory is simulated. -/
theorem C68_no_filter {α : Type} (inv : List (Int × α)) : applyFilter none inv = .ok inv ∧ applyFilter (some []) inv = .ok inv := ⟨rfl, rfl⟩

/-- **C68, selection.** A malformed filter is refused, with a ValueError. -/
theorem C68_malformed_refused {α : Type} (s : Str) (inv : List (Int × α)) (p : Str) (hm : p ∈ splitChar ',' s)
    (hb : strip isSpace p ≠ []) (hw : ¬ WellFormed (strip isSpace p)) : applyFilter (some s) inv = .error .valueError := by
  have h := (C68_refused s).mp ⟨p, hm, hb, hw⟩
  have hs : s ≠ [] := by
    rintro rfl
    exact absurd h (by decide)
  unfold applyFilter
  simp only [if_neg hs, h]

/-- A filter that lists nothing, such as a single comma, selects the whole inventory. -/
theorem C68_blank_selects_all {α : Type} (s : Str) (inv : List (Int × α)) (h : ∀ p ∈ splitChar ',' s, strip isSpace p = []) :
    applyFilter (some s) inv = .ok inv := by
  unfold applyFilter
  by_cases hs : s = []
  · simp [hs]
  · simp only [hs, if_false]
    have hp : parseIdFilter s = .ok [] := by
      cases hp : parseIdFilter s with
      | error e =>
        have herr : e = .valueError := by
          unfold parseIdFilter at hp
          cases hm : mapE (fun p => parsePart (strip isSpace p)) (splitChar ',' s) with
          | ok l => rw [hm] at hp; cases hp
          | error e' =>
            rw [hm] at hp
            cases hp
            obtain ⟨q, _, hq⟩ := mapE_error hm
            exact ((parsePart_spec _).2 _ hq).1
        rw [herr] at hp
        obtain ⟨p, hp1, hp2, _⟩ := (C68_refused s).2 hp
        exact absurd (h p hp1) hp2
      | ok ids =>
        obtain ⟨_, h2, _⟩ := C68_exact s ids hp
        cases ids with
        | nil => rfl
        | cons x ids =>
          obtain ⟨p, hp1, hp2⟩ := (h2 x).1 (by simp)
          rw [h p hp1, means_one_iff (by simp)] at hp2
          exact absurd hp2 (by simp [pyInt?, strip, rstrip, lstrip])
    simp [hp]

example : applyFilter (some (str " , ")) [((1 : Int), ()), (2, ())] = .ok [(1, ()), (2, ())] := by decide +kernel
example : applyFilter (some (str "2")) [((1 : Int), ()), (2, ())] = .ok [(2, ())] := by decide +kernel

end Verif.RegFilter
