import Verif.Spec.LocDir
import Verif.Lemmas.LocDir

/-! # Properties C25 and C26: location and direction strings -/

namespace Verif.LocDir

theorem top_facts : pyFloat? (str "top") = none ∧ hasDash2 (str "top") = false ∧
    hasChar ',' (str "top") = false ∧ (str "top").getLast? ≠ some '-' := by decide +kernel

theorem roof_facts : pyFloat? (str "roof") = none ∧ hasDash2 (str "roof") = false ∧
    hasChar ',' (str "roof") = false ∧ (str "roof").getLast? ≠ some '-' := by decide +kernel

theorem all_facts : pyFloat? (str "all") = none ∧ hasDash2 (str "all") = false ∧
    hasChar ',' (str "all") = false := by decide +kernel

theorem locPart_place (stories : Int) (p : Place) :
    locPart (some stories) p.text = .ok [p.at stories] := by
  cases p with
  | num n => simp [locPart, Place.text, Place.at, intFloat_intStr]
  | top =>
    obtain ⟨h1, h2, h3, h4⟩ := top_facts
    simp only [locPart, Place.text, Place.at, intFloat_of_none h1, locNoRange, h3, locKeyword,
      needStories]
    rfl
  | roof =>
    obtain ⟨h1, h2, h3, h4⟩ := roof_facts
    simp only [locPart, Place.text, Place.at, intFloat_of_none h1, locNoRange, h3, locKeyword,
      needStories]
    rfl

theorem place_no_dash (p : Place) : hasDash2 p.text = false := by
  cases p with
  | num n => exact intStr_hasDash2 n
  | top => exact top_facts.2.1
  | roof => exact roof_facts.2.1

theorem place_last (p : Place) : p.text.getLast? ≠ some '-' := by
  cases p with
  | num n => exact intStr_getLast n
  | top => exact top_facts.2.2.2
  | roof => exact roof_facts.2.2.2

theorem place_range_no_float (lo hi : Place) : pyFloat? (lo.text ++ '-' :: '-' :: hi.text) = none := by
  cases lo with
  | num n => exact pyFloat?_digit_minus n _
  | top => exact pyFloat?_none_of_char (c := 'p') (List.mem_append_left _ (by decide)) (by decide)
  | roof => exact pyFloat?_none_of_char (c := 'r') (List.mem_append_left _ (by decide)) (by decide)

theorem list_facts (n : Int) (ns : List Int) (h : ns ≠ []) :
    pyFloat? (joinChar ',' ((n :: ns).map intStr)) = none ∧
    hasDash2 (joinChar ',' ((n :: ns).map intStr)) = false ∧
    hasChar ',' (joinChar ',' ((n :: ns).map intStr)) = true ∧
    splitChar ',' (joinChar ',' ((n :: ns).map intStr)) = (n :: ns).map intStr := by
  have hlen : 2 ≤ ((n :: ns).map intStr).length := by
    cases ns with
    | nil => exact absurd rfl h
    | cons a as => simp
  have hmem := mem_joinChar (c := ',') hlen
  refine ⟨pyFloat?_none_of_char hmem (by decide), ?_, ?_, ?_⟩
  · have key : ∀ l : List Int, hasDash2 (joinChar ',' (l.map intStr)) = false := by
      intro l
      induction l with
      | nil => rfl
      | cons a l ih =>
        cases l with
        | nil => exact intStr_hasDash2 a
        | cons b l =>
          simp only [List.map_cons, joinChar] at ih ⊢
          have app : ∀ (u v : Str), hasDash2 u = false → hasDash2 v = false →
              hasDash2 (u ++ ',' :: v) = false := by
            intro u v hu hv
            induction u with
            | nil =>
              rw [List.nil_append, hasDash2_cons]
              · exact hv
              · rintro ys ⟨h, _⟩; exact absurd h (by decide)
            | cons x xs ihu =>
              obtain ⟨h1, h2⟩ := hasDash2_false_cons hu
              rw [List.cons_append, hasDash2_cons]
              · exact ihu h2
              · rintro ys ⟨rfl, e⟩
                cases xs with
                | nil => simp at e
                | cons y ys' =>
                  simp only [List.cons_append, List.cons.injEq] at e
                  exact h1 ys' ⟨rfl, by rw [e.1]⟩
          exact app _ _ (intStr_hasDash2 a) ih
    exact key (n :: ns)
  · simpa [hasChar] using hmem
  · exact split_join ',' _ (by simp) (by
      intro w hw
      obtain ⟨k, _, rfl⟩ := List.mem_map.1 hw
      exact intStr_comma k)

/-- C25: every documented entry is accepted and expands to exactly the locations it stands for,
in order, written as integers. -/
theorem C25_documented (stories : Int) (e : LocEntry) :
    ∃ l, e.Means stories l ∧ getLocations (some stories) e.text = .ok (l.map intStr) := by
  unfold getLocations
  suffices ∃ l, e.Means stories l ∧ locInts (some stories) e.text = .ok l by
    obtain ⟨l, h1, h2⟩ := this
    exact ⟨l, h1, by rw [h2]⟩
  cases e with
  | one p =>
    exact ⟨[p.at stories], rfl, by
      rw [LocEntry.text, locInts_part _ _ (place_no_dash p), locPart_place]⟩
  | list n ns two =>
    obtain ⟨h1, h2, h3, h4⟩ := list_facts n ns two
    refine ⟨n :: ns, rfl, ?_⟩
    rw [LocEntry.text, locInts_part _ _ h2, locPart, intFloat_of_none h1]
    simp only [locNoRange, h3, h4, if_true]
    exact intArray_intStr (n :: ns)
  | range lo hi =>
    refine ⟨arange (lo.at stories) (hi.at stories + 1), ⟨arange_sorted _ _, ?_⟩, ?_⟩
    · intro k; rw [mem_arange]; constructor <;> rintro ⟨a, b⟩ <;> exact ⟨a, by omega⟩
    · have e : LocEntry.text (.range lo hi) = lo.text ++ '-' :: '-' :: hi.text := by
        simp only [LocEntry.text, List.append_assoc]; rfl
      rw [e, locInts, intFloat_of_none (place_range_no_float lo hi)]
      simp only [hasDash2_append, if_true,
        splitDash2_two (place_no_dash lo) (place_last lo) (place_no_dash hi), locRange,
        locPart_place, firstOf, first, rangeOf]
  | all =>
    refine ⟨arange 1 (stories + 1), ⟨arange_sorted _ _, ?_⟩, ?_⟩
    · intro k; rw [mem_arange]; constructor <;> rintro ⟨a, b⟩ <;> exact ⟨a, by omega⟩
    · obtain ⟨h1, h2, h3⟩ := all_facts
      rw [LocEntry.text, locInts_part _ _ h2]
      simp only [locPart, intFloat_of_none h1, locNoRange, h3, locKeyword, needStories]
      rfl

/-- C25: without a known number of stories the keywords are refused. -/
theorem C25_keywords_need_stories :
    getLocations none (str "all") = .error .assertionError ∧
    getLocations none (str "top") = .error .assertionError ∧
    getLocations none (str "roof") = .error .assertionError := by
  refine ⟨?_, ?_, ?_⟩ <;> decide +kernel

/-- C25: what is accepted at all.  Either a number (a decimal number is cut to an integer), or a
list of integers, or a keyword, or `lo--hi`; in the last case the first location of either side
is used and the remaining ones are ignored.  The full property also wants the entries with a
fractional number or with a list or `all` as an end of a range to be refused; that is false, see
`C25_mixed_entry_truncated` and `C25_fraction_truncated`. -/
theorem C25_accepted_partial (stories : Option Int) (s : Str) (r : List Str)
    (h : getLocations stories s = .ok r) :
    (∃ q, pyFloat? s = some (.fin q) ∧ r = [intStr (truncQ q)]) ∨
    (∃ parts ns, 2 ≤ parts.length ∧ s = joinChar ',' parts ∧
      List.Forall₂ (fun p n => pyInt? p = some n) parts ns ∧ r = ns.map intStr) ∨
    (∃ k, stories = some k ∧ ((s = str "all" ∧ r = (arange 1 (k + 1)).map intStr) ∨
      (s = str "top" ∧ r = [intStr k]) ∨ (s = str "roof" ∧ r = [intStr (k + 1)]))) ∨
    (∃ lo hi a b la lb, s = lo ++ str "--" ++ hi ∧
      getLocations stories lo = .ok (intStr a :: la) ∧ getLocations stories hi = .ok (intStr b :: lb) ∧
      r = (arange a (b + 1)).map intStr) := by
  have part : ∀ (s : Str) (l : List Int), locNoRange stories s = .ok l →
      (∃ parts ns, 2 ≤ parts.length ∧ s = joinChar ',' parts ∧
        List.Forall₂ (fun p n => pyInt? p = some n) parts ns ∧ l = ns) ∨
      (∃ k, stories = some k ∧ ((s = str "all" ∧ l = arange 1 (k + 1)) ∨
        (s = str "top" ∧ l = [k]) ∨ (s = str "roof" ∧ l = [k + 1]))) := by
    intro s l hl
    unfold locNoRange at hl
    split at hl
    · rename_i hc
      refine .inl ⟨splitChar ',' s, l, ?_, (join_split ',' s).symm, intArray_ok hl, rfl⟩
      by_contra hlen
      have h1 := splitChar_ne_nil ',' s
      match hsp : splitChar ',' s with
      | [] => exact h1 hsp
      | [w] =>
        have hj := join_split ',' s
        rw [hsp] at hj
        simp only [joinChar] at hj
        have := splitChar_parts_no_sep ',' s w (by rw [hsp]; simp)
        rw [hj] at this
        simp [hasChar] at hc
        exact this hc
      | w :: w' :: ws => rw [hsp] at hlen; simp at hlen
    · unfold locKeyword at hl
      cases stories with
      | none =>
        simp only [needStories] at hl
        split at hl
        · simp at hl
        · split at hl
          · simp at hl
          · split at hl <;> simp at hl
      | some k =>
        simp only [needStories] at hl
        refine .inr ⟨k, rfl, ?_⟩
        split at hl
        · cases hl; exact .inl ⟨by assumption, rfl⟩
        · split at hl
          · cases hl; exact .inr (.inl ⟨by assumption, rfl⟩)
          · split at hl
            · cases hl; exact .inr (.inr ⟨by assumption, rfl⟩)
            · simp at hl
  unfold getLocations at h
  cases hl : locInts stories s with
  | error e => rw [hl] at h; simp at h
  | ok l =>
    rw [hl] at h
    cases h
    unfold locInts at hl
    unfold intFloat at hl
    split at hl
    · rename_i n hn
      cases hl
      refine .inl ?_
      split at hn
      all_goals first | (cases hn; done) | skip
      rename_i q hq
      cases hn
      exact ⟨q, hq, rfl⟩
    · split at hl
      · -- range
        refine .inr (.inr (.inr ?_))
        unfold locRange at hl
        split at hl
        · rename_i lo hi hsp
          have hs := splitDash2_pair hsp
          unfold rangeOf firstOf at hl
          have hp1 := locInts_part stories lo (splitDash2_parts s lo (by rw [hsp]; simp))
          have hp2 := locInts_part stories hi (splitDash2_parts s hi (by rw [hsp]; simp))
          cases h1 : locPart stories lo with
          | error e => rw [h1] at hl; simp at hl
          | ok l1 =>
            cases l1 with
            | nil => rw [h1] at hl; simp [first] at hl
            | cons a la =>
              rw [h1] at hl
              simp only [first] at hl
              cases h2 : locPart stories hi with
              | error e => rw [h2] at hl; simp at hl
              | ok l2 =>
                cases l2 with
                | nil => rw [h2] at hl; simp [first] at hl
                | cons b lb =>
                  rw [h2] at hl
                  simp only [first, Except.ok.injEq] at hl
                  refine ⟨lo, hi, a, b, la.map intStr, lb.map intStr, ?_, ?_, ?_, by rw [← hl]⟩
                  · rw [hs, List.append_assoc]; rfl
                  · simp [getLocations, hp1, h1]
                  · simp [getLocations, hp2, h2]
        · simp at hl
      · rcases part s l hl with ⟨parts, ns, h1, h2, h3, h4⟩ | ⟨k, hk, h1⟩
        · exact .inr (.inl ⟨parts, ns, h1, h2, h3, by rw [h4]⟩)
        · refine .inr (.inr (.inl ⟨k, hk, ?_⟩))
          rcases h1 with ⟨a, b⟩ | ⟨a, b⟩ | ⟨a, b⟩
          · exact .inl ⟨a, by rw [b]⟩
          · exact .inr (.inl ⟨a, by rw [b]; rfl⟩)
          · exact .inr (.inr ⟨a, by rw [b]; rfl⟩)
    · simp at hl

/-- Violation of C25: an entry that mixes a range and a list is accepted and part of it is
dropped silently (location 5 in the first case, location 2 is added in the second). -/
theorem C25_mixed_entry_truncated :
    getLocations (some 10) (str "1--3,5") = .ok [str "1", str "2", str "3"] ∧
    getLocations (some 10) (str "1,3--4") = .ok [str "1", str "2", str "3", str "4"] := by
  constructor <;> decide +kernel

/-- Violation of C25: a fractional location is cut silently. -/
theorem C25_fraction_truncated :
    getLocations (some 10) (str "2.7") = .ok [str "2"] := by
  decide +kernel

example : getLocations (some 4) (str "2--roof") = .ok [str "2", str "3", str "4", str "5"] := by
  decide +kernel

/-! ### C26 -/

/-- C26: every documented direction entry is accepted and expands to exactly the listed
directions, in order. -/
theorem C26_documented_partial (e : DirEntry) :
    ∃ l, e.Means l ∧ getDirections (some e.text) = .ok (l.map intStr) := by
  unfold getDirections
  suffices ∃ l, e.Means l ∧ dirInts e.text = .ok l by
    obtain ⟨l, h1, h2⟩ := this
    exact ⟨l, h1, by simp only [h2]⟩
  cases e with
  | one n => exact ⟨[n], rfl, by simp [DirEntry.text, dirInts, intFloat_intStr]⟩
  | list n ns two =>
    obtain ⟨h1, h2, h3, h4⟩ := list_facts n ns two
    refine ⟨n :: ns, rfl, ?_⟩
    rw [DirEntry.text, dirInts, intFloat_of_none h1]
    simp only [h3, h4, if_true]
    exact intArray_intStr (n :: ns)
  | range lo hi =>
    refine ⟨arange lo (hi + 1), ⟨arange_sorted _ _, ?_⟩, ?_⟩
    · intro k; rw [mem_arange]; constructor <;> rintro ⟨a, b⟩ <;> exact ⟨a, by omega⟩
    · have e : DirEntry.text (.range lo hi) = intStr lo ++ '-' :: '-' :: intStr hi := by
        simp only [DirEntry.text, List.append_assoc]; rfl
      have hc : hasChar ',' (intStr lo ++ '-' :: '-' :: intStr hi) = false := by
        simp [hasChar, intStr_comma]
      rw [e, dirInts, intFloat_of_none (pyFloat?_digit_minus lo _)]
      simp only [hc, hasDash2_append, if_true, Bool.false_eq_true, if_false,
        splitDash2_two (intStr_hasDash2 lo) (intStr_getLast lo) (intStr_hasDash2 hi), dirRange,
        dirPart, intFloat_intStr, firstOf, first, rangeOf]

/-- C26: whatever string is accepted, the result consists of integers (no value is passed on
unparsed). -/
theorem C26_integers (s : Str) (r : List Str) (h : getDirections (some s) = .ok r) :
    ∀ d ∈ r, ∃ n, d = intStr n := by
  simp only [getDirections] at h
  cases hd : dirInts s with
  | error e => rw [hd] at h; simp at h
  | ok l =>
    rw [hd] at h
    cases h
    intro d hd'
    obtain ⟨n, _, rfl⟩ := List.mem_map.1 hd'
    exact ⟨n, rfl⟩

/-- Violation of C26: a missing direction gives `'1.0'`, which is not the integer direction
`'1'`.  And since loading a component model passes `str(nan)`, a missing direction is refused
there. -/
theorem C26_missing_direction :
    getDirections none = .ok [str "1.0"] ∧ (∀ n, str "1.0" ≠ intStr n) ∧
    getDirections (some (str "nan")) = .error .valueError := by
  refine ⟨rfl, ?_, by decide +kernel⟩
  intro n h
  have : ('.' : Char) ∈ intStr n := by rw [← h]; decide
  rcases intStr_chars n _ this with h | h
  · exact absurd h (by decide)
  · exact absurd h (by decide)

/-- C26: an entry with a list and a range is refused (unlike for locations). -/
theorem C26_mixed_refused : getDirections (some (str "1--3,5")) = .error .valueError := by
  decide +kernel

example : getDirections (some (str "1,2")) = .ok [str "1", str "2"] := by decide +kernel
example : (DirEntry.list 1 [2] (by simp)).text = str "1,2" := by decide +kernel

end Verif.LocDir
