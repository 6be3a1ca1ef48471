import Verif.Model.PyNum
import Verif.Lemmas.PyStr
import Verif.Lemmas.PySort

namespace Verif

theorem digitVal?_isSome_iff (c : Char) : (digitVal? c).isSome = true ↔ ('0' ≤ c ∧ c ≤ '9') := by
  unfold digitVal?; split <;> simp_all

/-- A character that is a decimal digit. -/
def IsDigit (c : Char) : Prop := (digitVal? c).isSome = true

instance (c : Char) : Decidable (IsDigit c) := inferInstanceAs (Decidable (_ = _))

theorem digitsVal_some {s : Str} {a n : Nat} (h : digitsVal a s = some n) : ∀ c ∈ s, IsDigit c := by
  induction s generalizing a with
  | nil => intro c hc; simp at hc
  | cons x xs ih =>
    unfold digitsVal at h
    cases hx : digitVal? x with
    | none => rw [hx] at h; simp at h
    | some d =>
      rw [hx] at h
      intro c hc
      rcases List.mem_cons.1 hc with rfl | hc
      · simp [IsDigit, hx]
      · exact ih h c hc

theorem digitsVal_none {s : Str} {a : Nat} {c : Char} (hc : c ∈ s) (h : ¬ IsDigit c) :
    digitsVal a s = none := by
  cases hd : digitsVal a s with
  | none => rfl
  | some n => exact absurd (digitsVal_some hd c hc) h

theorem digitsVal_isSome {s : Str} (h : ∀ c ∈ s, IsDigit c) (a : Nat) : ∃ n, digitsVal a s = some n := by
  induction s generalizing a with
  | nil => exact ⟨a, rfl⟩
  | cons x xs ih =>
    have hx := h x (by simp)
    unfold IsDigit at hx
    obtain ⟨d, hd⟩ := Option.isSome_iff_exists.1 hx
    unfold digitsVal
    rw [hd]
    exact ih (fun c hc => h c (List.mem_cons_of_mem _ hc)) _

theorem decStr_digits (n : Nat) : ∀ c ∈ decStr n, IsDigit c := digitsVal_some (digitsVal_decStr n)

theorem decStr_ne_nil (n : Nat) : decStr n ≠ [] := by
  unfold decStr decAux
  split <;> simp

theorem splitChar1_none {c : Char} {s : Str} (h : c ∉ s) : splitChar1 c s = (s, none) := by
  induction s with
  | nil => rfl
  | cons x xs ih =>
    have hx : x ≠ c := fun e => h (by simp [e])
    have hxs : c ∉ xs := fun e => h (by simp [e])
    simp only [splitChar1, if_neg hx, ih hxs]

theorem splitChar1_sep {c : Char} {w s : Str} (h : c ∉ w) :
    splitChar1 c (w ++ c :: s) = (w, some s) := by
  induction w with
  | nil => simp [splitChar1]
  | cons x xs ih =>
    have hx : x ≠ c := fun e => h (by simp [e])
    have hxs : c ∉ xs := fun e => h (by simp [e])
    simp only [List.cons_append, splitChar1, if_neg hx, ih hxs]

/-- The parts of a single split give back the string. -/
theorem splitChar1_mem {c d : Char} {s : Str} (hd : d ∈ s) (hne : d ≠ c) :
    d ∈ (splitChar1 c s).1 ∨ ∃ t, (splitChar1 c s).2 = some t ∧ d ∈ t := by
  induction s with
  | nil => simp at hd
  | cons x xs ih =>
    simp only [splitChar1]
    split
    · rename_i hx
      rcases List.mem_cons.1 hd with rfl | hd
      · exact absurd hx hne
      · exact .inr ⟨xs, rfl, hd⟩
    · rcases List.mem_cons.1 hd with rfl | hd
      · exact .inl (by simp)
      · rcases ih hd with h | h
        · exact .inl (by simp [h])
        · exact .inr h

theorem dropWhile_cons_false {p : Char → Bool} {x : Char} {s : Str} (h : p x = false) :
    (x :: s).dropWhile p = x :: s := by simp [List.dropWhile, h]

theorem strip_eq_self {p : Char → Bool} {s : Str} (h1 : ∀ c, s.head? = some c → p c = false)
    (h2 : ∀ c, s.getLast? = some c → p c = false) : strip p s = s := by
  unfold strip rstrip lstrip
  have e1 : s.dropWhile p = s := by
    cases s with
    | nil => rfl
    | cons x xs => exact dropWhile_cons_false (h1 x rfl)
  rw [e1]
  have e2 : s.reverse.dropWhile p = s.reverse := by
    cases hr : s.reverse with
    | nil => rfl
    | cons x xs =>
      refine dropWhile_cons_false (h2 x ?_)
      rw [← List.head?_reverse, hr]; rfl
  rw [e2, List.reverse_reverse]

theorem mem_dropWhile {p : Char → Bool} {s : Str} {c : Char} (hc : c ∈ s) (hp : p c = false) :
    c ∈ s.dropWhile p := by
  induction s with
  | nil => simp at hc
  | cons x xs ih =>
    by_cases hx : p x = true
    · simp only [List.dropWhile, hx]
      rcases List.mem_cons.1 hc with rfl | hc
      · rw [hx] at hp; cases hp
      · exact ih hc
    · have hx' : p x = false := by simpa using hx
      rw [dropWhile_cons_false hx']; exact hc

theorem mem_strip {p : Char → Bool} {s : Str} {c : Char} (hc : c ∈ s) (hp : p c = false) :
    c ∈ strip p s := by
  unfold strip rstrip lstrip
  rw [List.mem_reverse]
  exact mem_dropWhile (List.mem_reverse.2 (mem_dropWhile hc hp)) hp

/-- A character that cannot occur in a float literal (apart from white space). -/
def NotFloatChar (c : Char) : Prop :=
  isSpace c = false ∧ ¬ IsDigit c ∧ ¬ IsDigit (lowerC c) ∧ c ≠ '-' ∧ c ≠ '+' ∧ lowerC c ≠ '-' ∧
    lowerC c ≠ '+' ∧
    lowerC c ∉ str "infinitynane."

instance (c : Char) : Decidable (NotFloatChar c) := by unfold NotFloatChar; infer_instance

theorem mantissa?_none {m : Str} {c : Char} (hc : c ∈ m) (hd : ¬ IsDigit c) (hp : c ≠ '.') :
    mantissa? m = none := by
  unfold mantissa?
  rcases splitChar1_mem (c := '.') hc hp with h | ⟨t, ht, h⟩
  · split
    · rename_i i hi
      rw [hi] at h
      split
      · rfl
      · simp [digits0, digitsVal_none h hd]
    · rename_i i f hi
      rw [hi] at h
      split
      · rfl
      · simp [digits0, digitsVal_none h hd]
  · split
    · rename_i i hi
      rw [hi] at ht; simp at ht
    · rename_i i f hi
      rw [hi] at ht
      simp only [Option.some.injEq] at ht
      subst ht
      split
      · rfl
      · rw [show digits0 f = none from digitsVal_none h hd]
        split <;> simp_all

theorem exponent?_none {e : Str} {c : Char} (hc : c ∈ e) (hd : ¬ IsDigit c) (h1 : c ≠ '-')
    (h2 : c ≠ '+') : exponent? e = none := by
  unfold exponent?
  split
  · rename_i x xs
    rcases List.mem_cons.1 hc with h | h
    · exact absurd h h1
    · simp [digits0, digitsVal_none h hd]
  · rename_i x xs
    rcases List.mem_cons.1 hc with h | h
    · exact absurd h h2
    · simp [digits0, digitsVal_none h hd]
  · simp [digits0, digitsVal_none hc hd]
  · rfl

theorem unsignedFloat?_none {u : Str} {c : Char} (hc : c ∈ u) (hd : ¬ IsDigit c) (h1 : c ≠ '-')
    (h2 : c ≠ '+') (h3 : c ≠ '.') (h4 : c ≠ 'e') : unsignedFloat? u = none := by
  unfold unsignedFloat?
  rcases splitChar1_mem (c := 'e') hc h4 with h | ⟨t, ht, h⟩
  · split
    · rename_i m hm
      rw [hm] at h; exact mantissa?_none h hd h3
    · rename_i m e hm
      rw [hm] at h; rw [mantissa?_none h hd h3]
  · split
    · rename_i m hm
      rw [hm] at ht; simp at ht
    · rename_i m e hm
      rw [hm] at ht
      simp only [Option.some.injEq] at ht
      subst ht
      rw [exponent?_none h hd h1 h2]
      split <;> simp_all

theorem pyFloat?_none_of_char {s : Str} {c : Char} (hc : c ∈ s) (h : NotFloatChar c) :
    pyFloat? s = none := by
  obtain ⟨hs, hd, hdl, hm, hp, hml, hpl, hl⟩ := h
  have ht := mem_strip hc hs
  have hu : c ∈ (signOf (strip isSpace s)).2 := by
    unfold signOf
    split
    · rename_i u hu
      rw [hu] at ht
      rcases List.mem_cons.1 ht with h | h
      · exact absurd h hm
      · exact h
    · rename_i u hu
      rw [hu] at ht
      rcases List.mem_cons.1 ht with h | h
      · exact absurd h hp
      · exact h
    · exact ht
  have hu' : lowerC c ∈ (signOf (strip isSpace s)).2.map lowerC := List.mem_map_of_mem hu
  unfold pyFloat?
  simp only
  generalize (signOf (strip isSpace s)).2.map lowerC = u at hu'
  have key : ∀ w : Str, (∀ d ∈ w, d ∈ str "infinitynane.") → u ≠ w := by
    rintro w hw rfl
    exact hl (hw _ hu')
  unfold floatBody?
  rw [if_neg, if_neg, unsignedFloat?_none hu' hdl hml hpl]
  · rfl
  · intro e; exact hl (by rw [e]; decide)
  · intro e; exact hl (by rw [e]; decide)
  · exact key _ (by decide)
  · rintro (h | h)
    · exact key _ (by decide) h
    · exact key _ (by decide) h

theorem digit_not_space {c : Char} (h : IsDigit c) : isSpace c = false := by
  unfold IsDigit at h
  rw [digitVal?_isSome_iff] at h
  obtain ⟨h1, h2⟩ := h
  have h1' : 48 ≤ c.toNat := h1
  unfold isSpace
  simp only [Bool.or_eq_false_iff, decide_eq_false_iff_not]
  refine ⟨⟨⟨⟨⟨?_, ?_⟩, ?_⟩, ?_⟩, ?_⟩, ?_⟩ <;> rintro rfl <;> revert h1' <;> decide

theorem digit_lower {c : Char} (h : IsDigit c) : lowerC c = c := by
  unfold IsDigit at h
  rw [digitVal?_isSome_iff] at h
  obtain ⟨_, h2⟩ := h
  unfold lowerC
  rw [if_neg]
  rintro ⟨h3, _⟩
  have a : c.toNat ≤ 57 := h2
  have b : 65 ≤ c.toNat := h3
  omega

theorem not_digit_of {c : Char} {l : List Char} (h : ∀ x ∈ l, IsDigit x) (hc : ¬ IsDigit c) : c ∉ l :=
  fun hh => hc (h c hh)

/-- A digit string as a float. -/
theorem unsignedFloat?_digits {u : Str} (hne : u ≠ []) (h : ∀ c ∈ u, IsDigit c) (n : Nat)
    (hn : digitsVal 0 u = some n) : unsignedFloat? u = some (n : ℚ) := by
  unfold unsignedFloat?
  rw [splitChar1_none (not_digit_of h (by decide))]
  simp only [mantissa?]
  rw [splitChar1_none (not_digit_of h (by decide))]
  simp [hne, digits0, hn]

theorem map_lower_digits {u : Str} (h : ∀ c ∈ u, IsDigit c) : u.map lowerC = u := by
  rw [List.map_congr_left (fun c hc => digit_lower (h c hc)), List.map_id']

theorem signOf_digits {u : Str} (h : ∀ c ∈ u, IsDigit c) : signOf u = (false, u) := by
  unfold signOf
  split
  · rename_i v; exact absurd (h '-' (by simp)) (by decide)
  · rename_i v; exact absurd (h '+' (by simp)) (by decide)
  · rfl

theorem floatBody?_digits {neg : Bool} {u : Str} (hne : u ≠ []) (h : ∀ c ∈ u, IsDigit c) (n : Nat)
    (hn : digitsVal 0 u = some n) :
    floatBody? neg u = some (.fin (if neg then -(n : ℚ) else (n : ℚ))) := by
  unfold floatBody?
  have h1 : ¬ (u = str "inf" ∨ u = str "infinity") := by
    rintro (rfl | rfl)
    · exact absurd (h 'i' (by decide)) (by decide)
    · exact absurd (h 'i' (by decide)) (by decide)
  have h2 : ¬ u = str "nan" := by
    rintro rfl; exact absurd (h 'n' (by decide)) (by decide)
  rw [if_neg h1, if_neg h2, unsignedFloat?_digits hne h n hn]
  rfl

theorem strip_of_no_space {s : Str} (h : ∀ c ∈ s, isSpace c = false) : strip isSpace s = s :=
  strip_eq_self (fun c hc => h c (List.mem_of_head? hc)) (fun c hc => h c (List.mem_of_getLast? hc))

theorem intStr_no_space (n : Int) : ∀ c ∈ intStr n, isSpace c = false := by
  intro c hc
  cases n with
  | ofNat n => exact digit_not_space (decStr_digits n c hc)
  | negSucc n =>
    rcases List.mem_cons.1 hc with rfl | hc
    · decide
    · exact digit_not_space (decStr_digits _ c hc)

/-- The characters of an integer: digits or a minus sign. -/
theorem intStr_chars (n : Int) : ∀ c ∈ intStr n, IsDigit c ∨ c = '-' := by
  intro c hc
  cases n with
  | ofNat n => exact .inl (decStr_digits n c hc)
  | negSucc n =>
    rcases List.mem_cons.1 hc with rfl | hc
    · exact .inr rfl
    · exact .inl (decStr_digits _ c hc)

theorem pyFloat?_intStr (n : Int) : pyFloat? (intStr n) = some (.fin (n : ℚ)) := by
  unfold pyFloat?
  simp only [strip_of_no_space (intStr_no_space n)]
  cases n with
  | ofNat n =>
    simp only [intStr, signOf_digits (decStr_digits n), map_lower_digits (decStr_digits n)]
    rw [floatBody?_digits (decStr_ne_nil n) (decStr_digits n) n (digitsVal_decStr n)]
    simp
  | negSucc n =>
    simp only [intStr, signOf, map_lower_digits (decStr_digits (n + 1))]
    rw [floatBody?_digits (decStr_ne_nil _) (decStr_digits _) _ (digitsVal_decStr _)]
    simp only [if_true, Int.cast_negSucc]

theorem truncQ_int (n : Int) : truncQ (n : ℚ) = n := by
  simp [truncQ]

theorem intFloat_intStr (n : Int) : intFloat (intStr n) = .ok n := by
  unfold intFloat
  rw [pyFloat?_intStr]
  simp only [truncQ_int]

theorem intFloat_of_none {s : Str} (h : pyFloat? s = none) : intFloat s = .error .valueError := by
  unfold intFloat; rw [h]

theorem pyInt?_intStr (n : Int) : pyInt? (intStr n) = some n := by
  unfold pyInt?
  rw [strip_of_no_space (intStr_no_space n)]
  cases n with
  | ofNat n =>
    simp only [intStr]
    have hd := decStr_digits n
    have hv := digitsVal_decStr n
    have hne := decStr_ne_nil n
    generalize decStr n = u at hd hv hne
    split
    · exact absurd rfl hne
    · exact absurd (hd '-' (by simp)) (by decide)
    · exact absurd (hd '+' (by simp)) (by decide)
    · exact absurd (hd '-' (by simp)) (by decide)
    · exact absurd (hd '+' (by simp)) (by decide)
    · simp [hv]
  | negSucc n =>
    simp only [intStr]
    have hv := digitsVal_decStr (n + 1)
    have hne := decStr_ne_nil (n + 1)
    generalize decStr (n + 1) = u at hv hne
    cases u with
    | nil => exact absurd rfl hne
    | cons c cs => simp [hv, Int.negSucc_eq]

/-- A literal with a minus sign after a digit is no float. -/
theorem pyFloat?_digit_minus (n : Int) (s : Str) : pyFloat? (intStr n ++ '-' :: s) = none := by
  have hlast : ∀ (u t : Str), u ≠ [] → (∀ c ∈ u, IsDigit c) → ∃ t', strip isSpace (u ++ '-' :: t) = u ++ '-' :: t' := by
    intro u t hne hu
    unfold strip rstrip lstrip
    have e1 : (u ++ '-' :: t).dropWhile isSpace = u ++ '-' :: t := by
      cases u with
      | nil => exact absurd rfl hne
      | cons x xs => exact dropWhile_cons_false (digit_not_space (hu x (by simp)))
    rw [e1]
    have : ∀ (r v : Str), (r ++ '-' :: v).dropWhile isSpace = r.dropWhile isSpace ++ '-' :: v := by
      intro r v
      induction r with
      | nil => exact dropWhile_cons_false (by decide)
      | cons x xs ih =>
        by_cases hx : isSpace x = true
        · simp only [List.cons_append, List.dropWhile, hx]; exact ih
        · have hx' : isSpace x = false := by simpa using hx
          rw [List.cons_append, dropWhile_cons_false hx', dropWhile_cons_false hx', List.cons_append]
    have e2 : (u ++ '-' :: t).reverse = t.reverse ++ '-' :: u.reverse := by simp
    rw [e2, this]
    exact ⟨(t.reverse.dropWhile isSpace).reverse, by simp⟩
  have body : ∀ (neg : Bool) (u t : Str), u ≠ [] → (∀ c ∈ u, IsDigit c) →
      floatBody? neg ((u ++ '-' :: t).map lowerC) = none := by
    intro neg u t hne hu
    have e : (u ++ '-' :: t).map lowerC = u ++ '-' :: t.map lowerC := by
      rw [List.map_append, map_lower_digits hu]; rfl
    rw [e]
    generalize t.map lowerC = t
    unfold floatBody?
    have hm : ('-' : Char) ∈ u ++ '-' :: t := by simp
    rw [if_neg, if_neg]
    · unfold unsignedFloat?
      have hsp : ∃ m o, splitChar1 'e' (u ++ '-' :: t) = (u ++ '-' :: m, o) := by
        clear hm e
        induction u with
        | nil =>
          refine ⟨(splitChar1 'e' t).1, (splitChar1 'e' t).2, ?_⟩
          simp [splitChar1]
        | cons x xs ih =>
          have hx : x ≠ 'e' := by rintro rfl; exact absurd (hu 'e' (by simp)) (by decide)
          by_cases hxs : xs = []
          · subst hxs
            refine ⟨(splitChar1 'e' t).1, (splitChar1 'e' t).2, ?_⟩
            simp [splitChar1, hx]
          · obtain ⟨m, o, h⟩ := ih hxs (fun c hc => hu c (List.mem_cons_of_mem _ hc))
            exact ⟨m, o, by simp only [List.cons_append, splitChar1, if_neg hx, h]⟩
      obtain ⟨m, o, h⟩ := hsp
      rw [h]
      have hn : mantissa? (u ++ '-' :: m) = none :=
        mantissa?_none (c := '-') (by simp) (by decide) (by decide)
      cases o <;> simp [hn]
    · intro e; exact absurd (e ▸ hm : '-' ∈ str "nan") (by decide)
    · rintro (e | e)
      · exact absurd (e ▸ hm : '-' ∈ str "inf") (by decide)
      · exact absurd (e ▸ hm : '-' ∈ str "infinity") (by decide)
  unfold pyFloat?
  simp only
  cases n with
  | ofNat n =>
    obtain ⟨t', ht⟩ := hlast (decStr n) s (decStr_ne_nil n) (decStr_digits n)
    simp only [intStr, ht]
    have hs : signOf (decStr n ++ '-' :: t') = (false, decStr n ++ '-' :: t') := by
      have hd := decStr_digits n
      have hne := decStr_ne_nil n
      generalize decStr n = u at hd hne
      cases u with
      | nil => exact absurd rfl hne
      | cons x xs =>
        have h1 : x ≠ '-' := by rintro rfl; exact absurd (hd '-' (by simp)) (by decide)
        have h2 : x ≠ '+' := by rintro rfl; exact absurd (hd '+' (by simp)) (by decide)
        simp only [List.cons_append, signOf]
        split
        · rename_i heq; exact absurd (List.cons.inj heq).1 h1
        · rename_i heq; exact absurd (List.cons.inj heq).1 h2
        · rfl
    rw [hs]
    exact body _ _ _ (decStr_ne_nil n) (decStr_digits n)
  | negSucc n =>
    have hst : ∃ t', strip isSpace ('-' :: (decStr (n + 1) ++ '-' :: s)) =
        '-' :: (decStr (n + 1) ++ '-' :: t') := by
      obtain ⟨t', ht⟩ := hlast (decStr (n + 1)) s (decStr_ne_nil _) (decStr_digits _)
      refine ⟨t', ?_⟩
      have e0 : strip isSpace ('-' :: (decStr (n + 1) ++ '-' :: s)) =
          '-' :: strip isSpace (decStr (n + 1) ++ '-' :: s) := by
        unfold strip rstrip lstrip
        rw [dropWhile_cons_false (by decide)]
        have : (decStr (n + 1) ++ '-' :: s).dropWhile isSpace = decStr (n + 1) ++ '-' :: s := by
          have hd := decStr_digits (n + 1)
          have hne := decStr_ne_nil (n + 1)
          generalize decStr (n + 1) = u at hd hne
          cases u with
          | nil => exact absurd rfl hne
          | cons x xs => exact dropWhile_cons_false (digit_not_space (hd x (by simp)))
        rw [this]
        have h2 : ∀ (r v : Str), (r ++ '-' :: v).dropWhile isSpace = r.dropWhile isSpace ++ '-' :: v := by
          intro r v
          induction r with
          | nil => exact dropWhile_cons_false (by decide)
          | cons x xs ih =>
            by_cases hx : isSpace x = true
            · simp only [List.cons_append, List.dropWhile, hx]; exact ih
            · have hx' : isSpace x = false := by simpa using hx
              rw [List.cons_append, dropWhile_cons_false hx', dropWhile_cons_false hx', List.cons_append]
        have e2 : ('-' :: (decStr (n + 1) ++ '-' :: s)).reverse =
            s.reverse ++ '-' :: ((decStr (n + 1)).reverse ++ ['-']) := by simp
        have e3 : (decStr (n + 1) ++ '-' :: s).reverse = s.reverse ++ '-' :: (decStr (n + 1)).reverse := by
          simp
        rw [e2, e3, h2, h2]
        simp
      rw [e0, ht]
    obtain ⟨t', ht⟩ := hst
    simp only [intStr, List.cons_append, ht, signOf]
    exact body _ _ _ (decStr_ne_nil _) (decStr_digits _)

theorem mem_arange {lo hi k : Int} : k ∈ arange lo hi ↔ lo ≤ k ∧ k < hi := by
  unfold arange
  simp only [List.mem_map, List.mem_range]
  constructor
  · rintro ⟨i, hi', rfl⟩; omega
  · rintro ⟨h1, h2⟩; exact ⟨(k - lo).toNat, by omega, by omega⟩

theorem arange_sorted (lo hi : Int) : (arange lo hi).Pairwise (· < ·) := by
  unfold arange
  rw [List.pairwise_map]
  exact List.pairwise_lt_range.imp (fun h => by omega)

theorem intArray_intStr (ns : List Int) : intArray (ns.map intStr) = .ok ns := by
  unfold intArray
  induction ns with
  | nil => rfl
  | cons n ns ih => simp only [List.map_cons, mapE, pyInt?_intStr, ih]

theorem intArray_ok {parts : List Str} {ns : List Int} (h : intArray parts = .ok ns) :
    List.Forall₂ (fun p n => pyInt? p = some n) parts ns := by
  unfold intArray at h
  refine (mapE_ok_iff.1 h).imp ?_
  intro p n hp
  cases hq : pyInt? p with
  | none => rw [hq] at hp; simp at hp
  | some m => rw [hq] at hp; simp at hp; rw [hp]

end Verif
