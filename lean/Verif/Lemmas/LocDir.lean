import Verif.Model.LocDir
import Verif.Lemmas.PyNum

namespace Verif

theorem splitDash2_ne_nil (s : Str) : splitDash2 s ≠ [] := by
  induction s using splitDash2.induct with
  | case1 => simp [splitDash2]
  | case2 xs ih => simp [splitDash2]
  | case3 x xs h1 h2 ih => rw [splitDash2]; split <;> simp; all_goals (first | exact h1 | skip)
  | case4 x xs h1 w ws h2 ih => rw [splitDash2]; split <;> simp; all_goals (first | exact h1 | skip)

/-- A character that does not start a separator stays in its part. -/
theorem splitDash2_cons {x : Char} {xs : Str} (h : ∀ ys, ¬ (x = '-' ∧ xs = '-' :: ys)) :
    splitDash2 (x :: xs) = match splitDash2 xs with
      | [] => [[x]]
      | w :: ws => (x :: w) :: ws := by
  rw [splitDash2]
  · rfl
  · intro ys e1 e2; exact h ys ⟨e1, e2⟩

theorem hasDash2_cons {x : Char} {xs : Str} (h : ∀ ys, ¬ (x = '-' ∧ xs = '-' :: ys)) :
    hasDash2 (x :: xs) = hasDash2 xs := by
  rw [hasDash2]
  intro ys e1 e2; exact h ys ⟨e1, e2⟩

theorem hasDash2_false_cons {x : Char} {xs : Str} (h : hasDash2 (x :: xs) = false) :
    (∀ ys, ¬ (x = '-' ∧ xs = '-' :: ys)) ∧ hasDash2 xs = false := by
  have h1 : ∀ ys, ¬ (x = '-' ∧ xs = '-' :: ys) := by
    rintro ys ⟨rfl, rfl⟩
    simp [hasDash2] at h
  exact ⟨h1, by rw [← hasDash2_cons h1]; exact h⟩

theorem splitDash2_of_no (s : Str) (h : hasDash2 s = false) : splitDash2 s = [s] := by
  induction s with
  | nil => rfl
  | cons x xs ih =>
    obtain ⟨h1, h2⟩ := hasDash2_false_cons h
    rw [splitDash2_cons h1, ih h2]

theorem splitDash2_two {a b : Str} (ha : hasDash2 a = false) (hl : a.getLast? ≠ some '-')
    (hb : hasDash2 b = false) : splitDash2 (a ++ '-' :: '-' :: b) = [a, b] := by
  induction a with
  | nil => simp [splitDash2, splitDash2_of_no b hb]
  | cons x xs ih =>
    obtain ⟨h1, h2⟩ := hasDash2_false_cons ha
    have hx : ∀ ys, ¬ (x = '-' ∧ xs ++ '-' :: '-' :: b = '-' :: ys) := by
      rintro ys ⟨rfl, e⟩
      cases xs with
      | nil => simp at hl
      | cons y ys' =>
        simp only [List.cons_append, List.cons.injEq] at e
        exact h1 ys' ⟨rfl, by rw [e.1]⟩
    have hl' : xs.getLast? ≠ some '-' := by
      cases xs with
      | nil => simp
      | cons y ys => simpa [List.getLast?_cons_cons] using hl
    rw [List.cons_append, splitDash2_cons hx, ih h2 hl']

theorem hasDash2_append (a b : Str) : hasDash2 (a ++ '-' :: '-' :: b) = true := by
  induction a with
  | nil => simp [hasDash2]
  | cons x xs ih =>
    by_cases h : ∃ ys, x = '-' ∧ xs ++ '-' :: '-' :: b = '-' :: ys
    · obtain ⟨ys, rfl, e⟩ := h
      rw [List.cons_append, e]; simp [hasDash2]
    · rw [List.cons_append, hasDash2_cons (fun ys hy => h ⟨ys, hy⟩), ih]

/-- Joining the parts with `--` gives back the string. -/
theorem splitDash2_pair {s lo hi : Str} (h : splitDash2 s = [lo, hi]) : s = lo ++ '-' :: '-' :: hi := by
  have one : ∀ (t w : Str), splitDash2 t = [w] → t = w := by
    intro t
    induction t with
    | nil => intro w h; simp [splitDash2] at h; exact h.symm
    | cons x xs ih =>
      intro w h
      by_cases hx : ∃ ys, x = '-' ∧ xs = '-' :: ys
      · obtain ⟨ys, rfl, rfl⟩ := hx
        simp only [splitDash2, List.cons.injEq] at h
        exact absurd h.2 (splitDash2_ne_nil ys)
      · rw [splitDash2_cons (fun ys hy => hx ⟨ys, hy⟩)] at h
        cases hs : splitDash2 xs with
        | nil => exact absurd hs (splitDash2_ne_nil xs)
        | cons v vs =>
          rw [hs] at h
          simp only [List.cons.injEq] at h
          rw [h.2] at hs
          rw [ih v hs, h.1]
  have len : ∀ (t : Str) (p : List Str), splitDash2 t = p → ∀ w w', p = [w, w'] → t = w ++ '-' :: '-' :: w' := by
    intro t
    induction hn : t.length using Nat.strong_induction_on generalizing t with
    | _ n ih =>
      intro p hp w w' hw
      subst hw
      cases t with
      | nil => simp [splitDash2] at hp
      | cons x xs =>
        by_cases hx : ∃ ys, x = '-' ∧ xs = '-' :: ys
        · obtain ⟨ys, rfl, rfl⟩ := hx
          simp only [splitDash2, List.cons.injEq] at hp
          obtain ⟨rfl, h2⟩ := hp
          rw [one ys w' h2]; rfl
        · rw [splitDash2_cons (fun ys hy => hx ⟨ys, hy⟩)] at hp
          cases hs : splitDash2 xs with
          | nil => exact absurd hs (splitDash2_ne_nil xs)
          | cons v vs =>
            rw [hs] at hp
            simp only [List.cons.injEq] at hp
            obtain ⟨h1, rfl⟩ := hp
            have := ih xs.length (by rw [← hn]; simp) xs rfl [v, w'] hs v w' rfl
            rw [this, ← h1]; rfl
  exact len s _ h _ _ rfl

theorem not_mem_of_chars {s : Str} {c : Char} {P : Char → Prop} (h : ∀ x ∈ s, P x) (hc : ¬ P c) : c ∉ s :=
  fun hh => hc (h c hh)

theorem hasDash2_of_digits {u : Str} (h : ∀ c ∈ u, IsDigit c) : hasDash2 u = false := by
  induction u with
  | nil => rfl
  | cons x xs ih =>
    rw [hasDash2_cons]
    · exact ih (fun c hc => h c (List.mem_cons_of_mem _ hc))
    · rintro ys ⟨rfl, _⟩; exact absurd (h '-' (by simp)) (by decide)

theorem intStr_hasDash2 (n : Int) : hasDash2 (intStr n) = false := by
  cases n with
  | ofNat n => exact hasDash2_of_digits (decStr_digits n)
  | negSucc n =>
    simp only [intStr]
    rw [hasDash2_cons]
    · exact hasDash2_of_digits (decStr_digits _)
    · rintro ys ⟨_, h⟩
      exact absurd (decStr_digits (n + 1) '-' (by rw [h]; simp)) (by decide)

theorem intStr_getLast (n : Int) : (intStr n).getLast? ≠ some '-' := by
  intro h
  cases n with
  | ofNat n => exact absurd (decStr_digits n '-' (List.mem_of_getLast? h)) (by decide)
  | negSucc n =>
    simp only [intStr] at h
    have hne := decStr_ne_nil (n + 1)
    have hd := decStr_digits (n + 1)
    generalize decStr (n + 1) = u at h hne hd
    cases u with
    | nil => exact absurd rfl hne
    | cons c cs =>
      rw [List.getLast?_cons_cons] at h
      exact absurd (hd '-' (List.mem_of_getLast? h)) (by decide)

theorem intStr_comma (n : Int) : ',' ∉ intStr n := by
  intro h
  rcases intStr_chars n _ h with h | h
  · exact absurd h (by decide)
  · exact absurd h (by decide)

theorem mem_joinChar {c : Char} {ws : List Str} (h : 2 ≤ ws.length) : c ∈ joinChar c ws := by
  match ws, h with
  | w :: w' :: ws, _ => simp [joinChar]

namespace LocDir

/-- The recursive calls of `_get_locations` are on strings without `--`; on those the
function is `locPart`. -/
theorem locInts_part (stories : Option Int) (s : Str) (h : hasDash2 s = false) :
    locInts stories s = locPart stories s := by
  unfold locInts locPart
  simp only [h]
  rfl

/-- The parts obtained by splitting at `--` do not contain `--`. -/
theorem splitDash2_parts (s : Str) : ∀ w ∈ splitDash2 s, hasDash2 w = false := by
  induction hn : s.length using Nat.strong_induction_on generalizing s with
  | _ n ih =>
    cases s with
    | nil => intro w hw; simp [splitDash2] at hw; subst hw; rfl
    | cons x xs =>
      by_cases hx : ∃ ys, x = '-' ∧ xs = '-' :: ys
      · obtain ⟨ys, rfl, rfl⟩ := hx
        intro w hw
        simp only [splitDash2, List.mem_cons] at hw
        rcases hw with rfl | hw
        · rfl
        · exact ih ys.length (by rw [← hn]; simp; omega) ys rfl w hw
      · intro w hw
        rw [splitDash2_cons (fun ys hy => hx ⟨ys, hy⟩)] at hw
        have hall := ih xs.length (by rw [← hn]; simp) xs rfl
        cases hs : splitDash2 xs with
        | nil => exact absurd hs (splitDash2_ne_nil xs)
        | cons v vs =>
          rw [hs] at hw hall
          rcases List.mem_cons.1 hw with rfl | hw
          · rw [hasDash2_cons]
            · exact hall v (by simp)
            · rintro ys ⟨rfl, rfl⟩
              -- then xs starts with '-'
              cases xs with
              | nil => simp [splitDash2] at hs
              | cons y ys' =>
                by_cases hy : ∃ zs, y = '-' ∧ ys' = '-' :: zs
                · obtain ⟨zs, rfl, rfl⟩ := hy
                  simp [splitDash2] at hs
                · rw [splitDash2_cons (fun zs hz => hy ⟨zs, hz⟩)] at hs
                  cases hs' : splitDash2 ys' with
                  | nil => exact absurd hs' (splitDash2_ne_nil ys')
                  | cons v' vs' =>
                    rw [hs'] at hs
                    simp only [List.cons.injEq] at hs
                    exact hx ⟨ys', rfl, by rw [hs.1.1]⟩
          · exact hall w (List.mem_cons_of_mem _ hw)

end LocDir
end Verif
