import Verif.Model.PyStr

namespace Verif

theorem splitChar_ne_nil (c : Char) (s : Str) : splitChar c s ≠ [] := by
  cases s with
  | nil => simp [splitChar]
  | cons x xs =>
    simp only [splitChar]
    split
    · simp
    · split <;> simp

theorem join_split (c : Char) (s : Str) : joinChar c (splitChar c s) = s := by
  induction s with
  | nil => rfl
  | cons x xs ih =>
    simp only [splitChar]
    split
    · rename_i h
      subst h
      cases h' : splitChar x xs with
      | nil => exact absurd h' (splitChar_ne_nil _ _)
      | cons w ws =>
        rw [h'] at ih
        simp [joinChar, ih]
    · cases h' : splitChar c xs with
      | nil => exact absurd h' (splitChar_ne_nil _ _)
      | cons w ws =>
        rw [h'] at ih
        cases ws with
        | nil => simp [joinChar] at ih ⊢; exact ih
        | cons w' ws => simp [joinChar] at ih ⊢; exact ih

theorem splitChar_no_sep (c : Char) (w : Str) (h : c ∉ w) : splitChar c w = [w] := by
  induction w with
  | nil => rfl
  | cons x xs ih =>
    simp at h
    have hx : x ≠ c := fun e => h.1 e.symm
    simp [splitChar, hx, ih h.2]

theorem splitChar_append_sep (c : Char) (w s : Str) (h : c ∉ w) :
    splitChar c (w ++ c :: s) = w :: splitChar c s := by
  induction w with
  | nil => simp [splitChar]
  | cons x xs ih =>
    simp at h
    have hx : x ≠ c := fun e => h.1 e.symm
    simp [splitChar, hx, ih h.2]

theorem split_join (c : Char) (ws : List Str) (hne : ws ≠ []) (h : ∀ w ∈ ws, c ∉ w) :
    splitChar c (joinChar c ws) = ws := by
  induction ws with
  | nil => exact absurd rfl hne
  | cons w ws ih =>
    cases ws with
    | nil => simpa [joinChar] using splitChar_no_sep c w (h w (by simp))
    | cons w' ws =>
      simp only [joinChar]
      rw [splitChar_append_sep c w _ (h w (by simp))]
      rw [ih (by simp) (fun x hx => h x (List.mem_cons_of_mem _ hx))]

theorem splitChar_parts_no_sep (c : Char) (s : Str) : ∀ w ∈ splitChar c s, c ∉ w := by
  induction s with
  | nil => simp [splitChar]
  | cons x xs ih =>
    simp only [splitChar]
    split
    · intro w hw
      rcases List.mem_cons.1 hw with h | h
      · subst h; simp
      · exact ih w h
    · rename_i hx
      split
      · intro w hw; simp at hw; subst hw; simp; exact fun e => hx e.symm
      · rename_i w0 ws h
        rw [h] at ih
        intro w hw
        rcases List.mem_cons.1 hw with h' | h'
        · subst h'
          simp only [List.mem_cons, not_or]
          exact ⟨fun e => hx e.symm, ih w0 (by simp)⟩
        · exact ih w (List.mem_cons_of_mem _ h')

end Verif
