import Verif.Model.PySort
import Verif.Model.PyStr
import Mathlib.Data.List.Perm.Basic
import Mathlib.Tactic.IntervalCases

namespace Verif

variable {α : Type}

theorem insertSorted_perm (le : α → α → Bool) (a : α) (l : List α) :
    (insertSorted le a l).Perm (a :: l) := by
  induction l with
  | nil => exact List.Perm.refl _
  | cons b l ih =>
    simp only [insertSorted]
    split
    · exact List.Perm.refl _
    · exact (ih.cons b).trans (List.Perm.swap a b l)

theorem pySort_perm (le : α → α → Bool) (l : List α) : (pySort le l).Perm l := by
  induction l with
  | nil => exact List.Perm.refl _
  | cons a l ih => exact (insertSorted_perm le a _).trans (ih.cons a)

theorem mem_pySort {le : α → α → Bool} {l : List α} {a : α} : a ∈ pySort le l ↔ a ∈ l :=
  (pySort_perm le l).mem_iff

theorem insertSorted_sorted {le : α → α → Bool} (htot : ∀ a b, le a b = true ∨ le b a = true)
    (htr : ∀ a b c, le a b = true → le b c = true → le a c = true) (a : α) (l : List α)
    (h : l.Pairwise (fun x y => le x y = true)) :
    (insertSorted le a l).Pairwise (fun x y => le x y = true) := by
  induction l with
  | nil => simp [insertSorted]
  | cons b l ih =>
    rw [List.pairwise_cons] at h
    simp only [insertSorted]
    split
    · rename_i hab
      rw [List.pairwise_cons]
      refine ⟨?_, List.pairwise_cons.2 h⟩
      intro x hx
      rcases List.mem_cons.1 hx with rfl | hx
      · exact hab
      · exact htr _ _ _ hab (h.1 x hx)
    · rename_i hab
      rw [List.pairwise_cons]
      refine ⟨?_, ih h.2⟩
      intro x hx
      rcases List.mem_cons.1 ((insertSorted_perm le a l).mem_iff.1 hx) with rfl | hx
      · exact (htot _ _).resolve_left hab
      · exact h.1 x hx

theorem pySort_sorted {le : α → α → Bool} (htot : ∀ a b, le a b = true ∨ le b a = true)
    (htr : ∀ a b c, le a b = true → le b c = true → le a c = true) (l : List α) :
    (pySort le l).Pairwise (fun x y => le x y = true) := by
  induction l with
  | nil => exact List.Pairwise.nil
  | cons a l ih => exact insertSorted_sorted htot htr a _ ih

theorem strLe_total (a b : Str) : strLe a b = true ∨ strLe b a = true := by
  induction a generalizing b with
  | nil => left; rfl
  | cons x xs ih =>
    cases b with
    | nil => right; rfl
    | cons y ys =>
      simp only [strLe]
      rcases Nat.lt_trichotomy x.toNat y.toNat with h | h | h
      · left; simp [h]
      · simp only [h, lt_irrefl, if_false]; exact ih ys
      · right; simp [h]

theorem strLe_trans (a b c : Str) (h1 : strLe a b = true) (h2 : strLe b c = true) :
    strLe a c = true := by
  induction a generalizing b c with
  | nil => rfl
  | cons x xs ih =>
    cases b with
    | nil => simp [strLe] at h1
    | cons y ys =>
      cases c with
      | nil => simp [strLe] at h2
      | cons z zs =>
        simp only [strLe] at h1 h2 ⊢
        split at h1
        · split at h2
          · rw [if_pos (by omega)]
          · split at h2
            · simp at h2
            · rw [if_pos (by omega)]
        · split at h1
          · simp at h1
          · split at h2
            · rw [if_pos (by omega)]
            · split at h2
              · simp at h2
              · rw [if_neg (by omega), if_neg (by omega)]; exact ih _ _ h1 h2

theorem char_toNat_inj {a b : Char} (h : a.toNat = b.toNat) : a = b := by
  have := congrArg Char.ofNat h
  simpa [Char.ofNat_toNat] using this

theorem strLe_antisymm (a b : Str) (h1 : strLe a b = true) (h2 : strLe b a = true) : a = b := by
  induction a generalizing b with
  | nil => cases b with
    | nil => rfl
    | cons y ys => simp [strLe] at h2
  | cons x xs ih =>
    cases b with
    | nil => simp [strLe] at h1
    | cons y ys =>
      simp only [strLe] at h1 h2
      split at h1
      · rw [if_neg (by omega), if_pos (by omega)] at h2; simp at h2
      · split at h1
        · simp at h1
        · rw [if_neg (by omega), if_neg (by omega)] at h2
          rw [ih _ h1 h2, char_toNat_inj (by omega : x.toNat = y.toNat)]

theorem digitVal_digitChar (n : Nat) (h : n < 10) : digitVal? (digitChar n) = some n := by
  interval_cases n <;> decide

theorem digitsVal_append (s t : Str) (acc : Nat) :
    digitsVal acc (s ++ t) = (digitsVal acc s).bind (fun v => digitsVal v t) := by
  induction s generalizing acc with
  | nil => rfl
  | cons c s ih =>
    simp only [List.cons_append, digitsVal]
    cases digitVal? c with
    | none => rfl
    | some d => exact ih _

theorem digitsVal_decAux (fuel n : Nat) (h : n < fuel) : digitsVal 0 (decAux fuel n) = some n := by
  induction fuel generalizing n with
  | zero => omega
  | succ fuel ih =>
    simp only [decAux]
    split
    · rename_i h'
      simp [digitsVal, digitVal_digitChar n h']
    · rw [digitsVal_append, ih (n / 10) (by omega)]
      simp only [Option.bind_some, digitsVal, digitVal_digitChar (n % 10) (by omega)]
      congr 1
      omega

/-- Reading the decimal digits gives the number back. -/
theorem digitsVal_decStr (n : Nat) : digitsVal 0 (decStr n) = some n :=
  digitsVal_decAux _ _ (Nat.lt_succ_self n)

theorem decStr_inj {a b : Nat} (h : decStr a = decStr b) : a = b := by
  have := congrArg (digitsVal 0) h
  simpa [digitsVal_decStr] using this

end Verif
