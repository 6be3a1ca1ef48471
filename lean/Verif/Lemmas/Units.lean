import Verif.Model.Units
import Mathlib.Data.List.Nodup

namespace Verif.Units

theorem dictRaise_eq {α : Type} (l : List (Str × α)) : ∀ d : Dict Str α, d.NoDupKeys →
    dictRaiseOnDuplicates d l =
      if ((d ++ l).map Prod.fst).Nodup then .ok (d ++ l) else .error .valueError := by
  induction l with
  | nil => intro d hd; simp only [dictRaiseOnDuplicates, List.append_nil]; rw [if_pos (show (List.map Prod.fst d).Nodup from hd)]
  | cons a l ih =>
    intro d hd
    obtain ⟨k, v⟩ := a
    simp only [dictRaiseOnDuplicates]
    by_cases hk : d.contains k = true
    · rw [if_pos hk, if_neg]
      intro hn
      rw [List.map_append, List.nodup_append] at hn
      exact hn.2.2 k ((Dict.contains_iff d k).1 hk) k (by simp) rfl
    · have hk' : k ∉ d.keys := fun h => hk ((Dict.contains_iff d k).2 h)
      rw [if_neg hk, ih _ (Dict.noDupKeys_set hd k v), Dict.set_of_not_mem hk']
      simp

theorem dictRaise_nil {α : Type} (l : List (Str × α)) :
    dictRaiseOnDuplicates [] l =
      if (l.map Prod.fst).Nodup then .ok l else .error .valueError := by
  rw [dictRaise_eq l [] (by simp [Dict.NoDupKeys, Dict.keys])]; simp

theorem flattenCat_eq (l : List (Str × ℚ)) : ∀ acc, flattenCat acc l = dictRaiseOnDuplicates acc l := by
  induction l with
  | nil => intro; rfl
  | cons a l ih => intro acc; obtain ⟨k, v⟩ := a; simp [flattenCat, dictRaiseOnDuplicates, ih]

theorem dictRaise_append {α : Type} (a b : List (Str × α)) : ∀ d : Dict Str α,
    dictRaiseOnDuplicates d (a ++ b) =
      match dictRaiseOnDuplicates d a with
      | .error e => .error e
      | .ok d' => dictRaiseOnDuplicates d' b := by
  induction a with
  | nil => intro; rfl
  | cons x a ih =>
    intro d; obtain ⟨k, v⟩ := x
    simp only [List.cons_append, dictRaiseOnDuplicates]
    split
    · rfl
    · exact ih _

theorem flatten_eq (t : Table) : ∀ acc, flatten acc t = dictRaiseOnDuplicates acc (t.flatMap Prod.snd) := by
  induction t with
  | nil => intro; rfl
  | cons a t ih =>
    intro acc; obtain ⟨c, us⟩ := a
    simp only [flatten, List.flatMap_cons, dictRaise_append, flattenCat_eq]
    split <;> simp_all

theorem findCategory_some {t : Table} {u : Str} {us : Dict Str ℚ} (h : findCategory t u = some us) :
    ∃ (i : Nat) (c : Str), t[i]? = some (c, us) ∧ u ∈ us.keys ∧
      ∀ j < i, ∀ c' us', t[j]? = some (c', us') → u ∉ us'.keys := by
  induction t with
  | nil => simp [findCategory] at h
  | cons a t ih =>
    obtain ⟨c, vs⟩ := a
    simp only [findCategory] at h
    split at h
    · rename_i hc
      cases h
      exact ⟨0, c, by simp, (Dict.contains_iff _ _).1 hc, by simp⟩
    · rename_i hc
      obtain ⟨i, c', h1, h2, h3⟩ := ih h
      refine ⟨i + 1, c', by simpa using h1, h2, ?_⟩
      intro j hj c'' us'' hj'
      cases j with
      | zero =>
        simp at hj'
        intro hm
        exact hc ((Dict.contains_iff _ _).2 (by rw [hj'.2]; exact hm))
      | succ j => exact h3 j (by omega) c'' us'' (by simpa using hj')

theorem findCategory_none {t : Table} {u : Str} (h : findCategory t u = none) :
    ∀ e ∈ t, u ∉ Dict.keys e.2 := by
  induction t with
  | nil => simp
  | cons a t ih =>
    obtain ⟨c, vs⟩ := a
    simp only [findCategory] at h
    split at h
    · simp at h
    · rename_i hc
      intro e he
      rcases List.mem_cons.1 he with rfl | he
      · exact fun hm => hc ((Dict.contains_iff _ _).2 hm)
      · exact ih h e he

theorem findCategory_mem {t : Table} {u : Str} {us : Dict Str ℚ} (h : findCategory t u = some us) :
    (∃ c, (c, us) ∈ t) ∧ u ∈ us.keys := by
  obtain ⟨i, c, h1, h2, _⟩ := findCategory_some h
  exact ⟨⟨c, List.mem_of_getElem? h1⟩, h2⟩

/-- With globally unique unit names the category of a unit is determined. -/
theorem findCategory_unique {t : Table} (hu : (t.flatMap (fun e => Dict.keys e.2)).Nodup)
    {c : Str} {us : Dict Str ℚ} (hm : (c, us) ∈ t) {u : Str} (hk : u ∈ us.keys) :
    findCategory t u = some us := by
  induction t with
  | nil => simp at hm
  | cons a t ih =>
    obtain ⟨c', vs⟩ := a
    rw [List.flatMap_cons, List.nodup_append] at hu
    simp only [findCategory]
    rcases List.mem_cons.1 hm with h | h
    · cases h
      rw [if_pos ((Dict.contains_iff _ _).2 hk)]
    · rw [if_neg]
      · exact ih hu.2.1 h
      · intro hc
        exact hu.2.2 u ((Dict.contains_iff _ _).1 hc) u
          (List.mem_flatMap.2 ⟨(c, us), h, hk⟩) rfl

end Verif.Units
