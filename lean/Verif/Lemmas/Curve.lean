import Verif.Spec.Curve
import Verif.Model.Interp
import Verif.Lemmas.Interp
import Mathlib.Tactic.Ring
import Mathlib.Tactic.Linarith

/-! # `interp` computes the curve of `Spec/Curve.lean` -/

namespace Verif

theorem onGraph_congr {pts pts' : List (ℚ × ℚ)} (h : ∀ p, p ∈ pts ↔ p ∈ pts') {x m : ℚ} (hg : OnGraph pts x m) : OnGraph pts' x m := by
  rcases hg with ⟨p, hp, h1⟩ | ⟨a, ha, b, hb, h1, h2, h3, h4⟩
  · exact Or.inl ⟨p, (h p).1 hp, h1⟩
  · exact Or.inr ⟨a, (h a).1 ha, b, (h b).1 hb, h1, h2, fun c hc => h3 c ((h c).2 hc), h4⟩

theorem onGraph_cons {p : ℚ × ℚ} {pts : List (ℚ × ℚ)} (hp : ∀ c ∈ pts, p.1 < c.1) {x m : ℚ} (hg : OnGraph pts x m) : OnGraph (p :: pts) x m := by
  rcases hg with ⟨q, hq, h1⟩ | ⟨a, ha, b, hb, h1, h2, h3, h4⟩
  · exact Or.inl ⟨q, List.mem_cons_of_mem _ hq, h1⟩
  · refine Or.inr ⟨a, List.mem_cons_of_mem _ ha, b, List.mem_cons_of_mem _ hb, h1, h2, ?_, h4⟩
    intro c hc
    rcases List.mem_cons.1 hc with rfl | hc
    · exact Or.inl (hp a ha).le
    · exact h3 c hc

theorem xAsc_head {p : ℚ × ℚ} {pts : List (ℚ × ℚ)} (h : XAsc (p :: pts)) : (∀ c ∈ pts, p.1 < c.1) ∧ XAsc pts := by
  simp only [XAsc, List.map_cons, List.pairwise_cons] at h
  exact ⟨fun c hc => h.1 _ (List.mem_map.2 ⟨c, hc, rfl⟩), h.2⟩

theorem interpFrom_graph : ∀ (pts : List (ℚ × ℚ)) (p : ℚ × ℚ) (x : ℚ), XAsc (p :: pts) → p.1 ≤ x →
    OnGraph (p :: pts) x (interpFrom (p :: pts) x) ∨
      ∃ q ∈ p :: pts, q.1 < x ∧ (∀ c ∈ p :: pts, c.1 ≤ q.1) ∧ interpFrom (p :: pts) x = q.2 := by
  intro pts
  induction pts with
  | nil =>
    intro p x _ hp
    obtain ⟨x0, y0⟩ := p
    rcases hp.lt_or_eq with h | h
    · exact Or.inr ⟨_, by simp, h, by simp, rfl⟩
    · exact Or.inl (Or.inl ⟨_, by simp, h, rfl⟩)
  | cons r pts ih =>
    intro p x hx hp
    obtain ⟨x0, y0⟩ := p
    obtain ⟨x1, y1⟩ := r
    obtain ⟨hh, ht⟩ := xAsc_head hx
    simp only [interpFrom]
    by_cases h : x < x1
    · rw [if_pos h]
      left
      rcases hp.lt_or_eq with h0 | h0
      · refine Or.inr ⟨(x0, y0), by simp, (x1, y1), by simp, h0, h, ?_, rfl⟩
        intro c hc
        rcases List.mem_cons.1 hc with rfl | hc
        · exact Or.inl le_rfl
        · right
          rcases List.mem_cons.1 hc with rfl | hc
          · exact le_rfl
          · exact ((xAsc_head ht).1 c hc).le
      · simp only at h0
        exact Or.inl ⟨(x0, y0), by simp, h0, by rw [← h0]; simp⟩
    · rw [if_neg h]
      rcases ih (x1, y1) x ht (not_lt.1 h) with hg | ⟨q, hq, h1, h2, h3⟩
      · exact Or.inl (onGraph_cons hh hg)
      · refine Or.inr ⟨q, List.mem_cons_of_mem _ hq, h1, ?_, h3⟩
        intro c hc
        rcases List.mem_cons.1 hc with rfl | hc
        · exact (hh q hq).le
        · exact h2 c hc

theorem interp_clamped {pts : List (ℚ × ℚ)} (hne : pts ≠ []) (hx : XAsc pts) (x : ℚ) : OnClampedGraph pts x (interp pts x) := by
  obtain ⟨p, pts, rfl⟩ := List.exists_cons_of_ne_nil hne
  obtain ⟨x0, y0⟩ := p
  simp only [interp]
  by_cases h : x < x0
  · rw [if_pos h]
    refine Or.inr (Or.inl ⟨(x0, y0), by simp, h, ?_, rfl⟩)
    intro c hc
    rcases List.mem_cons.1 hc with rfl | hc
    · exact le_rfl
    · exact ((xAsc_head hx).1 c hc).le
  · rw [if_neg h]
    rcases interpFrom_graph pts (x0, y0) x hx (not_lt.1 h) with hg | hg
    · exact Or.inl hg
    · exact Or.inr (Or.inr hg)

/-- The value is determined by the points. -/
theorem onClampedGraph_unique {pts : List (ℚ × ℚ)} (hx : ∀ p ∈ pts, ∀ q ∈ pts, p.1 = q.1 → p = q) {x m m' : ℚ}
    (h : OnClampedGraph pts x m) (h' : OnClampedGraph pts x m') : m = m' := by
  have key : ∀ {m m' : ℚ}, OnGraph pts x m → OnGraph pts x m' → m = m' := by
    intro m m' h h'
    rcases h with ⟨p, hp, h1, h2⟩ | ⟨a, ha, b, hb, h1, h2, h3, h4⟩ <;>
      rcases h' with ⟨p', hp', h1', h2'⟩ | ⟨a', ha', b', hb', h1', h2', h3', h4'⟩
    · rw [← h2, ← h2', hx p hp p' hp' (h1.trans h1'.symm)]
    · rcases h3' p hp with h | h <;> rw [h1] at h
      · exact absurd h (not_le.2 h1')
      · exact absurd h (not_le.2 h2')
    · rcases h3 p' hp' with h | h <;> rw [h1'] at h
      · exact absurd h (not_le.2 h1)
      · exact absurd h (not_le.2 h2)
    · have e1 : a = a' := by
        refine hx a ha a' ha' (le_antisymm ?_ ?_)
        · rcases h3' a ha with h | h
          · exact h
          · linarith
        · rcases h3 a' ha' with h | h
          · exact h
          · linarith
      have e2 : b = b' := by
        refine hx b hb b' hb' (le_antisymm ?_ ?_)
        · rcases h3 b' hb' with h | h
          · linarith
          · exact h
        · rcases h3' b hb with h | h
          · linarith
          · exact h
      rw [h4, h4', e1, e2]
  have hin : ∀ {m : ℚ}, OnGraph pts x m → (∃ p ∈ pts, p.1 ≤ x) ∧ ∃ p ∈ pts, x ≤ p.1 := by
    intro m h
    rcases h with ⟨p, hp, h1, h2⟩ | ⟨a, ha, b, hb, h1, h2, h3, h4⟩
    · exact ⟨⟨p, hp, h1.le⟩, ⟨p, hp, h1.ge⟩⟩
    · exact ⟨⟨a, ha, h1.le⟩, ⟨b, hb, h2.le⟩⟩
  rcases h with h | ⟨p, hp, h1, h2, h3⟩ | ⟨p, hp, h1, h2, h3⟩ <;>
    rcases h' with h' | ⟨p', hp', h1', h2', h3'⟩ | ⟨p', hp', h1', h2', h3'⟩
  · exact key h h'
  · obtain ⟨⟨r, hr, h⟩, _⟩ := hin h
    have := h2' r hr
    linarith
  · obtain ⟨_, ⟨r, hr, h⟩⟩ := hin h
    have := h2' r hr
    linarith
  · obtain ⟨⟨r, hr, h⟩, _⟩ := hin h'
    have := h2 r hr
    linarith
  · rw [h3, h3', hx p hp p' hp' (le_antisymm (h2 p' hp') (h2' p hp))]
  · have := h2 p' hp'
    linarith
  · obtain ⟨_, ⟨r, hr, h⟩⟩ := hin h'
    have := h2 r hr
    linarith
  · have := h2 p' hp'
    linarith
  · rw [h3, h3', hx p hp p' hp' (le_antisymm (h2' p hp) (h2 p' hp'))]

/-- Within the range of the points there are no plateaus. -/
theorem onGraph_of_clamped {pts : List (ℚ × ℚ)} {x m : ℚ} (h : OnClampedGraph pts x m) (h0 : ∃ p ∈ pts, p.1 ≤ x) (h1 : ∃ p ∈ pts, x ≤ p.1) :
    OnGraph pts x m := by
  rcases h with h | ⟨p, hp, h2, h3, h4⟩ | ⟨p, hp, h2, h3, h4⟩
  · exact h
  · obtain ⟨r, hr, h⟩ := h0
    have := h3 r hr
    linarith
  · obtain ⟨r, hr, h⟩ := h1
    have := h3 r hr
    linarith

end Verif
