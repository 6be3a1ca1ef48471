import Verif.Model.Interp
import Mathlib.Algebra.Order.Field.Basic
import Mathlib.Tactic.Positivity

namespace Verif

variable {F : Type} [Field F] [LinearOrder F] [IsStrictOrderedRing F]

theorem seg_le {x0 y0 x1 y1 x : F} (hx : x0 < x1) (h0 : x0 ≤ x) (h1 : x ≤ x1) (hy : y0 ≤ y1) :
    y0 ≤ y0 + (y1 - y0) / (x1 - x0) * (x - x0) ∧
    y0 + (y1 - y0) / (x1 - x0) * (x - x0) ≤ y1 := by
  have hd : 0 < x1 - x0 := sub_pos.2 hx
  constructor
  · have : 0 ≤ (y1 - y0) / (x1 - x0) * (x - x0) :=
      mul_nonneg (div_nonneg (sub_nonneg.2 hy) hd.le) (sub_nonneg.2 h0)
    linarith
  · have : (y1 - y0) / (x1 - x0) * (x - x0) ≤ (y1 - y0) / (x1 - x0) * (x1 - x0) :=
      mul_le_mul_of_nonneg_left (by linarith) (div_nonneg (sub_nonneg.2 hy) hd.le)
    rw [div_mul_cancel₀ _ hd.ne'] at this
    linarith

theorem seg_ge {x0 y0 x1 y1 x : F} (hx : x0 < x1) (h0 : x0 ≤ x) (h1 : x ≤ x1) (hy : y1 ≤ y0) :
    y1 ≤ y0 + (y1 - y0) / (x1 - x0) * (x - x0) ∧
    y0 + (y1 - y0) / (x1 - x0) * (x - x0) ≤ y0 := by
  have h := seg_le (y0 := -y0) (y1 := -y1) hx h0 h1 (by linarith)
  have e : -y0 + (-y1 - -y0) / (x1 - x0) * (x - x0) = -(y0 + (y1 - y0) / (x1 - x0) * (x - x0)) := by
    ring
  rw [e] at h
  constructor <;> linarith [h.1, h.2]

theorem seg_lt {x0 y0 x1 y1 x : F} (hx : x0 < x1) (h1 : x < x1) (hy : y0 < y1) :
    y0 + (y1 - y0) / (x1 - x0) * (x - x0) < y1 := by
  have hd : 0 < x1 - x0 := sub_pos.2 hx
  have : (y1 - y0) / (x1 - x0) * (x - x0) < (y1 - y0) / (x1 - x0) * (x1 - x0) :=
    mul_lt_mul_of_pos_left (by linarith) (div_pos (sub_pos.2 hy) hd)
  rw [div_mul_cancel₀ _ hd.ne'] at this
  linarith

theorem seg_mono {x0 y0 x1 y1 x x' : F} (hx : x0 < x1) (h : x ≤ x') (hy : y0 ≤ y1) :
    y0 + (y1 - y0) / (x1 - x0) * (x - x0) ≤ y0 + (y1 - y0) / (x1 - x0) * (x' - x0) := by
  have hd : 0 < x1 - x0 := sub_pos.2 hx
  have : (y1 - y0) / (x1 - x0) * (x - x0) ≤ (y1 - y0) / (x1 - x0) * (x' - x0) :=
    mul_le_mul_of_nonneg_left (by linarith) (div_nonneg (sub_nonneg.2 hy) hd.le)
  linarith

/-- Ascending abscissae. -/
def XAsc (pts : List (F × F)) : Prop := (pts.map Prod.fst).Pairwise (· < ·)
/-- Non-descending ordinates. -/
def YAsc (pts : List (F × F)) : Prop := (pts.map Prod.snd).Pairwise (· ≤ ·)
/-- Strictly ascending ordinates. -/
def YAscS (pts : List (F × F)) : Prop := (pts.map Prod.snd).Pairwise (· < ·)

/-- The interpolated value stays between bounds of the ordinates. -/
theorem interpFrom_range (lo hi : F) : ∀ (pts : List (F × F)) (p : F × F) (x : F),
    XAsc (p :: pts) → p.1 ≤ x → (∀ q ∈ p :: pts, lo ≤ q.2 ∧ q.2 ≤ hi) →
    lo ≤ interpFrom (p :: pts) x ∧ interpFrom (p :: pts) x ≤ hi := by
  intro pts
  induction pts with
  | nil => intro p x _ _ h; obtain ⟨a, b⟩ := p; simpa [interpFrom] using h (a, b) (by simp)
  | cons q pts ih =>
    intro p x hx hp h
    obtain ⟨x0, y0⟩ := p
    obtain ⟨x1, y1⟩ := q
    have hx' := hx
    simp only [XAsc, List.map_cons, List.pairwise_cons] at hx
    have h01 : x0 < x1 := hx.1 x1 (by simp)
    simp only [interpFrom]
    have b0 := h (x0, y0) (by simp)
    have b1 := h (x1, y1) (by simp)
    simp only at b0 b1 hp
    split
    · rename_i hlt
      rcases le_total y0 y1 with hy | hy
      · have := seg_le h01 hp hlt.le hy
        exact ⟨b0.1.trans this.1, this.2.trans b1.2⟩
      · have := seg_ge h01 hp hlt.le hy
        exact ⟨b1.1.trans this.1, this.2.trans b0.2⟩
    · rename_i hge
      exact ih (x1, y1) x (by simpa [XAsc] using hx.2) (not_lt.1 hge)
        (fun q hq => h q (List.mem_cons_of_mem _ hq))

theorem interp_range {pts : List (F × F)} (hne : pts ≠ []) (hx : XAsc pts) (lo hi x : F)
    (h : ∀ q ∈ pts, lo ≤ q.2 ∧ q.2 ≤ hi) : lo ≤ interp pts x ∧ interp pts x ≤ hi := by
  obtain ⟨p, pts, rfl⟩ := List.exists_cons_of_ne_nil hne
  obtain ⟨x0, y0⟩ := p
  simp only [interp]
  split
  · exact h (x0, y0) (by simp)
  · rename_i hge
    exact interpFrom_range lo hi pts (x0, y0) x hx (not_lt.1 hge) h

theorem interpFrom_ge_first {pts : List (F × F)} {p : F × F} {x : F} (hx : XAsc (p :: pts))
    (hy : YAsc (p :: pts)) (hp : p.1 ≤ x) : p.2 ≤ interpFrom (p :: pts) x := by
  have hy' := hy
  simp only [YAsc, List.map_cons, List.pairwise_cons] at hy
  induction pts generalizing p with
  | nil => obtain ⟨a, b⟩ := p; simp [interpFrom]
  | cons q pts ih =>
    obtain ⟨x0, y0⟩ := p
    obtain ⟨x1, y1⟩ := q
    simp only [XAsc, List.map_cons, List.pairwise_cons] at hx
    have h01 : x0 < x1 := hx.1 x1 (by simp)
    have hyy : y0 ≤ y1 := hy.1 y1 (by simp)
    simp only [interpFrom]
    split
    · rename_i hlt
      exact (seg_le h01 hp hlt.le hyy).1
    · rename_i hge
      have h2 : YAsc ((x1, y1) :: pts) := by
        simp only [YAsc, List.map_cons, List.pairwise_cons] at hy' ⊢; exact hy'.2
      have := ih (p := (x1, y1)) (by simpa [XAsc] using hx.2) (not_lt.1 hge) h2
        (by simp only [YAsc, List.map_cons, List.pairwise_cons] at h2; exact h2)
      exact hyy.trans this

theorem interpFrom_mono : ∀ (pts : List (F × F)) (p : F × F) (x x' : F),
    XAsc (p :: pts) → YAsc (p :: pts) → p.1 ≤ x → x ≤ x' →
    interpFrom (p :: pts) x ≤ interpFrom (p :: pts) x' := by
  intro pts
  induction pts with
  | nil => intro p x x' _ _ _ _; obtain ⟨a, b⟩ := p; simp [interpFrom]
  | cons q pts ih =>
    intro p x x' hx hy hp hxx
    obtain ⟨x0, y0⟩ := p
    obtain ⟨x1, y1⟩ := q
    simp only [XAsc, YAsc, List.map_cons, List.pairwise_cons] at hx hy
    have h01 : x0 < x1 := hx.1 x1 (by simp)
    have hyy : y0 ≤ y1 := hy.1 y1 (by simp)
    have hX : XAsc ((x1, y1) :: pts) := by simpa [XAsc] using hx.2
    have hY : YAsc ((x1, y1) :: pts) := by simpa [YAsc] using hy.2
    simp only [interpFrom]
    by_cases h1 : x < x1
    · rw [if_pos h1]
      by_cases h2 : x' < x1
      · rw [if_pos h2]; exact seg_mono h01 hxx hyy
      · rw [if_neg h2]
        exact (seg_le h01 hp h1.le hyy).2.trans
          (interpFrom_ge_first hX hY (not_lt.1 h2))
    · have h2 : ¬ x' < x1 := fun h => h1 (lt_of_le_of_lt hxx h)
      rw [if_neg h1, if_neg h2]
      exact ih (x1, y1) x x' hX hY (not_lt.1 h1) hxx

theorem interp_mono {pts : List (F × F)} (hx : XAsc pts) (hy : YAsc pts) {x x' : F} (h : x ≤ x') :
    interp pts x ≤ interp pts x' := by
  cases pts with
  | nil => simp [interp]
  | cons p pts =>
    obtain ⟨x0, y0⟩ := p
    simp only [interp]
    by_cases h1 : x < x0
    · rw [if_pos h1]
      by_cases h2 : x' < x0
      · rw [if_pos h2]
      · rw [if_neg h2]; exact interpFrom_ge_first hx hy (not_lt.1 h2)
    · have h2 : ¬ x' < x0 := fun hh => h1 (lt_of_le_of_lt h hh)
      rw [if_neg h1, if_neg h2]
      exact interpFrom_mono pts (x0, y0) x x' hx hy (not_lt.1 h1) h

theorem YAscS.weak {pts : List (F × F)} (h : YAscS pts) : YAsc pts :=
  List.Pairwise.imp (fun h => le_of_lt h) h

/-- Swapping the coordinates inverts the interpolation inside the range. -/
theorem interpFrom_inverse : ∀ (pts : List (F × F)) (p : F × F) (x : F),
    XAsc (p :: pts) → YAscS (p :: pts) → p.1 ≤ x → (∀ q ∈ (p :: pts).getLast?, x ≤ q.1) →
    interpFrom ((p :: pts).map Prod.swap) (interpFrom (p :: pts) x) = x := by
  intro pts
  induction pts with
  | nil =>
    intro p x _ _ hp hl
    obtain ⟨a, b⟩ := p
    simp at hl
    simp [interpFrom]
    exact le_antisymm hp hl
  | cons q pts ih =>
    intro p x hx hy hp hl
    obtain ⟨x0, y0⟩ := p
    obtain ⟨x1, y1⟩ := q
    simp only [XAsc, YAscS, List.map_cons, List.pairwise_cons] at hx hy
    have h01 : x0 < x1 := hx.1 x1 (by simp)
    have hyy : y0 < y1 := hy.1 y1 (by simp)
    have hX : XAsc ((x1, y1) :: pts) := by simpa [XAsc] using hx.2
    have hY : YAscS ((x1, y1) :: pts) := by simpa [YAscS] using hy.2
    have e : interpFrom ((x0, y0) :: (x1, y1) :: pts) x =
      if x < x1 then y0 + (y1 - y0) / (x1 - x0) * (x - x0) else interpFrom ((x1, y1) :: pts) x := rfl
    have e2 : ∀ v, interpFrom (((x0, y0) :: (x1, y1) :: pts).map Prod.swap) v =
      if v < y1 then x0 + (x1 - x0) / (y1 - y0) * (v - y0)
      else interpFrom (((x1, y1) :: pts).map Prod.swap) v := fun v => rfl
    rw [e2, e]
    by_cases h1 : x < x1
    · simp only [if_pos h1]
      rw [if_pos (seg_lt h01 h1 hyy)]
      have d1 : x1 - x0 ≠ 0 := (sub_pos.2 h01).ne'
      have d2 : y1 - y0 ≠ 0 := (sub_pos.2 hyy).ne'
      field_simp
      ring
    · simp only [if_neg h1]
      have hge := interpFrom_ge_first hX hY.weak (not_lt.1 h1)
      rw [if_neg (not_lt.2 hge)]
      exact ih (x1, y1) x hX hY (not_lt.1 h1) (by simpa using hl)

theorem interp_inverse {pts : List (F × F)} (hx : XAsc pts) (hy : YAscS pts) {x : F}
    (h0 : ∀ q ∈ pts.head?, q.1 ≤ x) (h1 : ∀ q ∈ pts.getLast?, x ≤ q.1) (hne : pts ≠ []) :
    interp (pts.map Prod.swap) (interp pts x) = x := by
  obtain ⟨p, pts, rfl⟩ := List.exists_cons_of_ne_nil hne
  obtain ⟨x0, y0⟩ := p
  have hp : x0 ≤ x := h0 (x0, y0) (by simp)
  have e : interp ((x0, y0) :: pts) x = interpFrom ((x0, y0) :: pts) x := by
    simp [interp, not_lt.2 hp]
  have hge := interpFrom_ge_first hx hy.weak hp
  rw [e]
  have e2 : interp (((x0, y0) :: pts).map Prod.swap) (interpFrom ((x0, y0) :: pts) x) =
      interpFrom (((x0, y0) :: pts).map Prod.swap) (interpFrom ((x0, y0) :: pts) x) := by
    simp only [List.map_cons, Prod.swap_prod_mk, interp]
    rw [if_neg (not_lt.2 hge)]
  rw [e2]
  exact interpFrom_inverse pts (x0, y0) x hx hy hp h1

/-- Constant to the right of the last point. -/
theorem interpFrom_last : ∀ (pts : List (F × F)) (p : F × F) (x : F),
    XAsc (p :: pts) → (∀ q ∈ (p :: pts).getLast?, q.1 ≤ x) →
    ∀ q ∈ (p :: pts).getLast?, interpFrom (p :: pts) x = q.2 := by
  intro pts
  induction pts with
  | nil => intro p x _ _ q hq; obtain ⟨a, b⟩ := p; simp at hq; subst hq; rfl
  | cons q pts ih =>
    intro p x hx hl r hr
    obtain ⟨x0, y0⟩ := p
    obtain ⟨x1, y1⟩ := q
    simp only [XAsc, List.map_cons, List.pairwise_cons] at hx
    have hX : XAsc ((x1, y1) :: pts) := by simpa [XAsc] using hx.2
    have hl' : ∀ q ∈ ((x1, y1) :: pts).getLast?, q.1 ≤ x := by simpa using hl
    have hge : x1 ≤ x := by
      have hne : ((x1, y1) :: pts) ≠ [] := by simp
      have h1 := hl' _ (List.getLast?_eq_some_getLast hne)
      have hm := List.getLast_mem hne
      rcases List.mem_cons.1 hm with h | h
      · rw [h] at h1; exact h1
      · exact (hx.2.1 _ (List.mem_map_of_mem h)).le.trans h1
    simp only [interpFrom]
    rw [if_neg (not_lt.2 hge)]
    exact ih (x1, y1) x hX hl' r (by simpa using hr)

end Verif
