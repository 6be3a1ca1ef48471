import Verif.Model.Stats
import Verif.Lemmas.PySort
import Mathlib.Tactic.Linarith
import Mathlib.Tactic.Positivity
import Mathlib.Tactic.NormNum
import Mathlib.Tactic.FieldSimp
import Mathlib.Algebra.Order.Floor.Semiring
import Mathlib.Algebra.BigOperators.Group.List.Lemmas
import Mathlib.Algebra.Order.BigOperators.Group.List
import Mathlib.Algebra.BigOperators.Ring.List

/-!
# C98: the statistics describe the sample
-/

namespace Verif.Stats

/-! ## Specification -/

/-- The values of a column that are not missing. -/
def values (col : List (Option ℝ)) : List ℝ := col.filterMap id

/-- A row of the table of statistics. -/
noncomputable def row (col : List (Option ℝ)) (name : String) : Option (Option ℝ) := Dict.get? (describe col) (str name)

/-- The percentiles in the table. -/
def reported : List (String × ℚ) :=
  [("0.1%", 1/1000), ("2.3%", 23/1000), ("10%", 1/10), ("15.9%", 159/1000), ("50%", 1/2), ("84.1%", 841/1000), ("90%", 9/10),
   ("97.7%", 977/1000), ("99.9%", 999/1000)]

/-- `s` is the standard deviation of the numbers, with `n - 1` in the denominator. -/
def IsStd (l : List ℝ) (s : ℝ) : Prop :=
  0 ≤ s ∧ ∃ m : ℝ, m * l.length = l.sum ∧ s ^ 2 * (l.length - 1) = (l.map fun x => (x - m) ^ 2).sum

/-! ## Lemmas -/

theorem le_total' (a b : ℝ) : decide (a ≤ b) = true ∨ decide (b ≤ a) = true := by
  rcases le_total a b with h | h <;> simp [h]

theorem le_trans' (a b c : ℝ) (h1 : decide (a ≤ b) = true) (h2 : decide (b ≤ c) = true) : decide (a ≤ c) = true := by
  simp only [decide_eq_true_eq] at *; linarith

theorem sorted_pairwise (l : List ℝ) : (sorted l).Pairwise (· ≤ ·) := by
  have := pySort_sorted (le := fun a b : ℝ => decide (a ≤ b)) le_total' le_trans' l
  exact this.imp (by intro a b h; simpa using h)

theorem sorted_perm (l : List ℝ) : (sorted l).Perm l := pySort_perm _ l

theorem sorted_length (l : List ℝ) : (sorted l).length = l.length := (sorted_perm l).length_eq

/-- The sorted values as a function of the position, constant after the end. -/
noncomputable def at' (l : List ℝ) (i : Nat) : ℝ := (sorted l).getD (min i (l.length - 1)) 0

theorem at'_eq {l : List ℝ} (hl : l ≠ []) (i : Nat) (h : min i (l.length - 1) < (sorted l).length) : at' l i = (sorted l)[min i (l.length - 1)] := by
  unfold at'
  rw [List.getD_eq_getElem?_getD, List.getElem?_eq_getElem h]
  rfl

theorem at'_mem {l : List ℝ} (hl : l ≠ []) (i : Nat) : at' l i ∈ l := by
  have hlen := sorted_length l
  have hp := List.length_pos_iff.2 hl
  have h : min i (l.length - 1) < (sorted l).length := by omega
  rw [at'_eq hl i h]
  exact (sorted_perm l).mem_iff.1 (List.getElem_mem _)

theorem at'_mono {l : List ℝ} (hl : l ≠ []) {i j : Nat} (hij : i ≤ j) : at' l i ≤ at' l j := by
  have hlen := sorted_length l
  have hp := List.length_pos_iff.2 hl
  have hi : min i (l.length - 1) < (sorted l).length := by omega
  have hj : min j (l.length - 1) < (sorted l).length := by omega
  rw [at'_eq hl i hi, at'_eq hl j hj]
  rcases Nat.lt_or_ge (min i (l.length - 1)) (min j (l.length - 1)) with h | h
  · exact List.pairwise_iff_getElem.1 (sorted_pairwise l) _ _ hi hj h
  · have : min i (l.length - 1) = min j (l.length - 1) := by omega
    simp only [this, le_refl]

/-- The value between the positions `⌊x⌋` and `⌊x⌋ + 1`. -/
noncomputable def between (l : List ℝ) (x : ℝ) : ℝ := at' l ⌊x⌋₊ + (at' l (⌊x⌋₊ + 1) - at' l ⌊x⌋₊) * (x - ⌊x⌋₊)

theorem quantile_eq {l : List ℝ} (hl : l ≠ []) (q : ℝ) : quantile q l = some (between l (q * (l.length - 1))) := by
  unfold quantile
  rw [if_neg hl]
  rfl

theorem frac_bounds {x : ℝ} (hx : 0 ≤ x) : 0 ≤ x - ⌊x⌋₊ ∧ x - ⌊x⌋₊ < 1 := by
  have h1 := Nat.floor_le hx
  have h2 := Nat.lt_floor_add_one x
  exact ⟨by linarith, by linarith⟩

theorem between_bounds {l : List ℝ} (hl : l ≠ []) {x : ℝ} (hx : 0 ≤ x) : at' l ⌊x⌋₊ ≤ between l x ∧ between l x ≤ at' l (⌊x⌋₊ + 1) := by
  obtain ⟨h1, h2⟩ := frac_bounds hx
  have h3 := at'_mono hl (Nat.le_succ ⌊x⌋₊)
  unfold between
  constructor
  · have := mul_nonneg (sub_nonneg.2 h3) h1
    linarith
  · nlinarith

theorem between_mono {l : List ℝ} (hl : l ≠ []) {x y : ℝ} (hx : 0 ≤ x) (hxy : x ≤ y) : between l x ≤ between l y := by
  have hy : 0 ≤ y := le_trans hx hxy
  have hf : ⌊x⌋₊ ≤ ⌊y⌋₊ := Nat.floor_mono hxy
  rcases Nat.lt_or_ge ⌊x⌋₊ ⌊y⌋₊ with h | h
  · exact le_trans (between_bounds hl hx).2 (le_trans (at'_mono hl h) (between_bounds hl hy).1)
  · have he : ⌊x⌋₊ = ⌊y⌋₊ := le_antisymm hf h
    unfold between
    rw [← he]
    have h3 := at'_mono hl (Nat.le_succ ⌊x⌋₊)
    have := mul_le_mul_of_nonneg_left (show x - ⌊x⌋₊ ≤ y - ⌊x⌋₊ by linarith) (sub_nonneg.2 h3)
    simp only [Nat.succ_eq_add_one] at this
    linarith

theorem countP_take {l : List ℝ} {p : ℝ → Bool} {k : Nat} (hk : k ≤ l.length) (h : ∀ x ∈ l.take k, p x = true) : k ≤ l.countP p := by
  have h1 := (List.take_sublist k l).countP_le (p := p)
  rw [List.countP_eq_length.2 h, List.length_take] at h1
  omega

theorem countP_drop {l : List ℝ} {p : ℝ → Bool} {k : Nat} (h : ∀ x ∈ l.drop k, p x = true) : l.length - k ≤ l.countP p := by
  have h1 := (List.drop_sublist k l).countP_le (p := p)
  rw [List.countP_eq_length.2 h, List.length_drop] at h1
  omega

/-- How many values are below and above the value at a position. -/
theorem between_counts {l : List ℝ} (hl : l ≠ []) {x : ℝ} (hx : 0 ≤ x) (hx1 : x ≤ l.length - 1) :
    ⌊x⌋₊ + 1 ≤ l.countP (fun v => decide (v ≤ between l x)) ∧ l.length - (⌊x⌋₊ + 1) ≤ l.countP (fun v => decide (between l x ≤ v)) := by
  have hlen := sorted_length l
  have hp := List.length_pos_iff.2 hl
  have hfl : ⌊x⌋₊ ≤ l.length - 1 := by
    have h1 : ((l.length - 1 : ℕ) : ℝ) = (l.length : ℝ) - 1 := by
      rw [Nat.cast_sub hp]; simp
    have : ⌊x⌋₊ ≤ ⌊((l.length - 1 : ℕ) : ℝ)⌋₊ := Nat.floor_mono (by rw [h1]; exact hx1)
    rwa [Nat.floor_natCast] at this
  obtain ⟨hb1, hb2⟩ := between_bounds hl hx
  constructor
  · rw [← (sorted_perm l).countP_eq]
    apply countP_take (by omega)
    intro v hv
    obtain ⟨i, hi, rfl⟩ := List.mem_take_iff_getElem.1 hv
    have hi' : i < (sorted l).length := by omega
    simp only [decide_eq_true_eq]
    refine le_trans ?_ hb1
    have e : at' l i = (sorted l)[i] := by
      rw [at'_eq hl i (by omega)]
      simp only [show min i (l.length - 1) = i by omega]
    rw [← e]
    exact at'_mono hl (by omega)
  · rw [← (sorted_perm l).countP_eq, ← hlen]
    apply countP_drop
    intro v hv
    obtain ⟨i, hi, rfl⟩ := List.mem_drop_iff_getElem.1 hv
    simp only [decide_eq_true_eq]
    refine le_trans hb2 ?_
    have e : at' l (⌊x⌋₊ + 1 + i) = (sorted l)[⌊x⌋₊ + 1 + i] := by
      rw [at'_eq hl _ (by omega)]
      simp only [show min (⌊x⌋₊ + 1 + i) (l.length - 1) = ⌊x⌋₊ + 1 + i by omega]
    rw [← e]
    exact at'_mono hl (by omega)

theorem std_spec {l : List ℝ} {s : ℝ} (h : std l = some s) : 2 ≤ l.length ∧ IsStd l s := by
  unfold std at h
  split at h
  · simp at h
  · rename_i h2
    simp only [Option.some.injEq] at h
    have hn : (2 : ℝ) ≤ l.length := by exact_mod_cast (by omega : 2 ≤ l.length)
    refine ⟨by omega, ?_, l.sum / l.length, ?_, ?_⟩
    · rw [← h]; exact Real.sqrt_nonneg _
    · field_simp
    · rw [← h, Real.sq_sqrt, div_mul_cancel₀]
      · linarith
      · apply div_nonneg _ (by linarith)
        apply List.sum_nonneg
        intro y hy
        obtain ⟨x, _, rfl⟩ := List.mem_map.1 hy
        positivity

theorem perm_sorted {l l' : List ℝ} (h : l.Perm l') : sorted l = sorted l' :=
  List.Perm.eq_of_pairwise (fun a b _ _ h1 h2 => le_antisymm h1 h2) (sorted_pairwise l) (sorted_pairwise l')
    ((sorted_perm l).trans (h.trans (sorted_perm l').symm))

theorem min_spec {l : List ℝ} (hl : l ≠ []) : ∃ m ∈ l, l.min? = some m ∧ ∀ x ∈ l, m ≤ x := by
  cases h : l.min? with
  | none => rw [List.min?_eq_none_iff] at h; exact absurd h hl
  | some m =>
    rw [List.min?_eq_some_iff] at h
    exact ⟨m, h.1, rfl, h.2⟩

theorem max_spec {l : List ℝ} (hl : l ≠ []) : ∃ m ∈ l, l.max? = some m ∧ ∀ x ∈ l, x ≤ m := by
  cases h : l.max? with
  | none => rw [List.max?_eq_none_iff] at h; exact absurd h hl
  | some m =>
    rw [List.max?_eq_some_iff] at h
    exact ⟨m, h.1, rfl, h.2⟩

/-- The rows of the table. -/
theorem row_count (col : List (Option ℝ)) : row col "count" = some (some ((values col).length : ℝ)) := rfl
theorem row_mean (col : List (Option ℝ)) : row col "mean" = some (mean (values col)) := rfl
theorem row_std (col : List (Option ℝ)) : row col "std" = some (std (values col)) := rfl
theorem row_logStd (col : List (Option ℝ)) : row col "log_std" = some (logStd (values col)) := rfl
theorem row_min (col : List (Option ℝ)) : row col "min" = some ((values col).min?) := rfl
theorem row_max (col : List (Option ℝ)) : row col "max" = some ((values col).max?) := rfl

theorem row_percentile (col : List (Option ℝ)) {p : String × ℚ} (hp : p ∈ reported) : row col p.1 = some (quantile (p.2 : ℝ) (values col)) := by
  have h : ∀ q q' : ℝ, q = q' → some (quantile q (values col)) = some (quantile q' (values col)) := by rintro q _ rfl; rfl
  simp only [reported, List.mem_cons, List.not_mem_nil, or_false] at hp
  rcases hp with rfl | rfl | rfl | rfl | rfl | rfl | rfl | rfl | rfl
  · exact h 0.001 _ (by norm_num)
  · exact h 0.023 _ (by norm_num)
  · exact h 0.10 _ (by norm_num)
  · exact h 0.159 _ (by norm_num)
  · exact h 0.5 _ (by norm_num)
  · exact h 0.841 _ (by norm_num)
  · exact h 0.90 _ (by norm_num)
  · exact h 0.977 _ (by norm_num)
  · exact h 0.999 _ (by norm_num)

/-! ## C98 -/

/-- C98: the number of values, the smallest, the largest and the mean value. -/
theorem C98_values (col : List (Option ℝ)) (h : values col ≠ []) :
    row col "count" = some (some ((values col).length : ℝ)) ∧
    ∃ a ∈ values col, ∃ b ∈ values col, ∃ m : ℝ, row col "min" = some (some a) ∧ row col "max" = some (some b) ∧ row col "mean" = some (some m) ∧
      (∀ x ∈ values col, a ≤ x ∧ x ≤ b) ∧ m * (values col).length = (values col).sum ∧ a ≤ m ∧ m ≤ b := by
  refine ⟨row_count col, ?_⟩
  obtain ⟨a, ha, ha1, ha2⟩ := min_spec h
  obtain ⟨b, hb, hb1, hb2⟩ := max_spec h
  have hpos : (0 : ℝ) < (values col).length := by exact_mod_cast List.length_pos_iff.2 h
  refine ⟨a, ha, b, hb, (values col).sum / (values col).length, ?_, ?_, ?_, fun x hx => ⟨ha2 x hx, hb2 x hx⟩, ?_, ?_, ?_⟩
  · rw [row_min, ha1]
  · rw [row_max, hb1]
  · rw [row_mean, mean, if_neg h]
  · field_simp
  · rw [le_div_iff₀ hpos]
    have := List.card_nsmul_le_sum (values col) a ha2
    rw [nsmul_eq_mul] at this
    linarith
  · rw [div_le_iff₀ hpos]
    have := List.sum_le_card_nsmul (values col) b hb2
    rw [nsmul_eq_mul] at this
    linarith

/-- C98: the percentiles are between the smallest and the largest value, and at least the right number of values
is below and above. -/
theorem C98_percentiles (col : List (Option ℝ)) (h : values col ≠ []) {p : String × ℚ} (hp : p ∈ reported) :
    ∃ v : ℝ, row col p.1 = some (some v) ∧ (∃ a ∈ values col, a ≤ v) ∧ (∃ b ∈ values col, v ≤ b) ∧
      ⌊(p.2 : ℝ) * ((values col).length - 1)⌋₊ + 1 ≤ (values col).countP (fun x => decide (x ≤ v)) ∧
      (values col).length ≤ (values col).countP (fun x => decide (v ≤ x)) + (⌊(p.2 : ℝ) * ((values col).length - 1)⌋₊ + 1) := by
  have hn : (1 : ℝ) ≤ (values col).length := by exact_mod_cast List.length_pos_iff.2 h
  have hq : (0 : ℝ) ≤ p.2 ∧ (p.2 : ℝ) ≤ 1 := by
    have : (0 : ℚ) ≤ p.2 ∧ p.2 ≤ 1 := by
      simp only [reported, List.mem_cons, List.not_mem_nil, or_false] at hp
      rcases hp with rfl | rfl | rfl | rfl | rfl | rfl | rfl | rfl | rfl <;> norm_num
    exact ⟨by exact_mod_cast this.1, by exact_mod_cast this.2⟩
  have hx : 0 ≤ (p.2 : ℝ) * ((values col).length - 1) := mul_nonneg hq.1 (by linarith)
  have hx1 : (p.2 : ℝ) * ((values col).length - 1) ≤ (values col).length - 1 := by nlinarith
  obtain ⟨h1, h2⟩ := between_bounds h hx
  obtain ⟨h3, h4⟩ := between_counts h hx hx1
  refine ⟨between (values col) ((p.2 : ℝ) * ((values col).length - 1)), ?_, ⟨_, at'_mem h _, h1⟩, ⟨_, at'_mem h _, h2⟩, h3, by omega⟩
  rw [row_percentile col hp, quantile_eq h]

/-- C98: higher percentiles are not smaller. -/
theorem C98_percentiles_increase (col : List (Option ℝ)) {p p' : String × ℚ} (hp : p ∈ reported) (hp' : p' ∈ reported) (hle : p.2 ≤ p'.2)
    {v v' : ℝ} (hv : row col p.1 = some (some v)) (hv' : row col p'.1 = some (some v')) : v ≤ v' := by
  have h : values col ≠ [] := by
    intro h0
    rw [row_percentile col hp, quantile, if_pos h0] at hv
    simp at hv
  rw [row_percentile col hp, quantile_eq h] at hv
  rw [row_percentile col hp', quantile_eq h] at hv'
  simp only [Option.some.injEq] at hv hv'
  rw [← hv, ← hv']
  have hn : (1 : ℝ) ≤ (values col).length := by exact_mod_cast List.length_pos_iff.2 h
  have hq : (0 : ℝ) ≤ p.2 := by
    have : (0 : ℚ) ≤ p.2 := by
      simp only [reported, List.mem_cons, List.not_mem_nil, or_false] at hp
      rcases hp with rfl | rfl | rfl | rfl | rfl | rfl | rfl | rfl | rfl <;> norm_num
    exact_mod_cast this
  have hle' : (p.2 : ℝ) ≤ p'.2 := by exact_mod_cast hle
  exact between_mono h (mul_nonneg hq (by linarith)) (mul_le_mul_of_nonneg_right hle' (by linarith))

/-- C98: the standard deviation, for at least two values. -/
theorem C98_std (col : List (Option ℝ)) :
    if 2 ≤ (values col).length then ∃ s, row col "std" = some (some s) ∧ IsStd (values col) s else row col "std" = some none := by
  rw [row_std]
  split
  · rename_i h
    have : ∃ s, std (values col) = some s := by
      unfold std; rw [if_neg (by omega)]; exact ⟨_, rfl⟩
    obtain ⟨s, hs⟩ := this
    exact ⟨s, by rw [hs], (std_spec hs).2⟩
  · rename_i h
    unfold std; rw [if_pos (by omega)]

/-- C98: the standard deviation of the logarithms, if there are at least two values and all of them are positive. -/
theorem C98_log_std (col : List (Option ℝ)) :
    if 2 ≤ (values col).length ∧ (∀ x ∈ values col, 0 < x) then ∃ s, row col "log_std" = some (some s) ∧ IsStd ((values col).map Real.log) s
    else row col "log_std" = some none := by
  rw [row_logStd]
  unfold logStd
  by_cases h0 : values col = []
  · rw [if_neg (by simp [h0]), h0]
    rfl
  obtain ⟨a, ha, ha1, ha2⟩ := min_spec h0
  rw [ha1]
  simp only
  split
  · rename_i h
    rw [if_pos (h.2 a ha)]
    have : ∃ s, std ((values col).map Real.log) = some s := by
      unfold std; rw [if_neg (by rw [List.length_map]; omega)]; exact ⟨_, rfl⟩
    obtain ⟨s, hs⟩ := this
    exact ⟨s, by rw [hs], (std_spec hs).2⟩
  · rename_i h
    split
    · rename_i hpos
      have h2 : (values col).length < 2 := by
        by_contra hc
        exact h ⟨by omega, fun x hx => lt_of_lt_of_le hpos (ha2 x hx)⟩
      unfold std
      rw [if_pos (by rw [List.length_map]; exact h2)]
    · rfl

/-- C98: a column without values has the count zero and nothing else. -/
theorem C98_no_values (col : List (Option ℝ)) (h : values col = []) : ∀ r ∈ describe col, r.1 ≠ str "count" → r.2 = none := by
  intro r hr hne
  unfold describe at hr
  rw [show valid col = [] from h] at hr
  simp only [List.mem_append, List.mem_cons, List.not_mem_nil, or_false, List.mem_map] at hr
  rcases hr with ((rfl | rfl | rfl | rfl | rfl) | ⟨p, _, rfl⟩) | rfl
  · exact absurd rfl hne
  all_goals rfl

/-- C98: the order of the realizations and missing values do not matter. -/
theorem C98_order (col col' : List (Option ℝ)) (h : (values col).Perm (values col')) : describe col = describe col' := by
  unfold describe
  rw [show valid col = values col from rfl, show valid col' = values col' from rfl]
  have hmin : (values col).min? = (values col').min? := by
    by_cases h0 : values col = []
    · rw [h0] at h ⊢; rw [← List.nil_perm.1 h]
    · obtain ⟨a, ha, ha1, ha2⟩ := min_spec h0
      rw [ha1, eq_comm, List.min?_eq_some_iff]
      exact ⟨h.mem_iff.1 ha, fun x hx => ha2 x (h.mem_iff.2 hx)⟩
  have hmax : (values col).max? = (values col').max? := by
    by_cases h0 : values col = []
    · rw [h0] at h ⊢; rw [← List.nil_perm.1 h]
    · obtain ⟨a, ha, ha1, ha2⟩ := max_spec h0
      rw [ha1, eq_comm, List.max?_eq_some_iff]
      exact ⟨h.mem_iff.1 ha, fun x hx => ha2 x (h.mem_iff.2 hx)⟩
  have hnil : values col = [] ↔ values col' = [] := by
    constructor
    · intro e; rw [e] at h; exact (List.nil_perm.1 h)
    · intro e; rw [e] at h; exact (List.perm_nil.1 h)
  have hstd : ∀ {l l' : List ℝ}, l.Perm l' → std l = std l' := by
    intro l l' hp
    unfold std
    rw [hp.length_eq, hp.sum_eq, (hp.map _).sum_eq]
  have hq : ∀ q, quantile q (values col) = quantile q (values col') := by
    intro q
    unfold quantile
    simp only [hnil, h.length_eq, perm_sorted h]
  have hlog : logStd (values col) = logStd (values col') := by
    unfold logStd
    rw [hmin, hstd (h.map Real.log)]
  have hmean : mean (values col) = mean (values col') := by
    unfold mean
    simp only [hnil, h.length_eq, h.sum_eq]
  simp only [h.length_eq, hmin, hmax, hstd h, hlog, hmean, hq]

theorem insertSorted_mul {c : ℝ} (hc : 0 < c) (a : ℝ) (l : List ℝ) :
    insertSorted (fun a b : ℝ => decide (a ≤ b)) (a * c) (l.map (· * c)) = (insertSorted (fun a b : ℝ => decide (a ≤ b)) a l).map (· * c) := by
  induction l with
  | nil => rfl
  | cons b l ih =>
    simp only [List.map_cons, insertSorted]
    have : decide (a * c ≤ b * c) = decide (a ≤ b) := by
      rw [decide_eq_decide]; exact mul_le_mul_iff_left₀ hc
    rw [this]
    split
    · rfl
    · rw [ih]; rfl

theorem sorted_mul {c : ℝ} (hc : 0 < c) (l : List ℝ) : sorted (l.map (· * c)) = (sorted l).map (· * c) := by
  unfold sorted
  induction l with
  | nil => rfl
  | cons b l ih => simp only [List.map_cons, pySort, ih, insertSorted_mul hc]

theorem std_mul {c : ℝ} (hc : 0 < c) (l : List ℝ) : std (l.map (· * c)) = (std l).map (· * c) := by
  unfold std
  rw [List.length_map]
  split
  · rfl
  · simp only [Option.map_some, Option.some.injEq, List.map_map]
    have h1 : (l.map (· * c)).sum = l.sum * c := by rw [List.sum_map_mul_right]; simp
    rw [h1]
    have h2 : (l.map ((fun x => (x - l.sum * c / l.length) ^ 2) ∘ fun x => x * c)) = (l.map fun x => (x - l.sum / l.length) ^ 2).map (· * c ^ 2) := by
      rw [List.map_map]
      apply List.map_congr_left
      intro x _
      simp only [Function.comp]
      ring
    rw [h2, List.sum_map_mul_right]
    simp only [List.map_id']
    rw [mul_div_right_comm, Real.sqrt_mul' _ (by positivity), Real.sqrt_sq hc.le]

/-- C98: the statistics of the same values in another unit are the statistics in that unit; the number of values and the standard
deviation of the logarithms do not change. -/
theorem C98_units (col : List (Option ℝ)) {c : ℝ} (hc : 0 < c) :
    describe (col.map fun x => x.map (· * c)) =
      (describe col).map fun r => if r.1 = str "count" ∨ r.1 = str "log_std" then r else (r.1, r.2.map (· * c)) := by
  have hv : valid (col.map fun x => x.map (· * c)) = (valid col).map (· * c) := by
    unfold valid
    rw [List.filterMap_map, List.map_filterMap]
    rfl
  unfold describe
  rw [hv]
  have hnil : (valid col).map (· * c) = [] ↔ valid col = [] := by simp
  have hmean : mean ((valid col).map (· * c)) = (mean (valid col)).map (· * c) := by
    unfold mean
    simp only [hnil]
    split
    · rfl
    · rw [List.length_map, List.sum_map_mul_right]
      simp only [List.map_id', Option.map_some, Option.some.injEq]
      ring
  have hmin : ((valid col).map (· * c)).min? = (valid col).min?.map (· * c) := by
    by_cases h0 : valid col = []
    · rw [h0]; rfl
    · obtain ⟨a, ha, ha1, ha2⟩ := min_spec h0
      rw [ha1, Option.map_some, List.min?_eq_some_iff]
      refine ⟨List.mem_map.2 ⟨a, ha, rfl⟩, ?_⟩
      intro x hx
      obtain ⟨y, hy, rfl⟩ := List.mem_map.1 hx
      exact mul_le_mul_of_nonneg_right (ha2 y hy) hc.le
  have hmax : ((valid col).map (· * c)).max? = (valid col).max?.map (· * c) := by
    by_cases h0 : valid col = []
    · rw [h0]; rfl
    · obtain ⟨a, ha, ha1, ha2⟩ := max_spec h0
      rw [ha1, Option.map_some, List.max?_eq_some_iff]
      refine ⟨List.mem_map.2 ⟨a, ha, rfl⟩, ?_⟩
      intro x hx
      obtain ⟨y, hy, rfl⟩ := List.mem_map.1 hx
      exact mul_le_mul_of_nonneg_right (ha2 y hy) hc.le
  have hq : ∀ q, quantile q ((valid col).map (· * c)) = (quantile q (valid col)).map (· * c) := by
    intro q
    unfold quantile
    simp only [hnil]
    split
    · rfl
    · simp only [List.length_map, sorted_mul hc, Option.map_some, Option.some.injEq]
      have : ∀ i, ((sorted (valid col)).map (· * c)).getD i 0 = (sorted (valid col)).getD i 0 * c := by
        intro i
        rw [List.getD_eq_getElem?_getD, List.getD_eq_getElem?_getD, List.getElem?_map]
        cases (sorted (valid col))[i]? <;> simp
      rw [this, this]
      ring
  have hlog : logStd ((valid col).map (· * c)) = logStd (valid col) := by
    unfold logStd
    rw [hmin]
    by_cases h0 : valid col = []
    · rw [h0]; rfl
    · obtain ⟨a, ha, ha1, ha2⟩ := min_spec h0
      rw [ha1]
      simp only [Option.map_some]
      by_cases hp : a > 0
      · rw [if_pos hp, if_pos (mul_pos hp hc)]
        have e : ((valid col).map (· * c)).map Real.log = ((valid col).map Real.log).map (· + Real.log c) := by
          rw [List.map_map, List.map_map]
          apply List.map_congr_left
          intro x hx
          simp only [Function.comp]
          exact Real.log_mul (lt_of_lt_of_le hp (ha2 x hx)).ne' hc.ne'
        rw [e]
        unfold std
        rw [List.length_map, List.length_map]
        split
        · rfl
        · rename_i hn
          have hn' : ((valid col).length : ℝ) ≠ 0 := by
            have : (valid col).length ≠ 0 := by omega
            exact_mod_cast this
          have hs : (((valid col).map Real.log).map (· + Real.log c)).sum = ((valid col).map Real.log).sum + (valid col).length * Real.log c := by
            have hgen : ∀ (k : ℝ) (m : List ℝ), (m.map (· + k)).sum = m.sum + m.length * k := by
              intro k m
              induction m with
              | nil => simp
              | cons a m ih => simp only [List.map_cons, List.sum_cons, ih, List.length_cons]; push_cast; ring
            rw [hgen, List.length_map]
          rw [hs]
          congr 4
          rw [List.map_map, List.map_map, List.map_map]
          congr 1
          funext x
          simp only [Function.comp]
          congr 1
          field_simp
          ring
      · rw [if_neg hp, if_neg]
        intro h
        exact hp (pos_of_mul_pos_left h hc.le)
  simp only [hmean, hmin, hmax, hlog, std_mul hc, List.length_map, hq]
  simp only [List.map_append, List.map_cons, List.map_nil, List.map_map]
  congr 1

/-! ## Concrete cases -/

/-- Three accelerations; one realization has no result. -/
def acc : List (Option ℝ) := [some 3, none, some 1, some 2]

theorem acc_values : values acc = [3, 1, 2] := rfl

example : ∃ v, row acc "50%" = some (some v) ∧ (∃ a ∈ values acc, a ≤ v) := by
  obtain ⟨v, h1, h2, _⟩ := C98_percentiles acc (by rw [acc_values]; simp) (p := ("50%", 1/2)) (by simp [reported])
  exact ⟨v, h1, h2⟩

/-- Their standard deviation is one, and they have a standard deviation of the logarithms. -/
example : row acc "std" = some (some 1) ∧ ∃ s, row acc "log_std" = some (some s) := by
  constructor
  · rw [row_std, acc_values, std, if_neg (by simp)]
    norm_num
  · have := C98_log_std acc
    rw [if_pos (by rw [acc_values]; refine ⟨by simp, ?_⟩; intro x hx; simp at hx; rcases hx with rfl | rfl | rfl <;> norm_num)] at this
    obtain ⟨s, hs, _⟩ := this
    exact ⟨s, hs⟩

/-- Drifts that include zero have none. -/
example : row [some 0, some 1] "log_std" = some none := by
  have := C98_log_std [some 0, some 1]
  rw [if_neg] at this
  · exact this
  · rintro ⟨_, h⟩
    exact absurd (h 0 (by simp [values])) (by norm_num)

example : describe [some 1, some 2, some 3] = describe acc :=
  C98_order _ _ (by
    rw [acc_values]
    show [(1 : ℝ), 2, 3].Perm [3, 1, 2]
    exact (List.perm_append_comm (l₁ := [(1 : ℝ), 2]) (l₂ := [3])))

end Verif.Stats
