import Verif.Model.FmtG
import Verif.Lemmas.PyNum
import Mathlib.Tactic.Ring
import Mathlib.Tactic.Linarith
import Mathlib.Tactic.FieldSimp
import Mathlib.Tactic.NormNum
import Mathlib.Tactic.Positivity

/-! # `f'{val:g}'` rounds to six significant digits -/

namespace Verif

theorem zpow10_pos (k : Int) : (0 : ℚ) < (10 : ℚ) ^ k := zpow_pos (by norm_num) k

theorem roundEven_ge (q : ℚ) : ⌊q⌋₊ ≤ roundEven q := by
  unfold roundEven
  simp only
  split
  · exact le_rfl
  · split
    · omega
    · split <;> omega

theorem roundEven_le (q : ℚ) : roundEven q ≤ ⌊q⌋₊ + 1 := by
  unfold roundEven
  simp only
  split
  · omega
  · split
    · omega
    · split <;> omega

theorem roundEven_close {q : ℚ} (h : 0 ≤ q) : |(roundEven q : ℚ) - q| ≤ 1 / 2 := by
  have h1 := Nat.floor_le h
  have h2 := Nat.lt_floor_add_one q
  unfold roundEven
  simp only
  split
  · rename_i h3
    rw [abs_le]; constructor <;> linarith
  · rename_i h3
    have h3 := not_lt.1 h3
    split
    · push_cast
      rw [abs_le]; constructor <;> linarith
    · rename_i h4
      have h4 := not_lt.1 h4
      split
      · rw [abs_le]; constructor <;> linarith
      · push_cast
        rw [abs_le]; constructor <;> linarith

theorem roundEven_nat (n : Nat) : roundEven (n : ℚ) = n := by
  unfold roundEven
  simp

theorem scaled_bounds {a : ℚ} (h : 0 < a) :
    (100000 : ℚ) ≤ a / (10 : ℚ) ^ (Int.log 10 a - 5) ∧ a / (10 : ℚ) ^ (Int.log 10 a - 5) < 1000000 := by
  have hp : (0 : ℚ) < (10 : ℚ) ^ (Int.log 10 a - 5) := zpow10_pos _
  have h1 := Int.zpow_log_le_self (b := 10) (by norm_num) h
  have h2 := Int.lt_zpow_succ_log_self (b := 10) (by norm_num) a
  have e1 : (10 : ℚ) ^ (Int.log 10 a) = 100000 * (10 : ℚ) ^ (Int.log 10 a - 5) := by
    rw [show Int.log 10 a = 5 + (Int.log 10 a - 5) by ring, zpow_add₀ (by norm_num)]
    norm_num
  have e2 : (10 : ℚ) ^ (Int.log 10 a + 1) = 1000000 * (10 : ℚ) ^ (Int.log 10 a - 5) := by
    rw [show Int.log 10 a + 1 = 6 + (Int.log 10 a - 5) by ring, zpow_add₀ (by norm_num)]
    norm_num
  push_cast at h1 h2
  rw [e1] at h1
  rw [e2] at h2
  exact ⟨(le_div_iff₀ hp).2 h1, (div_lt_iff₀ hp).2 h2⟩

/-- The value of the six digits. -/
def sigVal (a : ℚ) : ℚ := ((sig6 a).1 : ℚ) * (10 : ℚ) ^ ((sig6 a).2 - 5)

theorem sigVal_eq {a : ℚ} (_h : 0 < a) :
    sigVal a = (roundEven (a / (10 : ℚ) ^ (Int.log 10 a - 5)) : ℚ) * (10 : ℚ) ^ (Int.log 10 a - 5) := by
  unfold sigVal sig6
  simp only
  split
  · rename_i h1
    rw [h1]
    simp only
    rw [show Int.log 10 a + 1 - 5 = 1 + (Int.log 10 a - 5) by ring, zpow_add₀ (by norm_num)]
    push_cast
    ring
  · rfl

theorem sig6_digits {a : ℚ} (h : 0 < a) : 100000 ≤ (sig6 a).1 ∧ (sig6 a).1 < 1000000 := by
  obtain ⟨h1, h2⟩ := scaled_bounds h
  have hf1 : 100000 ≤ ⌊a / (10 : ℚ) ^ (Int.log 10 a - 5)⌋₊ := Nat.le_floor (by exact_mod_cast h1)
  have hf2 : ⌊a / (10 : ℚ) ^ (Int.log 10 a - 5)⌋₊ < 1000000 := (Nat.floor_lt (by linarith)).2 (by exact_mod_cast h2)
  have g1 := roundEven_ge (a / (10 : ℚ) ^ (Int.log 10 a - 5))
  have g2 := roundEven_le (a / (10 : ℚ) ^ (Int.log 10 a - 5))
  unfold sig6
  simp only
  split
  · simp
  · simp only; omega

/-- Relative error of six digits. -/
theorem sigVal_close {a : ℚ} (h : 0 < a) : |sigVal a - a| ≤ 5 / 1000000 * a := by
  obtain ⟨h1, _⟩ := scaled_bounds h
  have hp : (0 : ℚ) < (10 : ℚ) ^ (Int.log 10 a - 5) := zpow10_pos _
  rw [sigVal_eq h]
  have hc := roundEven_close (q := a / (10 : ℚ) ^ (Int.log 10 a - 5)) (by linarith)
  generalize (10 : ℚ) ^ (Int.log 10 a - 5) = s at *
  have e : (roundEven (a / s) : ℚ) * s - a = ((roundEven (a / s) : ℚ) - a / s) * s := by field_simp
  rw [e, abs_mul, abs_of_pos hp]
  have h3 := mul_le_mul_of_nonneg_right hc hp.le
  have h4 : 100000 * s ≤ a := (le_div_iff₀ hp).1 h1
  linarith

theorem sigVal_pos {a : ℚ} (h : 0 < a) : 0 < sigVal a := by
  unfold sigVal
  have := (sig6_digits h).1
  have h1 : (0 : ℚ) < ((sig6 a).1 : ℚ) := by exact_mod_cast (by omega : 0 < (sig6 a).1)
  exact mul_pos h1 (zpow10_pos _)

/-- A number with at most six digits is kept. -/
theorem sigVal_exact {n : Nat} {k : Int} (hn : n < 1000000) (hpos : 0 < n) :
    sigVal ((n : ℚ) * (10 : ℚ) ^ k) = (n : ℚ) * (10 : ℚ) ^ k := by
  have hn0 : (0 : ℚ) < n := by exact_mod_cast hpos
  have h : 0 < (n : ℚ) * (10 : ℚ) ^ k := mul_pos hn0 (zpow10_pos _)
  obtain ⟨h1, _⟩ := scaled_bounds h
  rw [sigVal_eq h]
  set e := Int.log 10 ((n : ℚ) * (10 : ℚ) ^ k) with he
  have hx : (n : ℚ) * (10 : ℚ) ^ k / (10 : ℚ) ^ (e - 5) = (n : ℚ) * (10 : ℚ) ^ (k - e + 5) := by
    rw [mul_div_assoc, ← zpow_sub₀ (by norm_num)]
    congr 2; ring
  have hge : 0 ≤ k - e + 5 := by
    by_contra hlt
    have hlt : k - e + 5 ≤ -1 := by omega
    have h3 : (10 : ℚ) ^ (k - e + 5) ≤ (10 : ℚ) ^ (-1 : Int) := zpow_le_zpow_right₀ (by norm_num) hlt
    rw [hx] at h1
    have h4 : (n : ℚ) * (10 : ℚ) ^ (k - e + 5) ≤ n * (10 : ℚ) ^ (-1 : Int) := mul_le_mul_of_nonneg_left h3 hn0.le
    have h5 : (n : ℚ) < 1000000 := by exact_mod_cast hn
    norm_num at h4
    linarith
  obtain ⟨j, hj⟩ := Int.eq_ofNat_of_zero_le hge
  have hnat : (n : ℚ) * (10 : ℚ) ^ k / (10 : ℚ) ^ (e - 5) = ((n * 10 ^ j : Nat) : ℚ) := by
    rw [hx, hj]; push_cast; rw [zpow_natCast]
  rw [hnat, roundEven_nat, ← hnat]
  rw [div_mul_cancel₀]
  exact (zpow10_pos _).ne'

/-- The number denoted by `f'{q:g}'`. -/
def round6 (q : ℚ) : ℚ := if q = 0 then 0 else if q < 0 then -sigVal (-q) else sigVal q

theorem round6_close (q : ℚ) : |round6 q - q| ≤ 5 / 1000000 * |q| := by
  unfold round6
  split
  · rename_i h; simp [h]
  · split
    · rename_i h
      have := sigVal_close (a := -q) (by linarith)
      rw [abs_of_neg h]
      rwa [← abs_neg, show -(-sigVal (-q) - q) = sigVal (-q) - -q by ring]
    · rename_i h0 h
      have hq : 0 < q := lt_of_le_of_ne (not_lt.1 h) (Ne.symm h0)
      rw [abs_of_pos hq]
      exact sigVal_close hq

/-- Six significant digits are enough to write the number. -/
def SixDigits (q : ℚ) : Prop := ∃ (n : Int) (k : Int), |n| < 1000000 ∧ q = (n : ℚ) * (10 : ℚ) ^ k

theorem round6_exact {q : ℚ} (h : SixDigits q) : round6 q = q := by
  obtain ⟨n, k, hn, rfl⟩ := h
  have hp : (0 : ℚ) < (10 : ℚ) ^ k := zpow10_pos _
  unfold round6
  rcases lt_trichotomy n 0 with h | rfl | h
  · have hq : (n : ℚ) * (10 : ℚ) ^ k < 0 := mul_neg_of_neg_of_pos (by exact_mod_cast h) hp
    rw [if_neg hq.ne, if_pos hq]
    obtain ⟨j, rfl⟩ := Int.eq_negSucc_of_lt_zero h
    have e : -(((Int.negSucc j : Int) : ℚ) * (10 : ℚ) ^ k) = ((j + 1 : Nat) : ℚ) * (10 : ℚ) ^ k := by
      rw [Int.cast_negSucc]; push_cast; ring
    rw [e, sigVal_exact (by rw [abs_of_neg h] at hn; omega) (by omega), ← e]
    ring
  · simp
  · have hq : 0 < (n : ℚ) * (10 : ℚ) ^ k := mul_pos (by exact_mod_cast h) hp
    rw [if_neg hq.ne', if_neg (not_lt.2 hq.le)]
    obtain ⟨j, rfl⟩ := Int.eq_ofNat_of_zero_le h.le
    rw [abs_of_pos h] at hn
    exact sigVal_exact (by omega) (by omega)

theorem round6_sixDigits (q : ℚ) : SixDigits (round6 q) := by
  unfold round6
  split
  · exact ⟨0, 0, by simp, by simp⟩
  · split
    · rename_i h
      have := sig6_digits (a := -q) (by linarith)
      refine ⟨-((sig6 (-q)).1 : Int), (sig6 (-q)).2 - 5, ?_, ?_⟩
      · rw [abs_neg, abs_of_nonneg (by omega)]; omega
      · unfold sigVal; push_cast; ring
    · rename_i h0 h
      have := sig6_digits (a := q) (lt_of_le_of_ne (not_lt.1 h) (Ne.symm h0))
      refine ⟨((sig6 q).1 : Int), (sig6 q).2 - 5, ?_, ?_⟩
      · rw [abs_of_nonneg (by omega)]; omega
      · unfold sigVal; push_cast; ring

/-! ## Reading the literal -/

theorem decAux_length : ∀ (fuel n k : Nat), n < fuel → 10 ^ k ≤ n → n < 10 ^ (k + 1) → (decAux fuel n).length = k + 1
  | 0, _, _, h, _, _ => by omega
  | fuel + 1, n, k, hf, h1, h2 => by
    simp only [decAux]
    split
    · rename_i h
      cases k with
      | zero => rfl
      | succ k =>
        have : 10 ^ 1 ≤ 10 ^ (k + 1) := Nat.pow_le_pow_right (by omega) (by omega)
        omega
    · rename_i h
      cases k with
      | zero => omega
      | succ k =>
        rw [List.length_append, decAux_length fuel (n / 10) k (by omega)
          (by rw [pow_succ] at h1; omega) (by rw [pow_succ] at h2; omega)]
        rfl

theorem decStr_length6 {m : Nat} (h1 : 100000 ≤ m) (h2 : m < 1000000) : (decStr m).length = 6 :=
  decAux_length _ _ 5 (Nat.lt_succ_self _) (by simpa using h1) (by simpa using h2)

theorem digitsVal_acc {s : Str} : ∀ {v : Nat} (a : Nat), digitsVal 0 s = some v → digitsVal a s = some (a * 10 ^ s.length + v) := by
  suffices h : ∀ (s : Str) (b v a : Nat), digitsVal b s = some v → digitsVal (a + b) s = some (a * 10 ^ s.length + v) by
    intro v a hv
    simpa using h s 0 v a hv
  intro s
  induction s with
  | nil => intro b v a h; simp [digitsVal] at h ⊢; omega
  | cons c s ih =>
    intro b v a h
    simp only [digitsVal] at h ⊢
    cases hd : digitVal? c with
    | none => rw [hd] at h; simp at h
    | some d =>
      rw [hd] at h
      simp only at h ⊢
      have := ih (b * 10 + d) v (a * 10) h
      rw [show (a + b) * 10 + d = a * 10 + (b * 10 + d) by ring, this, List.length_cons, pow_succ]
      congr 1; ring

theorem digitsVal_zeros (z a : Nat) : digitsVal a (List.replicate z '0') = some (a * 10 ^ z) := by
  induction z generalizing a with
  | zero => simp [digitsVal]
  | succ z ih =>
    rw [List.replicate_succ]
    simp only [digitsVal, show digitVal? '0' = some 0 by decide]
    rw [ih, pow_succ]
    congr 1; ring

theorem rstrip0_split (s : Str) : ∃ z, s = rstrip0 s ++ List.replicate z '0' := by
  unfold rstrip0 rstrip
  have h := List.takeWhile_append_dropWhile (p := fun c => decide (c = '0')) (l := s.reverse)
  refine ⟨(s.reverse.takeWhile (fun c => decide (c = '0'))).length, ?_⟩
  have hz : s.reverse.takeWhile (fun c => decide (c = '0')) =
      List.replicate (s.reverse.takeWhile (fun c => decide (c = '0'))).length '0' := by
    rw [List.eq_replicate_iff]
    refine ⟨rfl, fun c hc => ?_⟩
    have := List.all_takeWhile (p := fun c => decide (c = '0')) (l := s.reverse)
    rw [List.all_eq_true] at this
    simpa using this c hc
  have h2 := congrArg List.reverse h
  rw [List.reverse_append, List.reverse_reverse, hz, List.reverse_replicate] at h2
  exact h2.symm

/-- Value of the part behind the point. -/
theorem rstrip0_val {s : Str} {v : Nat} (h : digitsVal 0 s = some v) :
    ∃ w, digitsVal 0 (rstrip0 s) = some w ∧ (w : ℚ) / 10 ^ (rstrip0 s).length = (v : ℚ) / 10 ^ s.length := by
  obtain ⟨z, hz⟩ := rstrip0_split s
  rw [hz, digitsVal_append] at h
  cases hw : digitsVal 0 (rstrip0 s) with
  | none => rw [hw] at h; simp at h
  | some w =>
    rw [hw] at h
    simp only [Option.bind_some, digitsVal_zeros, Option.some.injEq] at h
    refine ⟨w, rfl, ?_⟩
    have hl : s.length = (rstrip0 s).length + z := by
      have := congrArg List.length hz
      simpa using this
    rw [hl, ← h]
    push_cast
    rw [pow_add]
    field_simp

theorem rstrip0_digits {s : Str} (h : ∀ c ∈ s, IsDigit c) : ∀ c ∈ rstrip0 s, IsDigit c := by
  obtain ⟨z, hz⟩ := rstrip0_split s
  intro c hc
  exact h c (by rw [hz]; exact List.mem_append_left _ hc)

theorem mantissa_point {i f : Str} (hi : ∀ c ∈ i, IsDigit c) (hne : i ≠ []) {a b : Nat} (ha : digitsVal 0 i = some a)
    (hb : digitsVal 0 f = some b) : mantissa? (i ++ '.' :: f) = some ((a : ℚ) + (b : ℚ) / 10 ^ f.length) := by
  unfold mantissa?
  rw [splitChar1_sep (not_digit_of hi (by decide))]
  simp [hne, digits0, ha, hb]

theorem mantissa_plain {i : Str} (hi : ∀ c ∈ i, IsDigit c) (hne : i ≠ []) {a : Nat} (ha : digitsVal 0 i = some a) :
    mantissa? i = some (a : ℚ) := by
  unfold mantissa?
  rw [splitChar1_none (not_digit_of hi (by decide))]
  simp [hne, digits0, ha]

theorem take_drop_val {d : Str} {m : Nat} (k : Nat) (hd : digitsVal 0 d = some m) :
    ∃ a b, digitsVal 0 (d.take k) = some a ∧ digitsVal 0 (d.drop k) = some b ∧ m = a * 10 ^ (d.drop k).length + b := by
  have hdig := digitsVal_some hd
  obtain ⟨a, ha⟩ := digitsVal_isSome (s := d.take k) (fun c hc => hdig c (List.mem_of_mem_take hc)) 0
  obtain ⟨b, hb⟩ := digitsVal_isSome (s := d.drop k) (fun c hc => hdig c (List.mem_of_mem_drop hc)) 0
  refine ⟨a, b, ha, hb, ?_⟩
  rw [← List.take_append_drop k d, digitsVal_append, ha] at hd
  simp only [Option.bind_some] at hd
  rw [digitsVal_acc a hb] at hd
  simpa using hd.symm

theorem mantissa_frac {d : Str} {m k : Nat} (hd : digitsVal 0 d = some m) (hk : 0 < k) (hkd : k ≤ d.length) :
    mantissa? (d.take k ++ fracPart (d.drop k)) = some ((m : ℚ) / 10 ^ (d.length - k)) := by
  have hdig := digitsVal_some hd
  obtain ⟨a, b, ha, hb, hm⟩ := take_drop_val k hd
  have hi : ∀ c ∈ d.take k, IsDigit c := fun c hc => hdig c (List.mem_of_mem_take hc)
  have hne : d.take k ≠ [] := by
    intro h
    have := congrArg List.length h
    simp only [List.length_take, List.length_nil] at this
    omega
  obtain ⟨w, hw, hwv⟩ := rstrip0_val hb
  have hval : (m : ℚ) / 10 ^ (d.length - k) = (a : ℚ) + (b : ℚ) / 10 ^ (d.drop k).length := by
    rw [hm, List.length_drop]
    push_cast
    field_simp
  unfold fracPart
  split
  · rename_i h0
    rw [List.append_nil, mantissa_plain hi hne ha, hval, ← hwv, h0]
    rw [h0] at hw
    simp only [digitsVal, Option.some.injEq] at hw
    simp [← hw]
  · rw [mantissa_point hi hne ha hw, hwv, hval]

theorem fracPart_chars {s : Str} (h : ∀ c ∈ s, IsDigit c) : ∀ c ∈ fracPart s, IsDigit c ∨ c = '.' := by
  unfold fracPart
  split
  · simp
  · intro c hc
    rcases List.mem_cons.1 hc with rfl | hc
    · exact .inr rfl
    · exact .inl (rstrip0_digits h c hc)

/-- Characters of a number literal. -/
def NumChar (c : Char) : Prop := IsDigit c ∨ c = '.' ∨ c = 'e' ∨ c = '-' ∨ c = '+'

theorem pad2_facts (n : Nat) : digits0 (pad2 (decStr n)) = some n ∧ pad2 (decStr n) ≠ [] ∧ ∀ c ∈ pad2 (decStr n), IsDigit c := by
  unfold pad2
  split
  · refine ⟨?_, by simp, ?_⟩
    · have := digitsVal_decStr n
      simp only [digits0, digitsVal, show digitVal? '0' = some 0 by decide]
      exact this
    · intro c hc
      rcases List.mem_cons.1 hc with rfl | hc
      · decide
      · exact decStr_digits n c hc
  · exact ⟨digitsVal_decStr n, decStr_ne_nil n, decStr_digits n⟩

theorem exponent_minus {s : Str} (hne : s ≠ []) {n : Nat} (h : digits0 s = some n) : exponent? ('-' :: s) = some (-(n : Int)) := by
  obtain ⟨c, r, rfl⟩ := List.exists_cons_of_ne_nil hne
  simp [exponent?, h]

theorem exponent_plus {s : Str} (hne : s ≠ []) {n : Nat} (h : digits0 s = some n) : exponent? ('+' :: s) = some (n : Int) := by
  obtain ⟨c, r, rfl⟩ := List.exists_cons_of_ne_nil hne
  simp [exponent?, h]

/-- The literal has the value of its digits. -/
theorem fmtDigits_val {d : Str} {m : Nat} (hd : digitsVal 0 d = some m) (hl : d.length = 6) (e : Int) :
    unsignedFloat? (fmtDigits d e) = some ((m : ℚ) * (10 : ℚ) ^ (e - 5)) := by
  have hdig := digitsVal_some hd
  unfold fmtDigits
  split
  · rename_i h
    unfold unsignedFloat?
    rw [splitChar1_none]
    · simp only
      rw [mantissa_frac hd (by omega) (by omega)]
      have : e - 5 = -((d.length - (e + 1).toNat : Nat) : Int) := by omega
      rw [this, zpow_neg, zpow_natCast, div_eq_mul_inv]
    · intro hc
      rcases List.mem_append.1 hc with hc | hc
      · exact absurd (hdig _ (List.mem_of_mem_take hc)) (by decide)
      · rcases fracPart_chars (fun c hc => hdig c (List.mem_of_mem_drop hc)) _ hc with h | h
        · exact absurd h (by decide)
        · exact absurd h (by decide)
  · split
    · rename_i _ h
      obtain ⟨w, hw, hwv⟩ := rstrip0_val hd
      have hf : digitsVal 0 (List.replicate (-e - 1).toNat '0' ++ rstrip0 d) = some w := by
        rw [digitsVal_append, digitsVal_zeros]; simpa using hw
      unfold unsignedFloat?
      rw [splitChar1_none]
      · have := mantissa_point (i := ['0']) (f := List.replicate (-e - 1).toNat '0' ++ rstrip0 d) (by decide) (by simp)
          (a := 0) (by decide) hf
        simp only [List.cons_append, List.nil_append] at this
        simp only
        rw [this]
        rw [List.length_append, List.length_replicate, pow_add]
        have e1 : e - 5 = -((-e - 1).toNat + d.length : Nat) := by omega
        rw [e1, zpow_neg, zpow_natCast, pow_add]
        have : (w : ℚ) / (10 ^ (-e - 1).toNat * 10 ^ (rstrip0 d).length) =
            (w : ℚ) / 10 ^ (rstrip0 d).length / 10 ^ (-e - 1).toNat := by field_simp
        rw [this, hwv]
        congr 1
        push_cast
        field_simp
        ring
      · intro hc
        simp only [List.mem_cons, List.mem_append, List.mem_replicate] at hc
        rcases hc with h | h | h | h
        · exact absurd h (by decide)
        · exact absurd h (by decide)
        · exact absurd h.2 (by decide)
        · exact absurd (rstrip0_digits hdig _ h) (by decide)
    · rename_i h1 h2
      obtain ⟨p1, p2, _⟩ := pad2_facts e.natAbs
      unfold unsignedFloat?
      rw [splitChar1_sep]
      · simp only
        rw [mantissa_frac hd (by omega) (by omega)]
        have hexp : exponent? ((if e < 0 then '-' else '+') :: pad2 (decStr e.natAbs)) = some e := by
          split
          · rw [exponent_minus p2 p1]; congr 1; omega
          · rw [exponent_plus p2 p1]; congr 1; omega
        rw [hexp]
        simp only [hl]
        rw [zpow_sub₀ (by norm_num)]
        congr 1
        norm_num
        ring
      · intro hc
        rcases List.mem_append.1 hc with hc | hc
        · exact absurd (hdig _ (List.mem_of_mem_take hc)) (by decide)
        · rcases fracPart_chars (fun c hc => hdig c (List.mem_of_mem_drop hc)) _ hc with h | h
          · exact absurd h (by decide)
          · exact absurd h (by decide)

theorem fmtDigits_chars {d : Str} (hdig : ∀ c ∈ d, IsDigit c) (e : Int) : ∀ c ∈ fmtDigits d e, NumChar c := by
  have hfrac : ∀ k, ∀ c ∈ d.take k ++ fracPart (d.drop k), NumChar c := by
    intro k c hc
    rcases List.mem_append.1 hc with hc | hc
    · exact .inl (hdig _ (List.mem_of_mem_take hc))
    · rcases fracPart_chars (fun c hc => hdig c (List.mem_of_mem_drop hc)) _ hc with h | h
      · exact .inl h
      · exact .inr (.inl h)
  unfold fmtDigits
  split
  · exact hfrac _
  · split
    · intro c hc
      simp only [List.mem_cons, List.mem_append, List.mem_replicate] at hc
      rcases hc with rfl | rfl | h | h
      · exact .inl (by decide)
      · exact .inr (.inl rfl)
      · rw [h.2]; exact .inl (by decide)
      · exact .inl (rstrip0_digits hdig _ h)
    · intro c hc
      rcases List.mem_append.1 hc with hc | hc
      · exact hfrac 1 c hc
      · rcases List.mem_cons.1 hc with rfl | hc
        · exact .inr (.inr (.inl rfl))
        · rcases List.mem_cons.1 hc with hc | hc
          · split at hc
            · exact .inr (.inr (.inr (.inl hc)))
            · exact .inr (.inr (.inr (.inr hc)))
          · exact .inl ((pad2_facts e.natAbs).2.2 c hc)

theorem fmtDigits_head {d : Str} (hdig : ∀ c ∈ d, IsDigit c) (hl : d.length = 6) (e : Int) :
    ∃ c r, fmtDigits d e = c :: r ∧ IsDigit c := by
  obtain ⟨c, d', rfl⟩ : ∃ c d', d = c :: d' := by
    cases d with
    | nil => simp at hl
    | cons c d' => exact ⟨c, d', rfl⟩
  unfold fmtDigits
  split
  · rename_i h
    obtain ⟨j, hj⟩ : ∃ j, (e + 1).toNat = j + 1 := ⟨(e + 1).toNat - 1, by omega⟩
    rw [hj]
    exact ⟨c, _, rfl, hdig c (by simp)⟩
  · split
    · exact ⟨_, _, rfl, by decide⟩
    · exact ⟨c, _, rfl, hdig c (by simp)⟩

theorem numChar_not_space {c : Char} (h : NumChar c) : isSpace c = false := by
  rcases h with h | rfl | rfl | rfl | rfl
  · exact digit_not_space h
  all_goals decide

theorem numChar_lower {c : Char} (h : NumChar c) : lowerC c = c := by
  rcases h with h | rfl | rfl | rfl | rfl
  · exact digit_lower h
  all_goals decide

theorem pyFloat?_literal {u : Str} {q : ℚ} (hc : ∀ c ∈ u, NumChar c) (hh : ∃ c r, u = c :: r ∧ IsDigit c)
    (h : unsignedFloat? u = some q) : pyFloat? u = some (.fin q) ∧ pyFloat? ('-' :: u) = some (.fin (-q)) := by
  obtain ⟨x, r, hu, hx⟩ := hh
  have hlow : u.map lowerC = u := by
    rw [List.map_congr_left (fun c h' => numChar_lower (hc c h')), List.map_id']
  have hbody : ∀ neg, floatBody? neg u = some (.fin (if neg then -q else q)) := by
    intro neg
    unfold floatBody?
    have hne : ∀ w : Str, (∃ y t, w = y :: t ∧ ¬ IsDigit y) → u ≠ w := by
      rintro w ⟨y, t, rfl, hy⟩ e
      rw [hu] at e
      simp only [List.cons.injEq] at e
      exact hy (e.1 ▸ hx)
    rw [if_neg, if_neg, h]
    · rfl
    · exact hne _ ⟨'n', _, rfl, by decide⟩
    · rintro (e | e)
      · exact hne _ ⟨'i', _, rfl, by decide⟩ e
      · exact hne _ ⟨'i', _, rfl, by decide⟩ e
  constructor
  · unfold pyFloat?
    simp only [strip_of_no_space (fun c h' => numChar_not_space (hc c h'))]
    have hs : signOf u = (false, u) := by
      rw [hu]
      unfold signOf
      split
      · rename_i v hv; simp only [List.cons.injEq] at hv; rw [hv.1] at hx; exact absurd hx (by decide)
      · rename_i v hv; simp only [List.cons.injEq] at hv; rw [hv.1] at hx; exact absurd hx (by decide)
      · rfl
    rw [hs, hlow, hbody]
    rfl
  · unfold pyFloat?
    have hsp : ∀ c ∈ '-' :: u, isSpace c = false := by
      intro c h'
      rcases List.mem_cons.1 h' with rfl | h'
      · decide
      · exact numChar_not_space (hc c h')
    simp only [strip_of_no_space hsp, signOf, hlow, hbody]
    rfl

/-- `float(f'{q:g}')` is `q` rounded to six significant digits. -/
theorem pyFloat?_fmtG (q : ℚ) : pyFloat? (fmtG q) = some (.fin (round6 q)) := by
  have key : ∀ a : ℚ, 0 < a → pyFloat? (fmtDigits (decStr (sig6 a).1) (sig6 a).2) = some (.fin (sigVal a)) ∧
      pyFloat? ('-' :: fmtDigits (decStr (sig6 a).1) (sig6 a).2) = some (.fin (-sigVal a)) := by
    intro a ha
    obtain ⟨h1, h2⟩ := sig6_digits ha
    exact pyFloat?_literal (fmtDigits_chars (decStr_digits _) _) (fmtDigits_head (decStr_digits _) (decStr_length6 h1 h2) _)
      (fmtDigits_val (digitsVal_decStr _) (decStr_length6 h1 h2) _)
  unfold fmtG round6
  split
  · decide +kernel
  · split
    · rename_i h; exact (key (-q) (by linarith)).2
    · rename_i h0 h
      exact (key q (lt_of_le_of_ne (not_lt.1 h) (Ne.symm h0))).1

theorem fmtG_chars (q : ℚ) : ∀ c ∈ fmtG q, NumChar c := by
  unfold fmtG
  split
  · intro c hc; simp only [List.mem_singleton] at hc; subst hc; exact .inl (by decide)
  · split
    · intro c hc
      rcases List.mem_cons.1 hc with rfl | hc
      · exact .inr (.inr (.inr (.inl rfl)))
      · exact fmtDigits_chars (decStr_digits _) _ c hc
    · exact fmtDigits_chars (decStr_digits _) _

end Verif
