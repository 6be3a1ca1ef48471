import Verif.Model.NNR
import Verif.Lemmas.Lists
import Mathlib.Algebra.Order.BigOperators.Group.List
import Mathlib.Tactic.Positivity
import Mathlib.Tactic.Linarith
import Mathlib.Tactic.FieldSimp
import Mathlib.Tactic.Ring
import Mathlib.Algebra.Order.Group.Unbundled.Abs
import Mathlib.Algebra.Order.Ring.Abs
import Mathlib.Algebra.BigOperators.Ring.List

/-! # C71: nearest neighbour interpolation -/

namespace Verif.NNR

variable {K : Type} [Field K] [LinearOrder K] [IsStrictOrderedRing K]

/-- The names of the weighting schemes. -/
def Schemes : List Str := [str "distance2", str "uniform", str "distance1"]

theorem sum_pos' (l : List K) (h : ∀ x ∈ l, 0 < x) (hne : l ≠ []) : 0 < l.sum := by
  cases l with
  | nil => exact absurd rfl hne
  | cons a l =>
    rw [List.sum_cons]
    have h1 := h a (by simp)
    have h2 : 0 ≤ l.sum := List.sum_nonneg fun x hx => (h x (by simp [hx])).le
    linarith

theorem sum_div_const (l : List K) (c : K) : (l.map fun w => w / c).sum = l.sum / c := by
  induction l with
  | nil => simp
  | cons a l ih => rw [List.map_cons, List.sum_cons, ih, List.sum_cons, add_div]

theorem normalised (dw : List K) (h : ∀ x ∈ dw, 0 < x) (hne : dw ≠ []) :
    (∀ x ∈ dw.map fun w => w / dw.sum, 0 < x) ∧ (dw.map fun w => w / dw.sum).sum = 1 := by
  have hs := sum_pos' dw h hne
  constructor
  · intro x hx
    obtain ⟨w, hw, rfl⟩ := List.mem_map.1 hx
    exact div_pos (h w hw) hs
  · rw [sum_div_const]
    exact div_self hs.ne'

/-- **C71, weights.** For each weighting scheme, all weights are positive and they add up to one. -/
theorem C71_weights (scheme : Str) (hs : scheme ∈ Schemes) (dist : List K) (hd : ∀ d ∈ dist, 0 < d) (hne : dist ≠ []) :
    ∃ w, weights scheme dist.length dist = .ok w ∧ w.length = dist.length ∧ (∀ x ∈ w, 0 < x) ∧ w.sum = 1 := by
  have hlen : 0 < dist.length := List.length_pos_iff.2 hne
  simp only [Schemes, List.mem_cons, List.not_mem_nil, or_false] at hs
  rcases hs with rfl | rfl | rfl
  · have h1 : ∀ x ∈ dist.map fun d => 1 / d ^ 2, 0 < x := by
      intro x hx
      obtain ⟨d, hd', rfl⟩ := List.mem_map.1 hx
      have := hd d hd'
      positivity
    obtain ⟨a, b⟩ := normalised (dist.map fun d => 1 / d ^ 2) h1 (by simpa using hne)
    exact ⟨_, by unfold weights; rw [if_pos rfl], by simp, a, b⟩
  · refine ⟨dist.map fun _ => 1 / (dist.length : K), by unfold weights; rw [if_neg (by decide), if_pos rfl], by simp, ?_, ?_⟩
    · intro x hx
      obtain ⟨d, hd', rfl⟩ := List.mem_map.1 hx
      have : (0 : K) < dist.length := by exact_mod_cast hlen
      positivity
    · have : (dist.length : K) ≠ 0 := by exact_mod_cast hlen.ne'
      simp [this]
  · have h1 : ∀ x ∈ dist.map fun d => 1 / d, 0 < x := by
      intro x hx
      obtain ⟨d, hd', rfl⟩ := List.mem_map.1 hx
      have := hd d hd'
      positivity
    obtain ⟨a, b⟩ := normalised (dist.map fun d => 1 / d) h1 (by simpa using hne)
    exact ⟨_, by unfold weights; rw [if_neg (by decide), if_neg (by decide), if_pos rfl], by simp, a, b⟩

theorem weighted_bounds (w vals : List K) (hl : w.length = vals.length) (hw : ∀ x ∈ w, 0 ≤ x) (lo hi : K)
    (hv : ∀ v ∈ vals, lo ≤ v ∧ v ≤ hi) : w.sum * lo ≤ weighted w vals ∧ weighted w vals ≤ w.sum * hi := by
  unfold weighted
  induction w generalizing vals with
  | nil => simp
  | cons a w ih =>
    cases vals with
    | nil => simp at hl
    | cons v vals =>
      rw [List.zipWith_cons_cons, List.sum_cons, List.sum_cons]
      obtain ⟨h1, h2⟩ := ih vals (by simpa using hl) (fun x hx => hw x (by simp [hx])) (fun x hx => hv x (by simp [hx]))
      obtain ⟨h3, h4⟩ := hv v (by simp)
      have ha := hw a (by simp)
      have h5 := mul_le_mul_of_nonneg_left h3 ha
      have h6 := mul_le_mul_of_nonneg_left h4 ha
      constructor
      · rw [add_mul]; linarith
      · rw [add_mul]; linarith

/-- What is assumed of the neighbour search: every target gets the requested number of neighbours, with
distances that are not negative. -/
def Search {τ : Type} (kn : τ → List (K × Nat)) (nNeighbors : Nat) : Prop :=
  ∀ t, (kn t).length = nNeighbors ∧ ∀ p ∈ kn t, 0 ≤ p.1

theorem expected_ok (eps : K) (heps : 0 < eps) (scheme : Str) (hs : scheme ∈ Schemes) (src : Nat → Nat → Nat → K)
    (nbrs : List (K × Nat)) (hne : nbrs ≠ []) (hd : ∀ p ∈ nbrs, 0 ≤ p.1) :
    ∃ w, weights scheme nbrs.length (nbrs.map fun p => p.1 + eps) = .ok w ∧ w.length = nbrs.length ∧ (∀ x ∈ w, 0 < x) ∧ w.sum = 1 ∧
      expected eps scheme nbrs.length src nbrs = .ok fun f r => weighted w (nbrs.map fun p => src p.2 f r) := by
  have hd' : ∀ d ∈ nbrs.map fun p => p.1 + eps, 0 < d := by
    intro d hdm
    obtain ⟨p, hp, rfl⟩ := List.mem_map.1 hdm
    have := hd p hp
    linarith
  obtain ⟨w, h1, h2, h3, h4⟩ := C71_weights scheme hs _ hd' (by simpa using hne)
  rw [List.length_map] at h1 h2
  exact ⟨w, h1, h2, h3, h4, by unfold expected; rw [h1]⟩

/-- **C71.** With a known weighting scheme and at least one neighbour, every target gets a value; for each
feature and realization, the value is not below the smallest and not above the largest value of the
neighbours of this target. -/
theorem C71_between {τ : Type} (eps : K) (heps : 0 < eps) (scheme : Str) (hs : scheme ∈ Schemes) (src : Nat → Nat → Nat → K)
    (kn : τ → List (K × Nat)) (n : Nat) (hn : 0 < n) (hk : Search kn n) (targets : List τ) :
    ∃ out, nnr eps scheme n src kn targets = .ok out ∧
      List.Forall₂ (fun t v => ∀ f r lo hi, (∀ p ∈ kn t, lo ≤ src p.2 f r ∧ src p.2 f r ≤ hi) → lo ≤ v f r ∧ v f r ≤ hi) targets out := by
  have hone : ∀ t, ∃ v, expected eps scheme n src (kn t) = .ok v ∧
      ∀ f r lo hi, (∀ p ∈ kn t, lo ≤ src p.2 f r ∧ src p.2 f r ≤ hi) → lo ≤ v f r ∧ v f r ≤ hi := by
    intro t
    obtain ⟨hl, hd⟩ := hk t
    have hne : kn t ≠ [] := by intro h; rw [h] at hl; simp at hl; omega
    obtain ⟨w, _, h2, h3, h4, h5⟩ := expected_ok eps heps scheme hs src (kn t) hne hd
    rw [hl] at h5
    refine ⟨_, h5, ?_⟩
    intro f r lo hi h
    have := weighted_bounds w ((kn t).map fun p => src p.2 f r) (by simpa using h2) (fun x hx => (h3 x hx).le) lo hi (by
      intro v hv
      obtain ⟨p, hp, rfl⟩ := List.mem_map.1 hv
      exact h p hp)
    rw [h4, one_mul, one_mul] at this
    exact this
  unfold nnr
  induction targets with
  | nil => exact ⟨[], rfl, List.Forall₂.nil⟩
  | cons t ts ih =>
    obtain ⟨out, h1, h2⟩ := ih
    obtain ⟨v, h3, h4⟩ := hone t
    refine ⟨v :: out, ?_, List.Forall₂.cons h4 h2⟩
    rw [mapE_ok_iff]
    exact List.Forall₂.cons h3 (mapE_ok_iff.1 h1)

/-- **C71.** A field that is constant on the neighbours of a target is reproduced exactly. -/
theorem C71_constant {τ : Type} (eps : K) (heps : 0 < eps) (scheme : Str) (hs : scheme ∈ Schemes) (src : Nat → Nat → Nat → K)
    (kn : τ → List (K × Nat)) (n : Nat) (hn : 0 < n) (hk : Search kn n) (targets : List τ) (out : List (Nat → Nat → K))
    (h : nnr eps scheme n src kn targets = .ok out) :
    List.Forall₂ (fun t v => ∀ f r c, (∀ p ∈ kn t, src p.2 f r = c) → v f r = c) targets out := by
  obtain ⟨out', h1, h2⟩ := C71_between eps heps scheme hs src kn n hn hk targets
  rw [h] at h1
  cases h1
  refine h2.imp ?_
  intro t v hb f r c hc
  obtain ⟨h3, h4⟩ := hb f r c c fun p hp => by rw [hc p hp]; exact ⟨le_refl _, le_refl _⟩
  exact le_antisymm h4 h3

/-- **C71.** The weights depend on the distance as documented: a nearer neighbour never has a smaller
weight, and the ratio of two weights is the inverse ratio of the (squared) distances. -/
theorem C71_ratio (dist w : List K) (hd : ∀ d ∈ dist, 0 < d) (n i j : Nat) (di dj wi wj : K)
    (h1 : dist[i]? = some di) (h2 : dist[j]? = some dj) (h3 : w[i]? = some wi) (h4 : w[j]? = some wj) :
    (weights (str "distance2") n dist = .ok w → wi * di ^ 2 = wj * dj ^ 2) ∧
    (weights (str "distance1") n dist = .ok w → wi * di = wj * dj) ∧
    (weights (str "uniform") n dist = .ok w → wi = wj) := by
  have hi := hd di (List.mem_of_getElem? h1)
  have hj := hd dj (List.mem_of_getElem? h2)
  refine ⟨?_, ?_, ?_⟩
  · intro h
    unfold weights at h
    rw [if_pos rfl] at h
    cases h
    simp only [List.getElem?_map, h1, h2, Option.map_some, Option.some.injEq] at h3 h4
    rw [← h3, ← h4]
    field_simp
  · intro h
    unfold weights at h
    rw [if_neg (by decide), if_neg (by decide), if_pos rfl] at h
    cases h
    simp only [List.getElem?_map, h1, h2, Option.map_some, Option.some.injEq] at h3 h4
    rw [← h3, ← h4]
    field_simp
  · intro h
    unfold weights at h
    rw [if_neg (by decide), if_pos rfl] at h
    cases h
    simp only [List.getElem?_map, h1, h2, Option.map_some, Option.some.injEq] at h3 h4
    rw [← h3, ← h4]

/-- **C71.** At a source point the weight of every other neighbour is at most `(eps / (eps + distance))²`
(`eps` is 1e-20), so the interpolated value is practically the known value. -/
theorem C71_coincident (eps : K) (heps : 0 < eps) (d : List K) (hd : ∀ x ∈ d, 0 ≤ x) (hne : d ≠ []) (w : List K)
    (i j : Nat) (dj wj : K) (h0 : d[i]? = some 0) (h1 : d[j]? = some dj) (h2 : w[j]? = some wj) (n : Nat) (hn : n = d.length)
    (h : weights (str "distance2") n (d.map fun x => x + eps) = .ok w) : wj ≤ (eps / (dj + eps)) ^ 2 := by
  have hpos : ∀ x ∈ d.map fun x => x + eps, 0 < x := by
    intro x hx
    obtain ⟨y, hy, rfl⟩ := List.mem_map.1 hx
    have := hd y hy
    linarith
  obtain ⟨w', e1, e2, e3, e4⟩ := C71_weights (str "distance2") (by decide) (d.map fun x => x + eps) hpos (by simpa using hne)
  rw [List.length_map, ← hn, h] at e1
  cases e1
  have hi : i < w.length := by
    rw [e2, List.length_map]
    exact (List.getElem?_eq_some_iff.1 h0).1
  have hwi : w[i]? = some w[i] := List.getElem?_eq_getElem hi
  have hr := (C71_ratio (d.map fun x => x + eps) w hpos n i j (0 + eps) (dj + eps) w[i] wj (by simp [h0]) (by simp [h1]) hwi h2).1 h
  have hle : w[i] ≤ 1 := by
    rw [← e4]
    exact List.single_le_sum (fun x hx => (e3 x hx).le) _ (List.getElem_mem hi)
  have hdj := hd dj (List.mem_of_getElem? h1)
  have hp : 0 < (dj + eps) ^ 2 := by positivity
  rw [zero_add] at hr
  rw [div_pow, le_div_iff₀ hp, ← hr]
  have he : 0 ≤ eps ^ 2 := by positivity
  calc w[i] * eps ^ 2 ≤ 1 * eps ^ 2 := mul_le_mul_of_nonneg_right hle he
    _ = eps ^ 2 := one_mul _

theorem weighted_map {α : Type} (l : List α) (g h : α → K) (c : K) :
    weighted ((l.map g).map fun w => w / c) (l.map h) = (l.map fun p => h p * g p).sum / c := by
  unfold weighted
  induction l with
  | nil => simp
  | cons a l ih =>
    simp only [List.map_cons, List.zipWith_cons_cons, List.sum_cons]
    rw [ih, add_div]
    ring

/-- Specification: the power of the distance that the weight of a neighbour is inversely proportional to. -/
def power (scheme : Str) : Nat :=
  if scheme = str "distance2" then 2 else if scheme = str "distance1" then 1 else 0

/-- **C71, formula.** The value at a target is the average of the known values of its neighbours, each
weighted by the inverse of its distance (squared distance, no distance) to the target. -/
theorem C71_formula {τ : Type} (eps : K) (scheme : Str) (hs : scheme ∈ Schemes) (src : Nat → Nat → Nat → K)
    (kn : τ → List (K × Nat)) (n : Nat) (hn : 0 < n) (hk : Search kn n) (targets : List τ) (out : List (Nat → Nat → K))
    (h : nnr eps scheme n src kn targets = .ok out) :
    List.Forall₂ (fun t v => ∀ f r, v f r =
      ((kn t).map fun p => src p.2 f r * (1 / (p.1 + eps) ^ power scheme)).sum / ((kn t).map fun p => 1 / (p.1 + eps) ^ power scheme).sum)
      targets out := by
  unfold nnr at h
  refine (mapE_ok_iff.1 h).imp ?_
  intro t v hv f r
  have hl := (hk t).1
  simp only [Schemes, List.mem_cons, List.not_mem_nil, or_false] at hs
  unfold expected weights at hv
  rcases hs with rfl | rfl | rfl
  · rw [if_pos rfl] at hv
    cases hv
    have hp : power (str "distance2") = 2 := by decide
    rw [hp]
    have := weighted_map (kn t) (fun p => 1 / (p.1 + eps) ^ 2) (fun p => src p.2 f r) ((kn t).map fun p => 1 / (p.1 + eps) ^ 2).sum
    simp only [List.map_map] at this ⊢
    exact this
  · rw [if_neg (by decide), if_pos rfl] at hv
    cases hv
    have hp : power (str "uniform") = 0 := by decide
    rw [hp]
    have := weighted_map (kn t) (fun _ => 1) (fun p => src p.2 f r) (n : K)
    simp only [List.map_map, pow_zero, mul_one, one_div] at this ⊢
    have e : ((kn t).map fun _ => (1 : K)⁻¹).sum = n := by simp [hl]
    rw [e]
    have e2 : ((fun _ => (n : K)⁻¹) ∘ fun p : K × Nat => p.1 + eps) = ((fun w => w / (n : K)) ∘ fun _ => 1) := by
      funext p; simp
    rw [e2, this]
    simp
  · rw [if_neg (by decide), if_neg (by decide), if_pos rfl] at hv
    cases hv
    have hp : power (str "distance1") = 1 := by decide
    rw [hp]
    have := weighted_map (kn t) (fun p => 1 / (p.1 + eps)) (fun p => src p.2 f r) ((kn t).map fun p => 1 / (p.1 + eps)).sum
    simp only [List.map_map, pow_one] at this ⊢
    exact this

theorem weighted_sub (w vals : List K) (hl : w.length = vals.length) (c : K) :
    weighted w vals - w.sum * c = weighted w (vals.map fun v => v - c) := by
  unfold weighted
  induction w generalizing vals with
  | nil => simp
  | cons a w ih =>
    cases vals with
    | nil => simp at hl
    | cons v vals =>
      simp only [List.map_cons, List.zipWith_cons_cons, List.sum_cons]
      rw [← ih vals (by simpa using hl)]
      ring

theorem abs_weighted_le (w vals b : List K) (hw : ∀ x ∈ w, 0 ≤ x) (h1 : w.length = vals.length) (hb : List.Forall₂ (fun x y => x ≤ y) w b) :
    |weighted w vals| ≤ (List.zipWith (fun y v => y * |v|) b vals).sum := by
  unfold weighted
  induction hb generalizing vals with
  | nil => simp
  | @cons x y w b hxy hb ih =>
    cases vals with
    | nil => simp at h1
    | cons v vals =>
      simp only [List.zipWith_cons_cons, List.sum_cons]
      have hx := hw x (by simp)
      have ih' := ih vals (fun x hx => hw x (by simp [hx])) (by simpa using h1)
      have h2 : |x * v| ≤ y * |v| := by
        rw [abs_mul, abs_of_nonneg hx]
        exact mul_le_mul_of_nonneg_right hxy (abs_nonneg v)
      exact (abs_add_le _ _).trans (add_le_add h2 ih')

/-- **C71, at a known point.** If a target coincides with a known point that is one of its neighbours, its
value is that of the known point, up to the differences to the other neighbours multiplied by
`(eps / (distance + eps))²`, where `eps` is 1e-20. -/
theorem C71_at_known_point {τ : Type} (eps : K) (heps : 0 < eps) (src : Nat → Nat → Nat → K)
    (kn : τ → List (K × Nat)) (n : Nat) (hn : 0 < n) (hk : Search kn n) (targets : List τ) (out : List (Nat → Nat → K))
    (h : nnr eps (str "distance2") n src kn targets = .ok out) :
    List.Forall₂ (fun t v => ∀ k, (0, k) ∈ kn t → ∀ f r,
      |v f r - src k f r| ≤ ((kn t).map fun p => (eps / (p.1 + eps)) ^ 2 * |src p.2 f r - src k f r|).sum) targets out := by
  unfold nnr at h
  refine (mapE_ok_iff.1 h).imp ?_
  intro t v hv k hm f r
  obtain ⟨hl, hd⟩ := hk t
  have hne : kn t ≠ [] := by intro h; rw [h] at hl; simp at hl; omega
  obtain ⟨w, h1, h2, h3, h4, h5⟩ := expected_ok eps heps (str "distance2") (by decide) src (kn t) hne hd
  rw [hl, hv] at h5
  cases h5
  have hsub := weighted_sub w ((kn t).map fun p => src p.2 f r) (by simpa using h2) (src k f r)
  rw [h4, one_mul] at hsub
  rw [hsub]
  obtain ⟨i, hi, hik⟩ := List.mem_iff_getElem.1 hm
  have hb : List.Forall₂ (fun x y => x ≤ y) w ((kn t).map fun p => (eps / (p.1 + eps)) ^ 2) := by
    rw [List.forall₂_iff_get]
    refine ⟨by simpa using h2, ?_⟩
    intro j hj hj'
    have hjk : j < (kn t).length := by rw [← h2]; exact hj
    have := C71_coincident eps heps ((kn t).map fun p => p.1) (by
      intro x hx
      obtain ⟨p, hp, rfl⟩ := List.mem_map.1 hx
      exact hd p hp) (by simpa using hne) w i j (kn t)[j].1 w[j] (by
        rw [List.getElem?_map, List.getElem?_eq_getElem hi, hik]; rfl) (by
        rw [List.getElem?_map, List.getElem?_eq_getElem hjk]; rfl) (List.getElem?_eq_getElem hj) (kn t).length (by simp) (by
        rw [List.map_map]; exact h1)
    simpa using this
  refine (abs_weighted_le w _ _ (fun x hx => (h3 x hx).le) (by simpa using h2) hb).trans (le_of_eq ?_)
  rw [List.map_map, List.zipWith_map, List.zipWith_self]
  rfl

/-- **C71.** Resampling: realization `j` is realization `j` (starting again from the first after the last) of
the neighbour drawn for it. -/
theorem C71_resampled (src : Nat → Nat → Nat → K) (nReal : Nat) (nbrs : List (K × Nat)) (draws : List Nat) (f : Nat) :
    (resampled src nReal nbrs draws f).length = draws.length ∧
    ∀ (j k : Nat) (p : K × Nat), draws[j]? = some k → nbrs[k]? = some p →
      (resampled src nReal nbrs draws f)[j]? = some (some (src p.2 f (j % nReal))) := by
  unfold resampled
  refine ⟨by simp, ?_⟩
  intro j k p hj hk
  rw [List.getElem?_map, List.getElem?_zipIdx, hj]
  simp [hk]

/-- **C71.** An unknown weighting scheme is not accepted. -/
theorem C71_unknown_scheme (eps : K) (scheme : Str) (hs : scheme ∉ Schemes) (src : Nat → Nat → Nat → K) (n : Nat) (nbrs : List (K × Nat)) :
    expected eps scheme n src nbrs = .error .unboundLocalError := by
  simp only [Schemes, List.mem_cons, List.not_mem_nil, or_false, not_or] at hs
  unfold expected weights
  rw [if_neg hs.1, if_neg hs.2.1, if_neg hs.2.2]

/-- Not vacuous: two neighbours at distances 1 and 2 with the values 10 and 20. -/
example : Search (K := ℚ) (fun _ : Unit => [(1, 0), (2, 1)]) 2 := by
  intro t
  refine ⟨rfl, ?_⟩
  intro p hp
  simp only [List.mem_cons, List.not_mem_nil, or_false] at hp
  rcases hp with rfl | rfl <;> norm_num

example : (weights (K := ℚ) (str "distance2") 2 [1, 2]) = .ok [4 / 5, 1 / 5] := by decide +kernel
example : weighted (K := ℚ) [4 / 5, 1 / 5] [10, 20] = 12 := by decide +kernel
example : resampled (K := ℚ) (fun i f r => 100 * i + 10 * f + r) 2 [(1, 7), (2, 3)] [0, 1, 1] 4 = [some 740, some 341, some 340] := by decide +kernel

end Verif.NNR
