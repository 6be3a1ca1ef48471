import Verif.Lemmas.SampleProb
import Verif.Props.DmgLhs

/-!
# C118: the samples of random variables have the distributions asked for

Specification in `Spec/SampleProb.lean`.
-/

namespace Verif.SampleProb

open Verif.UQ MeasureTheory ProbabilityTheory
open Verif.Copula (uniform01 uniform_Iic)
open Verif.Weibull (weibullCdf C18_weibull C18_weibull_cdf)
open Verif.DmgProb (uniform_Ico uniform_Ici)
open Verif.Orthotope (Describes C107_families C107_lognormal)

/-! ### The families -/

theorem mapE_get {α β : Type} {f : α → Except PyErr β} {l : List α} {s : List β} (h : mapE f l = .ok s) {i : Nat} {x : α}
    (hx : l[i]? = some x) : ∃ y, s[i]? = some y ∧ f x = .ok y := by
  have h1 := mapE_ok_iff.1 h
  obtain ⟨hi, rfl⟩ := List.getElem?_eq_some_iff.1 hx
  have hi' : i < s.length := by rw [← h1.length_eq]; exact hi
  exact ⟨s[i], List.getElem?_eq_getElem hi', (List.forall₂_iff_get.1 h1).2 i hi hi'⟩

theorem rows_const {F : Type} [Field F] [LinearOrder F] {mu sd : F} {g : F → F → F → Except PyErr (Ext F)} (u : List F) :
    transformRows (.const mu sd) g u = mapE (g mu sd) u := by
  unfold transformRows Par.expand
  simp only
  induction u with
  | nil => rfl
  | cons x u ih =>
    simp only [List.length_cons, List.replicate_succ, List.zip_cons_cons, mapE]
    rw [ih]

/-- The values up to `z`. -/
def Below (z : ℝ) (y : Ext ℝ) : Prop := ∃ q, y = .fin q ∧ q ≤ z

theorem decides_of_rows {N : Num ℝ} {k : RVKind ℝ} {f : ℝ → Except PyErr (Ext ℝ)} {z p : ℝ}
    (hk : ∀ row s u', k.inverse N row = .ok (s, u') → mapE f row = .ok s)
    (h : ∀ u, 0 < u → u < 1 → u ≠ p → ∃ y, f u = .ok (.fin y) ∧ (y ≤ z ↔ u ≤ p)) :
    Decides N k (Below z) (Set.Iic p) := by
  refine ⟨p, ?_⟩
  intro row s u' hinv hunit i x hx h0 hne
  obtain ⟨y, hy, hfy⟩ := mapE_get (hk row s u' hinv) hx
  obtain ⟨q, hq, hiff⟩ := h x h0 (hunit x (List.mem_of_getElem? hx)).2 hne
  rw [hfy] at hq
  obtain rfl := Except.ok.inj hq
  refine ⟨_, hy, ?_⟩
  rw [Set.mem_Iic, ← hiff]
  constructor
  · rintro ⟨q', e, hq'⟩
    cases e
    exact hq'
  · intro hq'
    exact ⟨q, rfl, hq'⟩

theorem family (N : Num ℝ) (he : 0 < N.eps) {k : RVKind ℝ} {z : ℝ} (hp : Proper N k z)
    (hok : ∃ row s u', row ≠ [] ∧ (∀ u ∈ row, 0 ≤ u ∧ u < 1) ∧ k.inverse N row = .ok (s, u')) :
    k.utility = false ∧ ∃ p, cdf N k z = .ok (some p) ∧ 0 ≤ p ∧ p ≤ 1 ∧ Decides N k (Below z) (Set.Iic p) := by
  obtain ⟨row, s, u', hne, hunit, hinv⟩ := hok
  obtain ⟨x0, row', rfl⟩ := List.exists_cons_of_ne_nil hne
  have hmap : ∀ {f : ℝ → Except PyErr (Ext ℝ)} {l : List ℝ} {s : List (Ext ℝ)} {u' : List ℝ},
      (mapE f l).map (fun y => (y, l)) = .ok (s, u') → mapE f l = .ok s := by
    intro f l s u' h
    cases h' : mapE f l with
    | error e => rw [h'] at h; simp [Except.map] at h
    | ok y =>
      rw [h'] at h
      simp only [Except.map, Except.ok.injEq, Prod.mk.injEq] at h
      rw [h.1]
  have hhead : ∀ {f : ℝ → Except PyErr (Ext ℝ)} {s}, mapE f (x0 :: row') = .ok s → ∃ u v, f u = .ok v := by
    intro f s h
    obtain ⟨y, _, hy⟩ := mapE_get h (i := 0) (x := x0) rfl
    exact ⟨x0, y, hy⟩
  match k, hp, hinv with
  | .normal (.const mu sig) a b, hp, hinv =>
    simp only [RVKind.inverse, rows_const] at hinv
    obtain ⟨p, h1, h2, h3, h4⟩ := (C107_families N.D).1 N.eps mu sig a b z he hp (hhead (hmap hinv))
    refine ⟨rfl, p, h1, h2, h3, decides_of_rows (f := normalInverse N.D N.eps mu sig a b) ?_ fun u a b _ => h4 u a b⟩
    intro row s u' h
    simp only [RVKind.inverse, rows_const] at h
    exact hmap h
  | .lognormal (.const theta beta) a b, hp, hinv =>
    obtain ⟨g1, g2, g3, g4, g5, g6⟩ := hp
    simp only [RVKind.inverse, rows_const] at hinv
    obtain ⟨p, h1, h2, h3, h4⟩ := C107_lognormal N.D N.E N.eps theta beta a b z he g1 g2 g3 g4 g5 g6 (hhead (hmap hinv))
    refine ⟨rfl, p, h1, h2, h3, decides_of_rows (f := lognormalInverse N.D N.E N.eps theta beta a b) ?_ fun u a b _ => h4 u a b⟩
    intro row s u' h
    simp only [RVKind.inverse, rows_const] at h
    exact hmap h
  | .uniform (some t0) (some t1) none none, hp, _ =>
    obtain ⟨p, h1, h2, h3, h4⟩ := (C107_families N.D).2 t0 t1 none z hp (by simp)
    refine ⟨rfl, p, h1, h2, h3, decides_of_rows (f := fun u => .ok (uniformInverse (some t0) (some t1) none none u)) ?_
      fun u a b _ => h4 u a b⟩
    intro row s u' h
    simp only [RVKind.inverse, Except.ok.injEq, Prod.mk.injEq] at h
    rw [← h.1]
    exact mapE_pure fun _ _ => rfl
  | .uniform (some t0) (some t1) (some a) (some b), hp, _ =>
    obtain ⟨p, h1, h2, h3, h4⟩ := (C107_families N.D).2 t0 t1 (some (a, b)) z hp.1 (by simpa using hp.2)
    refine ⟨rfl, p, h1, h2, h3, decides_of_rows (f := fun u => .ok (uniformInverse (some t0) (some t1) (some a) (some b) u)) ?_
      fun u a b _ => h4 u a b⟩
    intro row s u' h
    simp only [RVKind.inverse, Except.ok.injEq, Prod.mk.injEq] at h
    rw [← h.1]
    exact mapE_pure fun _ _ => rfl
  | .weibull W a b, _, hinv =>
    simp only [RVKind.inverse] at hinv
    obtain ⟨u0, v0, hv0⟩ := hhead (hmap hinv)
    have hcdf : ∀ x, ∃ p, weibullCdf W N.eps a b x = .ok p := by
      intro x
      unfold weibullInverse at hv0
      unfold weibullCdf
      split at hv0
      · rename_i ht
        rw [if_pos ht]
        simp only at hv0 ⊢
        rw [Weibull.cdf_lower] at hv0
        split at hv0
        · cases hv0
        · rename_i hd
          rw [if_neg hd]
          exact ⟨_, rfl⟩
      · rename_i ht
        rw [if_neg ht]
        exact ⟨_, rfl⟩
    have hinvok : ∀ u, ∃ v, weibullInverse W N.eps a b u = .ok v := by
      intro u
      unfold weibullInverse at hv0 ⊢
      split at hv0
      · rename_i ht
        rw [if_pos ht]
        simp only at hv0 ⊢
        split at hv0
        · cases hv0
        · rename_i hd
          rw [if_neg hd]
          exact ⟨_, rfl⟩
      · rename_i ht
        rw [if_neg ht]
        exact ⟨_, rfl⟩
    obtain ⟨p, hp⟩ := hcdf z
    have hb := C18_weibull_cdf W he le_rfl hp hp
    refine ⟨rfl, p, by simp only [cdf, hp, Except.map], hb.1, hb.2.2.1,
      decides_of_rows (f := weibullInverse W N.eps a b) (fun row s u' h => hmap h) ?_⟩
    intro u h0 h1 hne
    obtain ⟨v, hv⟩ := hinvok u
    obtain ⟨y, rfl, hy⟩ := C18_weibull W he h0 h1 hv
    refine ⟨y, hv, ?_⟩
    constructor
    · intro hle
      exact (C18_weibull_cdf W he hle hy hp).2.1
    · intro hle
      by_contra hlt
      have := (C18_weibull_cdf W he (not_le.1 hlt).le hp hy).2.1
      exact hne (le_antisymm hle this)
  | .multilinear pts, hp, _ =>
    have hpts : multilinearInit pts none none = .ok pts := hp
    have hb := (DmgSample.below_multilinear hpts z 0 le_rfl one_pos).1
    refine ⟨rfl, _, rfl, hb.1, hb.2, decides_of_rows (f := fun u => .ok (.fin (multilinearInverse pts u))) ?_ ?_⟩
    · intro row s u' h
      simp only [RVKind.inverse, Except.ok.injEq, Prod.mk.injEq] at h
      rw [← h.1]
      exact mapE_pure fun _ _ => rfl
    · intro u h0 h1 hne
      have hlt := (DmgSample.below_multilinear hpts z u h0.le h1).2
      refine ⟨_, rfl, ?_⟩
      constructor
      · intro hle
        rcases lt_or_eq_of_le hle with hl | hl
        · exact (hlt.1 hl).le
        · exact absurd (by rw [← hl, C23_cdf_inverse hpts h0.le h1.le]) hne
      · intro hle
        exact (hlt.2 (lt_of_le_of_ne hle hne)).le

/-! ### C118 -/

section
variable {Ω : Type} [MeasurableSpace Ω] {P : Measure Ω} {n : Nat} {perm : Ω → Nat → List Nat} {jitter : Ω → Nat → List ℝ}
  {σ : Nat → Ω → Equiv.Perm (Fin n)} {m : Method} {N : Num ℝ} {r : Registry ℝ} {r' : Ω → Registry ℝ}

theorem nonempty (h : Sampling P N r n m perm jitter σ r') (i : Fin n) : Nonempty Ω := by
  by_contra hE
  rw [not_nonempty_iff] at hE
  have h1 := (h.draws.uniform 0 i).map_eq
  have h2 : uniform01 Set.univ = 0 := by
    rw [← h1, Measure.map_apply (h.draws.measurable 0 i) .univ, Set.eq_empty_of_isEmpty (Set.preimage _ _), measure_empty]
  unfold uniform01 at h2
  simp at h2

theorem utility_of_proper {k : RVKind ℝ} {z : ℝ} (hp : Proper N k z) : k.utility = false := by
  match k, hp with
  | .normal _ _ _, _ => rfl
  | .lognormal _ _ _, _ => rfl
  | .uniform _ _ _ _, _ => rfl
  | .weibull _ _ _, _ => rfl
  | .multilinear _, _ => rfl

theorem sampled_row (h : Sampling P N r n m perm jitter σ r') (i : Fin n) {v : RV ℝ} (ha : Alone r v)
    (hu : v.kind.utility = false) :
    ∃ row s u', row ≠ [] ∧ (∀ u ∈ row, 0 ≤ u ∧ u < 1) ∧ v.kind.inverse N row = .ok (s, u') := by
  obtain ⟨ω⟩ := nonempty h i
  obtain ⟨_, u, s, u', e1, e2, _⟩ := own_row h.names h.anchors (h.run ω) ha.registered ha.uncorrelated ha.unshared hu
  obtain ⟨hlen, hunit⟩ := DmgProb.drawRow_lt (good h.draws ω) _ e1
  refine ⟨u, s, u', ?_, hunit, e2⟩
  rintro rfl
  have := i.2
  simp at hlen
  omega

/-- C118: with random numbers that are uniform and independent, in each realization the probability that several
variables with different anchors are at most `z j` is the product of the values of their `cdf`.  (So each variable has
its distribution and they are independent.) -/
theorem C118_joint (h : Sampling P N r n m perm jitter σ r') (i : Nat) (hi : i < n) {ι : Type} (S : Finset ι) (w : ι → RV ℝ)
    (ha : ∀ j ∈ S, Alone r (w j)) (hdiff : ∀ j ∈ S, ∀ j' ∈ S, (w j).root.name = (w j').root.name → j = j')
    (z : ι → ℝ) (hp : ∀ j ∈ S, Proper N (w j).kind (z j)) :
    ∃ p : ι → ℝ, (∀ j ∈ S, cdf N (w j).kind (z j) = .ok (some (p j)) ∧ 0 ≤ p j ∧ p j ≤ 1) ∧
      P {ω | ∀ j ∈ S, UpTo (r' ω).samples (w j).name i (z j)} = ENNReal.ofReal (∏ j ∈ S, p j) := by
  classical
  have hf : ∀ j, ∃ p, j ∈ S → (cdf N (w j).kind (z j) = .ok (some p) ∧ 0 ≤ p ∧ p ≤ 1) ∧
      Decides N (w j).kind (Below (z j)) (Set.Iic p) := by
    intro j
    by_cases hj : j ∈ S
    · obtain ⟨_, p, h1, h2, h3, h4⟩ := family N h.eps (hp j hj)
        (sampled_row h ⟨i, hi⟩ (ha j hj) (utility_of_proper (hp j hj)))
      exact ⟨p, fun _ => ⟨⟨h1, h2, h3⟩, h4⟩⟩
    · exact ⟨0, fun hj' => absurd hj' hj⟩
  choose p hp' using hf
  refine ⟨p, fun j hj => (hp' j hj).1, ?_⟩
  have := joint h ⟨i, hi⟩ S w ha (fun j hj => utility_of_proper (hp j hj)) hdiff (fun j => Below (z j))
    (fun j => Set.Iic (p j)) (fun j _ => measurableSet_Iic) (fun j hj => (hp' j hj).2)
  rw [ENNReal.ofReal_prod_of_nonneg fun j hj => (hp' j hj).1.2.1]
  refine Eq.trans ?_ (this.trans (Finset.prod_congr rfl fun j hj => uniform_Iic (hp' j hj).1.2.1 (hp' j hj).1.2.2))
  congr 1
  ext ω
  simp only [Set.mem_setOf_eq, UpTo, Below]
  refine forall₂_congr fun j _ => ?_
  constructor
  · rintro ⟨y, h1, h2⟩
    exact ⟨_, h1, y, rfl, h2⟩
  · rintro ⟨_, h1, y, rfl, h2⟩
    exact ⟨y, h1, h2⟩

/-- C118: each variable has its distribution. -/
theorem C118_distribution (h : Sampling P N r n m perm jitter σ r') (i : Nat) (hi : i < n) (v : RV ℝ) (ha : Alone r v)
    (z : ℝ) (hp : Proper N v.kind z) :
    ∃ p, cdf N v.kind z = .ok (some p) ∧ P {ω | UpTo (r' ω).samples v.name i z} = ENNReal.ofReal p := by
  obtain ⟨p, h1, h2⟩ := C118_joint h i hi {()} (fun _ => v) (fun _ _ => ha) (fun _ _ _ _ _ => rfl) (fun _ => z) (fun _ _ => hp)
  refine ⟨p (), (h1 () (by simp)).1, ?_⟩
  simpa using h2

theorem normal_Iic (mean std x : ℝ) (hs : 0 < std) :
    gaussianReal mean (Real.toNNReal (std ^ 2)) (Set.Iic x) = ENNReal.ofReal (gaussian.cdf ((x - mean) / std)) := by
  have e1 : gaussianReal mean (Real.toNNReal (std ^ 2)) = (gaussianReal 0 1).map (fun z => mean + std * z) := by
    have e2 := gaussianReal_map_const_mul (μ := 0) (v := 1) std
    have e3 := gaussianReal_map_const_add (μ := std * 0) (v := NNReal.mk (std ^ 2) (sq_nonneg _) * 1) mean
    rw [← e2, Measure.map_map (by fun_prop) (by fun_prop)] at e3
    rw [show (fun z => mean + std * z) = (fun x => mean + x) ∘ (fun x => std * x) from rfl, e3]
    congr 1
    · ring
    · ext; simp [Real.coe_toNNReal _ (sq_nonneg std)]
  rw [e1, Measure.map_apply (by fun_prop) measurableSet_Iic]
  have e4 : (fun z => mean + std * z) ⁻¹' Set.Iic x = Set.Iic ((x - mean) / std) := by
    ext z
    simp only [Set.mem_preimage, Set.mem_Iic]
    rw [le_div_iff₀ hs]
    constructor <;> intro h <;> linarith
  rw [e4, ← ofReal_cdf]
  rfl

/-- C118: the values of a normal variable without limits have the normal distribution of Mathlib, with the mean and the
standard deviation asked for. -/
theorem C118_normal (h : Sampling P N r n m perm jitter σ r') (hD : N.D = gaussian) (i : Nat) (hi : i < n) (v : RV ℝ)
    (ha : Alone r v) (mean std : ℝ) (hk : v.kind = .normal (.const mean std) none none) (hs : 0 < std) (z : ℝ) :
    P {ω | UpTo (r' ω).samples v.name i z} = gaussianReal mean (Real.toNNReal (std ^ 2)) (Set.Iic z) := by
  obtain ⟨p, h1, h2⟩ := C118_distribution h i hi v ha z (by rw [hk]; exact hs)
  rw [h2, normal_Iic mean std z hs]
  rw [hk] at h1
  have h3 : p = gaussian.cdf ((z - mean) / std) := by
    simpa [cdf, normalCdf, normCdf, truncated, stdCdf, Ext.sub, Ext.divF, hD, hs.ne', hs, eq_comm] using h1
  rw [h3]

theorem single (h : Sampling P N r n m perm jitter σ r') (i : Fin n) {v : RV ℝ} (ha : Alone r v) (hu : v.kind.utility = false)
    {x : Ext ℝ} {B : Set ℝ} (hB : MeasurableSet B) (hd : Decides N v.kind (fun y => y = x) B) :
    P {ω | valueOf (r' ω).samples v.name i = some x} = uniform01 B := by
  have := joint h i {()} (fun _ => v) (fun _ _ => ha) (fun _ _ => hu) (fun _ _ _ _ _ => rfl) (fun _ y => y = x) (fun _ => B)
    (fun _ _ => hB) (fun _ _ => hd)
  simpa using this

/-- The weight of a category: the last one takes what the others leave. -/
noncomputable def weight (theta : List ℝ) (k : Nat) : ℝ :=
  if k + 1 = theta.length then 1 - (theta.take k).sum else theta.getD k 0

/-- C118: a multinomial variable has each category with the probability given. -/
theorem C118_category (h : Sampling P N r n m perm jitter σ r') (i : Nat) (hi : i < n) (v : RV ℝ) (ha : Alone r v)
    (theta : List ℝ) (hk : v.kind = .multinomial theta) (h0 : ∀ p ∈ theta, 0 ≤ p)
    (hacc : multinomialInit theta none none = .ok theta) (k : Nat) (hlt : k < theta.length) :
    P {ω | valueOf (r' ω).samples v.name i = some (.fin k)} = ENNReal.ofReal (weight theta k) := by
  have hne : theta ≠ [] := by rintro rfl; simp at hlt
  have hsum : theta.sum ≤ 1 := by
    by_contra hc
    rw [(C21_refused theta).2 (not_le.1 hc)] at hacc
    cases hacc
  have htake : ∀ j, 0 ≤ (theta.take j).sum ∧ (theta.take j).sum ≤ 1 := by
    intro j
    refine ⟨List.sum_nonneg fun p hp => h0 p (List.mem_of_mem_take hp), ?_⟩
    have e : (theta.take j).sum + (theta.drop j).sum = theta.sum := by rw [← List.sum_append, List.take_append_drop]
    have := List.sum_nonneg fun p hp => h0 p (List.mem_of_mem_drop (i := j) hp)
    linarith
  let B : Set ℝ := {x | (theta.take k).sum ≤ x ∧ (k + 1 = theta.length ∨ x < (theta.take (k + 1)).sum)}
  have hdec : Decides N v.kind (fun y => y = .fin (k : ℝ)) B := by
    refine ⟨0, ?_⟩
    intro row s u' hinv hunit i x hx _ _
    rw [hk] at hinv
    simp only [RVKind.inverse, Except.ok.injEq, Prod.mk.injEq] at hinv
    obtain ⟨cat, h1, h2⟩ := C21_category theta row hne h0 hacc fun u hu => ⟨(hunit u hu).1, (hunit u hu).2.le⟩
    rw [h1] at hinv
    rw [← hinv.1]
    refine ⟨.fin (cat x : ℝ), by simp [hx], ?_⟩
    have := h2 x (List.mem_of_getElem? hx) k
    constructor
    · intro e
      have e' : (cat x : ℝ) = k := by injection e
      exact (this.1 (by exact_mod_cast e')).2
    · intro hb
      rw [this.2 ⟨hlt, hb⟩]
  have hu : v.kind.utility = false := by rw [hk]; rfl
  by_cases hlast : k + 1 = theta.length
  · have e : B = Set.Ici (theta.take k).sum := by
      ext x
      simp [B, hlast]
    refine (single h ⟨i, hi⟩ ha hu (by rw [e]; exact measurableSet_Ici) hdec).trans ?_
    rw [e, uniform_Ici (htake k).1, weight, if_pos hlast]
  · have e : B = Set.Ico (theta.take k).sum (theta.take (k + 1)).sum := by
      ext x
      simp [B, hlast]
    refine (single h ⟨i, hi⟩ ha hu (by rw [e]; exact measurableSet_Ico) hdec).trans ?_
    rw [e, uniform_Ico (htake k).1 (htake _).2, weight, if_neg hlast, List.take_add_one, List.sum_append]
    congr 1
    rw [List.getElem?_eq_getElem hlt, List.getD_eq_getElem?_getD, List.getElem?_eq_getElem hlt]
    simp

theorem uniform_share (theta : List ℝ) (q : ℝ) :
    MeasurableSet {x : ℝ | ∃ j : Nat, theta[j]? = some q ∧ (j : ℝ) / theta.length ≤ x ∧ x < ((j : ℝ) + 1) / theta.length} ∧
    uniform01 {x | ∃ j : Nat, theta[j]? = some q ∧ (j : ℝ) / theta.length ≤ x ∧ x < ((j : ℝ) + 1) / theta.length} =
      ENNReal.ofReal (theta.count q / theta.length) := by
  set R : ℝ := (theta.length : ℝ) with hR
  have hR0 : (0 : ℝ) ≤ R := by positivity
  let T : Finset Nat := (Finset.range theta.length).filter fun j => theta[j]? = some q
  have e : {x : ℝ | ∃ j : Nat, theta[j]? = some q ∧ (j : ℝ) / R ≤ x ∧ x < ((j : ℝ) + 1) / R} =
      ⋃ j ∈ T, Set.Ico ((j : ℝ) / R) (((j : ℝ) + 1) / R) := by
    ext x
    simp only [Set.mem_setOf_eq, T, Finset.mem_filter, Finset.mem_range, Set.mem_iUnion, Set.mem_Ico, exists_prop]
    constructor
    · rintro ⟨j, hj, hx⟩
      exact ⟨j, ⟨(List.getElem?_eq_some_iff.1 hj).1, hj⟩, hx⟩
    · rintro ⟨j, ⟨_, hj⟩, hx⟩
      exact ⟨j, hj, hx⟩
  rw [e]
  refine ⟨Finset.measurableSet_biUnion _ fun j _ => measurableSet_Ico, ?_⟩
  rw [measure_biUnion_finset]
  · have hterm : ∀ j ∈ T, uniform01 (Set.Ico ((j : ℝ) / R) (((j : ℝ) + 1) / R)) = ENNReal.ofReal (1 / R) := by
      intro j hj
      have hjl : j < theta.length := Finset.mem_range.1 (Finset.mem_filter.1 hj).1
      have hRp : 0 < R := by rw [hR]; exact_mod_cast (by omega : 0 < theta.length)
      rw [uniform_Ico (by positivity)]
      · congr 1
        field_simp
        ring
      · rw [div_le_one hRp, hR]
        exact_mod_cast hjl
    rw [Finset.sum_congr rfl hterm, Finset.sum_const, nsmul_eq_mul, ← ENNReal.ofReal_natCast,
      ← ENNReal.ofReal_mul (by positivity)]
    congr 1
    have hcard : T.card = theta.count q := by
      simp only [T]
      clear e
      clear_value R
      clear hterm hR hR0 R
      induction theta using List.reverseRecOn with
      | nil => simp
      | append_singleton l a ih =>
        have : (Finset.range (l ++ [a]).length).filter (fun j => (l ++ [a])[j]? = some q) =
            (Finset.range l.length).filter (fun j => l[j]? = some q) ∪ (if a = q then {l.length} else ∅) := by
          ext j
          simp only [Finset.mem_filter, Finset.mem_range, List.length_append, List.length_singleton, Finset.mem_union]
          rcases lt_trichotomy j l.length with hj | hj | hj
          · rw [List.getElem?_append_left hj]
            have h1 : j < l.length + 1 := by omega
            have h2 : j ≠ l.length := by omega
            by_cases ha : a = q <;> simp [ha, hj, h1, h2]
          · subst hj
            rw [List.getElem?_append_right le_rfl]
            by_cases ha : a = q <;> simp [ha]
          · split <;> simp <;> omega
        rw [this, Finset.card_union_of_disjoint, ih, List.count_append]
        · by_cases ha : a = q <;> simp [ha]
        · rw [Finset.disjoint_left]
          intro j hj hj'
          have := Finset.mem_range.1 (Finset.mem_filter.1 hj).1
          split at hj'
          · simp at hj'; omega
          · simp at hj'
    rw [hcard]
    ring
  · intro j hj j' hj' hne
    have hjl : j < theta.length := Finset.mem_range.1 (Finset.mem_filter.1 hj).1
    have hRp : 0 < R := by rw [hR]; exact_mod_cast (by omega : 0 < theta.length)
    rw [Function.onFun, Set.disjoint_left]
    rintro x ⟨a1, a2⟩ ⟨b1, b2⟩
    rw [div_le_iff₀ hRp] at a1 b1
    rw [lt_div_iff₀ hRp] at a2 b2
    apply hne
    have h1 : (j : ℝ) < (j' : ℝ) + 1 := by linarith
    have h2 : (j' : ℝ) < (j : ℝ) + 1 := by linarith
    have h1' : j < j' + 1 := by exact_mod_cast h1
    have h2' : j' < j + 1 := by exact_mod_cast h2
    omega
  · intro j _
    exact measurableSet_Ico

/-- C118: an empirical variable has each data point with the probability that is its share in the data. -/
theorem C118_data (h : Sampling P N r n m perm jitter σ r') (i : Nat) (hi : i < n) (v : RV ℝ) (ha : Alone r v)
    (theta : List ℝ) (hk : v.kind = .empirical theta) (q : ℝ) :
    P {ω | valueOf (r' ω).samples v.name i = some (.fin q)} = ENNReal.ofReal (theta.count q / theta.length) := by
  have hu : v.kind.utility = false := by rw [hk]; rfl
  obtain ⟨hB, hval⟩ := uniform_share theta q
  rw [← hval]
  refine single h ⟨i, hi⟩ ha hu hB ⟨0, ?_⟩
  intro row s u' hinv hunit i x hx _ _
  rw [hk] at hinv
  simp only [RVKind.inverse] at hinv
  have hne : theta ≠ [] := by
    rintro rfl
    cases he : empiricalInverse ([] : List ℝ) row with
    | error e => rw [he] at hinv; simp [Except.map] at hinv
    | ok t =>
      obtain ⟨y, _, hy⟩ := mapE_get he hx
      exact absurd (DemandGen.pyIndex_mem hy) (by simp)
  cases he : empiricalInverse theta row with
  | error e => rw [he] at hinv; simp [Except.map] at hinv
  | ok t =>
  rw [he] at hinv
  simp only [Except.map, Except.ok.injEq, Prod.mk.injEq] at hinv
  obtain ⟨y, hy, hpy⟩ := mapE_get he hx
  rw [← hinv.1]
  obtain ⟨idx, h1, hlen, h2⟩ := C24_shares theta [x] hne (by simpa using hunit x (List.mem_of_getElem? hx))
  have hsame : theta[idx x]? = some y := by
    unfold empiricalInverse at h1
    simp only [mapE, hpy, Except.ok.injEq, List.filterMap_cons, List.filterMap_nil] at h1
    cases hg : theta[idx x]? with
    | none => rw [hg] at h1; simp at h1
    | some y' =>
      rw [hg] at h1
      simp only [List.cons.injEq, and_true] at h1
      rw [h1]
  refine ⟨.fin y, by simp [hy], ?_⟩
  have hb := h2 x (by simp)
  constructor
  · intro e
    have e' : y = q := by injection e
    exact ⟨idx x, by rw [hsame, e'], (hb _).1 rfl⟩
  · rintro ⟨j, hj, hxj⟩
    rw [(hb j).2 hxj, hj] at hsame
    rw [Option.some.inj hsame]

/-! ### Demands and component quantities -/

open Verif.DemandGen Verif.FileIO

theorem tag_split' {pre : Str} (hpre : '-' ∉ pre) (x : Label) (hx : ∀ p ∈ x, '-' ∉ p) :
    splitChar '-' (tag pre x) = pre :: x := by
  unfold tag
  rw [split_join '-' _ (by simp)]
  intro p hp
  rcases List.mem_cons.1 hp with rfl | hp
  · exact hpre
  · exact hx p hp

theorem probability_nonempty (h : RandomGen P n perm jitter σ) (hn : 0 < n) : Nonempty Ω := by
  by_contra hE
  rw [not_nonempty_iff] at hE
  have h1 := (h.uniform 0 ⟨0, hn⟩).map_eq
  have h2 : uniform01 Set.univ = 0 := by
    rw [← h1, Measure.map_apply (h.measurable 0 ⟨0, hn⟩) .univ, Set.eq_empty_of_isEmpty (Set.preimage _ _), measure_empty]
  unfold uniform01 at h2
  simp at h2

/-- A table of samples comes from a registry. -/
theorem table_registry {pre : Str} (hpre : '-' ∉ pre) {nlev : Nat} (hlev : 1 ≤ nlev) {rows : List (Label × Marginal ℝ)}
    {emp : Option (Dict Label (List ℝ))} {corr : Option (List Label × (List (List ℝ) → List (List ℝ)))} {preserve : Bool}
    {cols : Ω → List (Label × List (Ext ℝ))} (he : 0 < N.eps) (ht : Tidy nlev (rows.map Prod.fst))
    (hm : m = .monteCarlo ∨ m = .lhs) (hd : RandomGen P n perm jitter σ) {r : Registry ℝ}
    (hcreate : createRVs pre preserve emp rows corr = .ok r)
    (hrun : ∀ ω, sampleOf N pre nlev r n m (perm ω) (jitter ω) = .ok (cols ω)) :
    ∃ r', Sampling P N r n m perm jitter σ r' ∧
      (∀ l k, (∃ mg, (l, mg) ∈ rows ∧ kindOf preserve emp (l, mg) = .ok k) →
        (∀ s ∈ r.sets.map Prod.snd, ∀ w ∈ s.members, w.name ≠ tag pre l) → Alone r (.mk (tag pre l) k none)) ∧
      (∀ l mg, (l, mg) ∈ rows → ∃ k, kindOf preserve emp (l, mg) = .ok k) ∧
      ∀ l mg, (l, mg) ∈ rows → ∀ ω (i : Nat) x, (valueOf (r' ω).samples (tag pre l) i = some (.fin x) ↔
        Entry (cols ω) l i x) := by
  obtain ⟨hr, _, ⟨ks, h3, h4⟩, hsets⟩ := createRVs_spec _ _ _ _ _ _ hcreate
  have hroot := created_root h4
  choose r' hgen hperm using fun ω => sampleOf_spec N pre hpre nlev hlev rows ks h3.length_eq ht r h4 n m _ _ _ (hrun ω)
  refine ⟨r', ⟨he, hr, created_closed hr hroot, hm, hd, hgen⟩, ?_, ?_, ?_⟩
  · rintro l k ⟨mg, hl, hk⟩ hc
    obtain ⟨k', hk', hkind⟩ := zip_mem_of_forall₂ h3 hl
    rw [hk] at hkind
    obtain rfl := Except.ok.inj hkind
    have hv := var_mem h4 hk'
    refine ⟨hv, hc, ?_⟩
    intro w hw _ e
    rw [hroot w hw, hroot _ hv] at e
    have g1 := vars_get? hr hw
    rw [e, vars_get? hr hv] at g1
    exact (Option.some.inj g1).symm
  · intro l mg hl
    obtain ⟨k', _, hkind⟩ := zip_mem_of_forall₂ h3 hl
    exact ⟨k', hkind⟩
  · intro l mg hl ω i x
    have hmem : l ∈ rows.map Prod.fst := List.mem_map.2 ⟨_, hl, rfl⟩
    have key : ∀ v, (l, v) ∈ cols ω ↔ v = ((r' ω).samples.get? (tag pre l)).getD [] := by
      intro v
      rw [(hperm ω).mem_iff, List.mem_map]
      constructor
      · rintro ⟨l', _, e⟩
        simp only [Prod.mk.injEq] at e
        obtain ⟨rfl, rfl⟩ := e
        rfl
      · rintro rfl
        exact ⟨l, hmem, rfl⟩
    unfold Entry valueOf
    simp only [key]
    cases hg : (r' ω).samples.get? (tag pre l) with
    | none => simp
    | some s => simp

theorem table_joint {pre : Str} (hpre : '-' ∉ pre) {nlev : Nat} {rows : List (Label × Marginal ℝ)}
    {emp : Option (Dict Label (List ℝ))} {preserve : Bool} {cols : Ω → List (Label × List (Ext ℝ))}
    (ht : Tidy nlev (rows.map Prod.fst)) (hs : Sampling P N r n m perm jitter σ r')
    (h1 : ∀ l k, (∃ mg, (l, mg) ∈ rows ∧ kindOf preserve emp (l, mg) = .ok k) →
        (∀ s ∈ r.sets.map Prod.snd, ∀ w ∈ s.members, w.name ≠ tag pre l) → Alone r (.mk (tag pre l) k none))
    (h3 : ∀ l mg, (l, mg) ∈ rows → ∀ ω (i : Nat) x, (valueOf (r' ω).samples (tag pre l) i = some (.fin x) ↔
        Entry (cols ω) l i x)) (i : Nat) (hi : i < n)
    (S : Finset Label) (k : Label → RVKind ℝ) (hk : ∀ l ∈ S, (l, Marginal.dist (k l)) ∈ rows)
    (hc : ∀ l ∈ S, ∀ s ∈ r.sets.map Prod.snd, ∀ w ∈ s.members, w.name ≠ tag pre l) (z : Label → ℝ)
    (hp : ∀ l ∈ S, Proper N (k l) (z l)) :
    ∃ p : Label → ℝ, (∀ l ∈ S, cdf N (k l) (z l) = .ok (some (p l)) ∧ 0 ≤ p l ∧ p l ≤ 1) ∧
      P {ω | ∀ l ∈ S, ∃ x, Entry (cols ω) l i x ∧ x ≤ z l} = ENNReal.ofReal (∏ l ∈ S, p l) := by
  obtain ⟨p, g1, g2⟩ := C118_joint hs i hi S (fun l => .mk (tag pre l) (k l) none)
    (fun l hl => h1 l (k l) ⟨_, hk l hl, rfl⟩ (hc l hl)) (by
      intro l hl l' hl' e
      simp only [RV.root, RV.name] at e
      have := congrArg (splitChar '-') e
      rw [tag_split' hpre l (ht l (List.mem_map.2 ⟨_, hk l hl, rfl⟩)).2,
        tag_split' hpre l' (ht l' (List.mem_map.2 ⟨_, hk l' hl', rfl⟩)).2] at this
      simpa using this) z hp
  refine ⟨p, g1, ?_⟩
  rw [← g2]
  congr 1
  ext ω
  simp only [Set.mem_setOf_eq, UpTo, RV.name]
  exact forall₂_congr fun l hl => exists_congr fun x => by rw [h3 l _ (hk l hl) ω i x]

section
variable {rows : List (Label × Marginal ℝ)} {emp : Option (Dict Label (List ℝ))}
  {corr : Option (List Label × (List (List ℝ) → List (List ℝ)))} {preserve : Bool} {cols : Ω → List (Label × List (Ext ℝ))}

theorem demand_created (h : DemandSampling P N rows emp corr preserve n m perm jitter σ cols) (hn : 0 < n) :
    ∃ r, createRVs (str "EDP") preserve emp rows corr = .ok r ∧
      (∀ ω, sampleOf N (str "EDP") 3 r n m (perm ω) (jitter ω) = .ok (cols ω)) ∧
      ∀ l mg, (l, mg) ∈ rows → (∀ c ∈ corr, l ∉ c.1) →
        ∀ s ∈ r.sets.map Prod.snd, ∀ w ∈ s.members, w.name ≠ tag (str "EDP") l := by
  obtain ⟨ω0⟩ := probability_nonempty h.draws hn
  have h0 := h.run ω0
  unfold generateDemand at h0
  simp only at h0
  cases hcr : createRVs (str "EDP") preserve emp rows corr with
  | error x => rw [hcr] at h0; simp at h0
  | ok r =>
    obtain ⟨hr, _, _, hsets⟩ := createRVs_spec _ _ _ _ _ _ hcr
    refine ⟨r, rfl, ?_, ?_⟩
    · intro ω
      have := h.run ω
      unfold generateDemand at this
      simpa only [hcr] using this
    · intro l mg hl hc
      exact set_other (k := .deterministic []) hr hsets (fun c hc' => ⟨h.correlated c hc', hc c hc'⟩)
        (h.labels l (List.mem_map.2 ⟨_, hl, rfl⟩)).2

/-- C118: in each realization of a demand sample, the probability that several demands that are not named in the
correlation matrix are at most `z l` is the product of the values of the `cdf` of their distributions. -/
theorem C118_demand (h : DemandSampling P N rows emp corr preserve n m perm jitter σ cols) (i : Nat) (hi : i < n)
    (S : Finset Label) (k : Label → RVKind ℝ) (hk : ∀ l ∈ S, (l, Marginal.dist (k l)) ∈ rows)
    (hc : ∀ l ∈ S, ∀ c ∈ corr, l ∉ c.1) (z : Label → ℝ) (hp : ∀ l ∈ S, Proper N (k l) (z l)) :
    ∃ p : Label → ℝ, (∀ l ∈ S, cdf N (k l) (z l) = .ok (some (p l)) ∧ 0 ≤ p l ∧ p l ≤ 1) ∧
      P {ω | ∀ l ∈ S, ∃ x, Entry (cols ω) l i x ∧ x ≤ z l} = ENNReal.ofReal (∏ l ∈ S, p l) := by
  obtain ⟨r, hcr, hrun, hset⟩ := demand_created h (by omega)
  obtain ⟨r', hs, h1, _, h3⟩ := table_registry (by decide) (by omega) h.eps h.labels h.method h.draws hcr hrun
  exact table_joint (by decide) h.labels hs h1 h3 i hi S k hk (fun l hl => hset l _ (hk l hl) (hc l hl)) z hp

/-- C118: in each realization, a demand that is sampled from raw data and not named in the correlation matrix has each
value of the data with the probability that is its share in the data. -/
theorem C118_demand_data {raw : Dict Label (List ℝ)} (h : DemandSampling P N rows (some raw) corr false n m perm jitter σ cols)
    (i : Nat) (hi : i < n) (l : Label) (hl : (l, Marginal.empirical) ∈ rows) (hc : ∀ c ∈ corr, l ∉ c.1) (q : ℝ) :
    ∃ data, raw.get? l = some data ∧
      P {ω | Entry (cols ω) l i q} = ENNReal.ofReal (data.count q / data.length) := by
  obtain ⟨r, hcr, hrun, hset⟩ := demand_created h (by omega)
  obtain ⟨r', hs, h1, h2, h3⟩ := table_registry (by decide) (by omega) h.eps h.labels h.method h.draws hcr hrun
  obtain ⟨k, hk⟩ := h2 l _ hl
  have hk0 := hk
  simp only [kindOf] at hk
  cases hg : raw.get? l with
  | none => rw [hg] at hk; simp at hk
  | some data =>
    rw [hg] at hk
    simp only [Bool.false_eq_true, if_false, Except.ok.injEq] at hk
    subst hk
    refine ⟨data, rfl, ?_⟩
    rw [← C118_data hs i hi _ (h1 l _ ⟨_, hl, hk0⟩ (hset l _ hl hc)) data rfl q]
    congr 1
    ext ω
    exact (h3 l _ hl ω i q).symm

end

/-- C118: in each realization, the probability that the quantities of several performance groups are at most `z l` is
the product of the values of the `cdf` of their distributions. -/
theorem C118_quantity {rows : List (Label × RVKind ℝ)} {size demand : Option Nat} {cols : Ω → List (Label × List (Ext ℝ))}
    (h : QuantitySampling P N rows size demand n m perm jitter σ cols) (i : Nat) (hi : i < n)
    (S : Finset Label) (k : Label → RVKind ℝ) (hk : ∀ l ∈ S, (l, k l) ∈ rows)
    (z : Label → ℝ) (hp : ∀ l ∈ S, Proper N (k l) (z l)) :
    ∃ p : Label → ℝ, (∀ l ∈ S, cdf N (k l) (z l) = .ok (some (p l)) ∧ 0 ≤ p l ∧ p l ≤ 1) ∧
      P {ω | ∀ l ∈ S, ∃ x, Entry (cols ω) l i x ∧ x ≤ z l} = ENNReal.ofReal (∏ l ∈ S, p l) := by
  obtain ⟨ω0⟩ := probability_nonempty h.draws (by omega)
  have hfst : (rows.map fun e => (e.1, Marginal.dist e.2)).map Prod.fst = rows.map Prod.fst := by
    rw [List.map_map]; rfl
  have ht : Tidy 4 ((rows.map fun e => (e.1, Marginal.dist e.2)).map Prod.fst) := by rw [hfst]; exact h.labels
  have h0 := h.run ω0
  unfold generateCmp at h0
  simp only [h.known] at h0
  cases hcr : createRVs (str "CMP") false none (rows.map fun e => (e.1, Marginal.dist e.2)) none with
  | error x => rw [hcr] at h0; simp at h0
  | ok r =>
    obtain ⟨_, _, _, hsets⟩ := createRVs_spec _ _ _ _ _ _ hcr
    have hno : r.sets = [] := by
      rcases hsets with ⟨_, e⟩ | ⟨_, _, _, e, _⟩
      · exact e
      · cases e
    have hrun : ∀ ω, sampleOf N (str "CMP") 4 r n m (perm ω) (jitter ω) = .ok (cols ω) := by
      intro ω
      have := h.run ω
      unfold generateCmp at this
      simpa only [h.known, hcr] using this
    obtain ⟨r', hs, h1, _, h3⟩ := table_registry (by decide) (by omega) h.eps ht h.method h.draws hcr hrun
    exact table_joint (by decide) ht hs h1 h3 i hi S k (fun l hl => List.mem_map.2 ⟨_, hk l hl, rfl⟩)
      (by rw [hno]; simp) z hp

end

/-! ### Runs that meet the hypotheses -/

open Verif.DemandGen Verif.FileIO

theorem draws_exist (n : Nat) : ∃ (Ω : Type) (_ : MeasurableSpace Ω) (P : Measure Ω) (perm : Ω → Nat → List Nat)
    (jitter : Ω → Nat → List ℝ) (σ : Nat → Ω → Equiv.Perm (Fin n)), RandomGen P n perm jitter σ := by
  obtain ⟨Ω, mΩ, P, dc, dl, perm, h⟩ := DmgLhs.draws_exist n
  have hnum : ∀ v (i : Fin n), number (fun ω => (dc ω 0).jitter) v i = DmgProb.number dc dl (false, 0, v, i) := fun _ _ => rfl
  refine ⟨Ω, mΩ, P, fun ω => (dc ω 0).perm, fun ω => (dc ω 0).jitter, fun v => perm (false, 0, v), ?_, ?_, ?_, ?_, ?_, ?_, ?_, ?_⟩
  · exact fun v ω => h.perms (false, 0, v) ω
  · exact fun v ω => h.numbers (false, 0, v) ω
  · exact fun v => h.perm_measurable (false, 0, v)
  · exact fun v i => h.measurable (false, 0, v, i)
  · exact fun v => h.equally (false, 0, v)
  · exact fun v i => h.uniform (false, 0, v, i)
  · exact fun v => h.within (false, 0, v)
  · exact h.between.precomp (g := fun v : Nat => ((false, 0, v) : Bool × Nat × Nat)) fun a b e => by simpa using e

theorem able_normal (N : Num ℝ) (Good : List ℝ → Prop) (n : Nat) (name : Str) (a : Option (RV ℝ)) (mu sig : ℝ) :
    DmgSample.AbleOn Good N n (.mk name (.normal (.const mu sig) none none) a) := by
  unfold DmgSample.AbleOn
  simp only [RV.kind, RVKind.utility, Bool.false_eq_true, if_false, RVKind.inverse, rows_const, normalInverse, truncated,
    Option.isSome_none, Bool.or_self]
  intro u hu
  rw [mapE_pure (g := fun y => normPpf N.D (some y) (.fin mu) sig) (fun y _ => by simp)]
  exact ⟨_, _, rfl, hu⟩

theorem able_empirical (N : Num ℝ) (n : Nat) (name : Str) (theta : List ℝ) (hne : theta ≠ []) :
    DmgSample.AbleOn (fun u => ∀ y ∈ u, 0 ≤ y ∧ y < 1) N n (.mk name (.empirical theta) none) := by
  unfold DmgSample.AbleOn
  simp only [RV.kind, RVKind.utility, Bool.false_eq_true, if_false, RVKind.inverse]
  intro u hu
  obtain ⟨idx, h1, _⟩ := C24_shares theta u hne hu
  rw [h1]
  exact ⟨_, _, rfl, hu⟩

/-- A normal variable, a variable that is anchored to it and a multinomial variable. -/
noncomputable def exA : RV ℝ := .mk (str "A") (.normal (.const 1 2) none none) none
noncomputable def exB : RV ℝ := .mk (str "B") (.normal (.const 5 2) none none) (some exA)
noncomputable def exD : RV ℝ := .mk (str "D") (.multinomial [1 / 4, 1 / 4]) none
noncomputable def exReg : Registry ℝ := { vars := [(str "A", exA), (str "B", exB), (str "D", exD)] }

theorem ex_sampling (N : Num ℝ) (he : 0 < N.eps) (n : Nat) (m : Method) (hm : m = .monteCarlo ∨ m = .lhs) :
    ∃ (Ω : Type) (_ : MeasurableSpace Ω) (P : Measure Ω) (perm : Ω → Nat → List Nat) (jitter : Ω → Nat → List ℝ)
      (σ : Nat → Ω → Equiv.Perm (Fin n)) (r' : Ω → Registry ℝ), Sampling P N exReg n m perm jitter σ r' := by
  obtain ⟨Ω, mΩ, P, perm, jitter, σ, h⟩ := draws_exist n
  have hr : RegInv exReg := by
    refine ⟨?_, ?_⟩
    · show [str "A", str "B", str "D"].Nodup
      decide
    · intro p hp; simp [exReg] at hp; rcases hp with rfl | rfl | rfl <;> rfl
  have hc : Closed exReg := by
    intro v hv
    simp [exReg] at hv
    rcases hv with rfl | rfl | rfl <;> rfl
  have hm' : m ≠ .other := by rcases hm with rfl | rfl <;> simp
  choose r' hr' using fun ω => DmgSample.generate_total_on (fun _ => True) hm' N hr rfl hc n (by
    intro v hv
    simp only [exReg, List.map_cons, List.map_nil, List.mem_cons, List.not_mem_nil, or_false] at hv
    rcases hv with rfl | rfl | rfl
    · exact able_normal N _ n _ _ _ _
    · exact able_normal N _ n _ _ _ _
    · unfold DmgSample.AbleOn
      simp only [exD, RV.kind, RVKind.utility, Bool.false_eq_true, if_false, RVKind.inverse]
      exact fun u _ => ⟨_, _, rfl, trivial⟩) (perm ω) (jitter ω) (fun _ _ _ => trivial)
  exact ⟨Ω, mΩ, P, perm, jitter, σ, r', he, hr, hc, hm, h, hr'⟩

theorem ex_alone : Alone exReg exB ∧ Alone exReg exD := by
  refine ⟨⟨by simp [exReg], by simp [exReg], ?_⟩, by simp [exReg], by simp [exReg], ?_⟩
  · intro w hw hk e
    simp only [exReg, List.map_cons, List.map_nil, List.mem_cons, List.not_mem_nil, or_false] at hw
    rcases hw with rfl | rfl | rfl
    · simp [exA, RVKind.isMultinomial, RV.kind] at hk
    · rfl
    · exact absurd e (by decide)
  · intro w hw hk e
    simp only [exReg, List.map_cons, List.map_nil, List.mem_cons, List.not_mem_nil, or_false] at hw
    rcases hw with rfl | rfl | rfl
    · simp [exA, RVKind.isMultinomial, RV.kind] at hk
    · simp [exB, RVKind.isMultinomial, RV.kind] at hk
    · rfl

/-- In realization 1 the anchored normal variable has the normal distribution and the last category, to which no weight is
given, has the weight that is left. -/
example {Ω : Type} [MeasurableSpace Ω] {P : Measure Ω} {perm : Ω → Nat → List Nat} {jitter : Ω → Nat → List ℝ}
    {σ : Nat → Ω → Equiv.Perm (Fin 3)} {r' : Ω → Registry ℝ}
    (h : Sampling P (realNum 1) exReg 3 .lhs perm jitter σ r') :
    P {ω | UpTo (r' ω).samples (str "B") 1 6} = gaussianReal 5 (Real.toNNReal (2 ^ 2)) (Set.Iic 6) ∧
    P {ω | valueOf (r' ω).samples (str "D") 1 = some (.fin (1 : Nat))} = ENNReal.ofReal (3 / 4) := by
  refine ⟨C118_normal h rfl 1 (by omega) exB ex_alone.1 5 2 rfl (by norm_num) 6, ?_⟩
  have hacc : multinomialInit ([1 / 4, 1 / 4] : List ℝ) none none = .ok [1 / 4, 1 / 4] := by
    simp [multinomialInit, truncated]; norm_num
  have := C118_category h 1 (by omega) exD ex_alone.2 [1 / 4, 1 / 4] rfl (by simp) hacc 1 (by simp)
  rw [show ENNReal.ofReal (3 / 4) = ENNReal.ofReal (weight [1 / 4, 1 / 4] 1) from by
    congr 1
    simp [weight]
    norm_num]
  exact this

/-- A normal demand and a demand that is sampled from three raw values. -/
noncomputable def exRows : List (Label × Marginal ℝ) :=
  [(DemandGen.exA, .dist (.normal (.const 1 2) none none)), (DemandGen.exB, .empirical)]

noncomputable def exRaw : Dict Label (List ℝ) := [(DemandGen.exB, [10, 20, 10])]

theorem ex_demand (N : Num ℝ) (he : 0 < N.eps) (n : Nat) (m : Method) (hm : m = .monteCarlo ∨ m = .lhs) :
    ∃ (Ω : Type) (_ : MeasurableSpace Ω) (P : Measure Ω) (perm : Ω → Nat → List Nat) (jitter : Ω → Nat → List ℝ)
      (σ : Nat → Ω → Equiv.Perm (Fin n)) (cols : Ω → List (Label × List (Ext ℝ))),
      DemandSampling P N exRows (some exRaw) none false n m perm jitter σ cols := by
  obtain ⟨Ω, mΩ, P, perm, jitter, σ, h⟩ := draws_exist n
  have ht : Tidy 3 (exRows.map Prod.fst) := by
    show Tidy 3 [DemandGen.exA, DemandGen.exB]
    unfold Tidy
    decide
  have hm' : m ≠ .other := by rcases hm with rfl | rfl <;> simp
  have hcr : createRVs (str "EDP") false (some exRaw) exRows none = .ok
      { vars := [(tag (str "EDP") DemandGen.exA, .mk (tag (str "EDP") DemandGen.exA) (.normal (.const 1 2) none none) none),
        (tag (str "EDP") DemandGen.exB, .mk (tag (str "EDP") DemandGen.exB) (.empirical [10, 20, 10]) none)] } := by
    with_unfolding_all rfl
  obtain ⟨hr, _, ⟨ks, h3, h4⟩, _⟩ := createRVs_spec _ _ _ _ _ _ hcr
  have hrun : ∀ ω, ∃ cols, generateDemand N (some exRows) (some exRaw) none false n m (perm ω) (jitter ω) = .ok cols := by
    intro ω
    obtain ⟨r', hr'⟩ := DmgSample.generate_total_on (fun u => ∀ y ∈ u, 0 ≤ y ∧ y < 1) hm' N hr rfl
      (created_closed hr (created_root h4)) n (by
        simp only [List.map_cons, List.map_nil, List.forall_mem_cons]
        exact ⟨able_normal N _ n _ _ _ _, able_empirical N n _ _ (by simp), by simp⟩) (perm ω) (jitter ω)
        (fun k row hrow => (DmgProb.drawRow_lt (good h ω) k hrow).2)
    obtain ⟨cols, hcols⟩ := sampleOf_runs N (str "EDP") (by decide) 3 (by omega) exRows ks h3.length_eq (by simp [exRows]) ht _ h4
      n m _ _ r' hr'
    exact ⟨cols, by unfold generateDemand; simp only [hcr]; exact hcols⟩
  choose cols hcols using hrun
  exact ⟨Ω, mΩ, P, perm, jitter, σ, cols, he, ht, by simp, hm, h, hcols⟩

/-- The second demand is 10 with probability two thirds; the first one follows the `cdf`. -/
example {Ω : Type} [MeasurableSpace Ω] {P : Measure Ω} {perm : Ω → Nat → List Nat} {jitter : Ω → Nat → List ℝ}
    {σ : Nat → Ω → Equiv.Perm (Fin 5)} {cols : Ω → List (Label × List (Ext ℝ))}
    (h : DemandSampling P (realNum 1) exRows (some exRaw) none false 5 .lhs perm jitter σ cols) :
    P {ω | Entry (cols ω) DemandGen.exB 4 10} = ENNReal.ofReal (2 / 3) ∧
    P {ω | ∃ x, Entry (cols ω) DemandGen.exA 4 x ∧ x ≤ 3} = ENNReal.ofReal (gaussian.cdf 1) := by
  constructor
  · obtain ⟨data, h1, h2⟩ := C118_demand_data h 4 (by omega) DemandGen.exB (by simp [exRows]) (by simp) 10
    have e : exRaw.get? DemandGen.exB = some [10, 20, 10] := by with_unfolding_all rfl
    rw [e] at h1
    obtain rfl := Option.some.inj h1
    rw [h2]
    congr 1
    norm_num [List.count_cons]
  · obtain ⟨p, h1, h2⟩ := C118_demand h 4 (by omega) {DemandGen.exA} (fun _ => .normal (.const 1 2) none none)
      (by simp [exRows]) (by simp) (fun _ => 3) (by simp [Proper])
    have h3 := (h1 DemandGen.exA (by simp)).1
    have h4 : p DemandGen.exA = gaussian.cdf 1 := by
      have : ((3 : ℝ) - 1) / 2 = 1 := by norm_num
      simpa [cdf, normalCdf, normCdf, truncated, stdCdf, Ext.sub, Ext.divF, realNum, this, eq_comm] using h3
    simpa [h4] using h2

/-- Two performance groups. -/
noncomputable def exCmp : List (Label × RVKind ℝ) :=
  [([str "B1", str "1", str "1", str "0"], .normal (.const 1 2) none none),
   ([str "B1", str "2", str "1", str "0"], .normal (.const 3 1) none none)]

theorem ex_quantity (N : Num ℝ) (he : 0 < N.eps) (n : Nat) (m : Method) (hm : m = .monteCarlo ∨ m = .lhs) :
    ∃ (Ω : Type) (_ : MeasurableSpace Ω) (P : Measure Ω) (perm : Ω → Nat → List Nat) (jitter : Ω → Nat → List ℝ)
      (σ : Nat → Ω → Equiv.Perm (Fin n)) (cols : Ω → List (Label × List (Ext ℝ))),
      QuantitySampling P N exCmp none (some n) n m perm jitter σ cols := by
  obtain ⟨Ω, mΩ, P, perm, jitter, σ, h⟩ := draws_exist n
  let rows : List (Label × Marginal ℝ) := exCmp.map fun e => (e.1, Marginal.dist e.2)
  have ht : Tidy 4 (exCmp.map Prod.fst) := by
    show Tidy 4 [[str "B1", str "1", str "1", str "0"], [str "B1", str "2", str "1", str "0"]]
    unfold Tidy
    decide
  have hm' : m ≠ .other := by rcases hm with rfl | rfl <;> simp
  have hcr : createRVs (str "CMP") false none rows none = .ok
      { vars := [(str "CMP-B1-1-1-0", .mk (str "CMP-B1-1-1-0") (.normal (.const 1 2) none none) none),
        (str "CMP-B1-2-1-0", .mk (str "CMP-B1-2-1-0") (.normal (.const 3 1) none none) none)] } := by
    with_unfolding_all rfl
  obtain ⟨hr, _, ⟨ks, h3, h4⟩, _⟩ := createRVs_spec _ _ _ _ _ _ hcr
  have hrun : ∀ ω, ∃ cols, generateCmp N (some exCmp) none (some n) m (perm ω) (jitter ω) = .ok cols := by
    intro ω
    obtain ⟨r', hr'⟩ := DmgSample.generate_total_on (fun _ => True) hm' N hr rfl
      (created_closed hr (created_root h4)) n (by
        simp only [List.map_cons, List.map_nil, List.forall_mem_cons]
        exact ⟨able_normal N _ n _ _ _ _, able_normal N _ n _ _ _ _, by simp⟩) (perm ω) (jitter ω)
        (fun _ _ _ => trivial)
    obtain ⟨cols, hcols⟩ := sampleOf_runs N (str "CMP") (by decide) 4 (by omega) rows ks h3.length_eq (by simp [rows, exCmp]) ht _ h4
      n m _ _ r' hr'
    exact ⟨cols, by unfold generateCmp; simp only [Option.none_or]; rw [hcr]; exact hcols⟩
  choose cols hcols using hrun
  exact ⟨Ω, mΩ, P, perm, jitter, σ, cols, he, ht, rfl, hm, h, hcols⟩

end Verif.SampleProb
