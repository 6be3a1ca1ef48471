import Mathlib.Tactic
import Verif.Model.UQRows
import Verif.Props.UQDist
import Verif.Lemmas.UQInstances

/-!
# C108: parameters given for each realization

A random variable with a two-dimensional array of parameters: realization `i` is drawn from the distribution with the
parameters in row `i`.  The capacities of components with one operation for each realization are such variables.

Specification: `Gives` says what the entries of an array are; the right hand sides are the formulas of `Model/UQDist`
for one realization, which C17 and C18 are about.
-/

namespace Verif.UQRows

open Verif.UQ

variable {F : Type} [Field F] [LinearOrder F]

/-! ## Specification -/

/-- The array `a` gives the two numbers `p i` to realization `i` of `n`: the same for all (one dimension), or row `i`. -/
def Gives {α : Type} (n : Nat) (a : Arr α) (p : Nat → α × α) : Prop :=
  (∃ r, a = .vec 2 r ∧ ∀ i, p i = (r 0, r 1)) ∨ (∃ l : List (Nat → α), a = .rows 2 l ∧
    l.length = n ∧ ∀ i r, l[i]? = some r → p i = (r 0, r 1))

/-! ## Lemmas -/

/-- The list has the entries `f 0`, ..., `f (n - 1)`, or one entry for all. -/
def Rep {α : Type} (n : Nat) (l : List α) (f : Nat → α) : Prop := l = (List.range n).map f ∨ ∃ x, l = [x] ∧ ∀ i < n, f i = x

theorem zip_range {α β : Type} (n : Nat) (f : Nat → α) (g : Nat → β) :
    ((List.range n).map f).zip ((List.range n).map g) = (List.range n).map fun i => (f i, g i) := by
  rw [List.zip_map', ]

theorem broadcast_full {α β : Type} {n : Nat} {l : List α} {m : List β} {f : Nat → α} {g : Nat → β}
    (hl : l = (List.range n).map f) (hm : Rep n m g) : broadcast l m = .ok ((List.range n).map fun i => (f i, g i)) := by
  subst hl
  rcases hm with rfl | ⟨y, rfl, hy⟩
  · unfold broadcast
    rw [if_pos (by simp), zip_range]
  · have e : (List.range n).map (fun i => (f i, g i)) = ((List.range n).map f).map fun x => (x, y) := by
      rw [List.map_map]
      apply List.map_congr_left
      intro i hi
      simp [hy i (List.mem_range.1 hi)]
    rw [e]
    unfold broadcast
    split
    · rename_i h
      simp only [List.length_map, List.length_range, List.length_cons, List.length_nil] at h
      subst h
      rfl
    · rename_i hne
      split
      · rename_i h1
        rw [h1] at hne
        simp at hne
      · rename_i h2 _
        cases h2
        rfl
      · rename_i h1 h2
        exact absurd rfl (h2 y)

theorem broadcast_rep {α β : Type} {n : Nat} {l : List α} {m : List β} {f : Nat → α} {g : Nat → β}
    (hl : Rep n l f) (hm : Rep n m g) : ∃ r, broadcast l m = .ok r ∧ Rep n r fun i => (f i, g i) := by
  rcases hl with hl | ⟨x, rfl, hx⟩
  · exact ⟨_, broadcast_full hl hm, .inl rfl⟩
  · rcases hm with rfl | ⟨y, rfl, hy⟩
    · refine ⟨(List.range n).map fun i => (f i, g i), ?_, .inl rfl⟩
      have e : (List.range n).map (fun i => (f i, g i)) = ((List.range n).map g).map fun y => (x, y) := by
        rw [List.map_map]
        apply List.map_congr_left
        intro i hi
        simp [hx i (List.mem_range.1 hi)]
      rw [e]
      unfold broadcast
      split
      · rename_i h
        simp only [List.length_map, List.length_range, List.length_cons, List.length_nil] at h
        subst h
        rfl
      · rfl
    · refine ⟨[(x, y)], rfl, .inr ⟨_, rfl, fun i hi => ?_⟩⟩
      simp only [hx i hi, hy i hi]

theorem any_rep {α : Type} {n : Nat} {l : List α} {f : Nat → α} (hn : 0 < n) (h : Rep n l f) (q : α → Bool) :
    l.any q = (List.range n).any fun i => q (f i) := by
  rcases h with rfl | ⟨x, rfl, hx⟩
  · simp [List.any_map, Function.comp_def]
  · rw [Bool.eq_iff_iff]
    simp only [List.any_cons, List.any_nil, Bool.or_false, List.any_eq_true, List.mem_range]
    exact ⟨fun hq => ⟨0, hn, by rw [hx 0 hn]; exact hq⟩, fun ⟨i, hi, hq⟩ => by rw [hx i hi] at hq; exact hq⟩

theorem gives_cols {α : Type} {n : Nat} {a : Arr α} {p : Nat → α × α} (h : Gives n a p) : a.cols = 2 := by
  rcases h with ⟨r, rfl, _⟩ | ⟨l, rfl, _⟩ <;> rfl

theorem map_range_get {α : Type} {n : Nat} (l : List (Nat → α)) (p : Nat → α × α) (hn : l.length = n)
    (h : ∀ i r, l[i]? = some r → p i = (r 0, r 1)) : (l.map fun r => (r 0, r 1)) = (List.range n).map p := by
  subst hn
  apply List.ext_getElem (by simp)
  intro i h1 h2
  have h3 : i < l.length := by simpa using h1
  simp [h i l[i] (List.getElem?_eq_getElem h3)]

theorem prepare_rep {n : Nat} {theta : Arr F} {lim : Arr (Option F)} {p : Nat → F × F} {l : Nat → Option F × Option F}
    (ht : Gives n theta p) (hl : Gives n lim l) : ∃ t k, prepare theta lim n = .ok (t, k) ∧
      Rep n (t.map fun r => (r 0, r 1)) p ∧ Rep n (k.map fun r => (r 0, r 1)) l := by
  have hc := gives_cols ht
  have hc' := gives_cols hl
  unfold prepare
  rw [hc, hc']
  rcases ht with ⟨r, rfl, hr⟩ | ⟨t, rfl, htn, ht⟩
  · rw [if_neg (by simp [Arr.constant])]
    have h1 : Rep n ((Arr.vec 2 r).rows2.map fun r => (r 0, r 1)) p := .inr ⟨_, rfl, fun i _ => hr i⟩
    rcases hl with ⟨s, rfl, hs⟩ | ⟨k, rfl, hkn, hk⟩
    · exact ⟨_, _, rfl, h1, .inr ⟨_, rfl, fun i _ => hs i⟩⟩
    · have h2 : Rep n ((Arr.rows 2 k).rows2.map fun r => (r 0, r 1)) l := by
        left
        exact map_range_get k l hkn hk
      split
      · exact ⟨_, _, rfl, h1, h2⟩
      · rw [if_neg (by simp)]
        refine ⟨_, _, rfl, h1, ?_⟩
        simpa [Arr.rows2] using h2
  · rw [if_neg (by simp [Arr.rows2, htn])]
    have h1 : Rep n ((Arr.rows 2 t).rows2.map fun r => (r 0, r 1)) p := by
      left
      exact map_range_get t p htn ht
    rcases hl with ⟨s, rfl, hs⟩ | ⟨k, rfl, hkn, hk⟩
    · split
      · exact ⟨_, _, rfl, h1, .inr ⟨_, rfl, fun i _ => hs i⟩⟩
      · rw [if_neg (by simp)]
        refine ⟨_, _, rfl, h1, .inl ?_⟩
        simp only [Arr.rows2, List.length_map, htn]
        apply List.ext_getElem (by simp)
        intro i h1 h2
        simp [hs i]
    · rw [if_pos (by simp [Arr.rows2, htn, hkn])]
      refine ⟨_, _, rfl, h1, .inl ?_⟩
      exact map_range_get k l hkn hk

theorem anyLimit_iff {n : Nat} {lim : Arr (Option F)} {l : Nat → Option F × Option F} (hn : 0 < n) (hl : Gives n lim l) :
    lim.anyLimit = (List.range n).any fun i => truncated (l i).1 (l i).2 := by
  have e : lim.anyLimit = (lim.rows2.map fun r => (r 0, r 1)).any fun x => truncated x.1 x.2 := by
    unfold Arr.anyLimit
    rw [gives_cols hl, List.any_map]
    congr 1
    funext r
    simp [truncated, List.range_succ]
  have hr : Rep n (lim.rows2.map fun r => (r 0, r 1)) l := by
    rcases hl with ⟨s, rfl, hs⟩ | ⟨k, rfl, hkn, hk⟩
    · exact .inr ⟨_, rfl, fun i _ => hs i⟩
    · left
      exact map_range_get k l hkn hk
  rw [e, any_rep hn hr]

theorem applyRows_eq {β : Type} (tooSmall : Option F × Option F → F × F → Bool) (cut : Option F × Option F → F × F → F → β) (plain : F × F → F → β)
    {theta : Arr F} {lim : Arr (Option F)} {p : Nat → F × F} {l : Nat → Option F × Option F} (values : List F) (hn : values ≠ [])
    (ht : Gives values.length theta p) (hl : Gives values.length lim l) :
    applyRows tooSmall cut plain theta lim values =
      if (List.range values.length).any fun i => truncated (l i).1 (l i).2 then
        (if (List.range values.length).any fun i => tooSmall (l i) (p i) then .error .valueError
          else .ok ((List.range values.length).map fun i => cut (l i) (p i) (values.getD i 0)))
      else .ok ((List.range values.length).map fun i => plain (p i) (values.getD i 0)) := by
  have hpos : 0 < values.length := List.length_pos_of_ne_nil hn
  obtain ⟨t, k, hp, h1, h2⟩ := prepare_rep ht hl
  have hv : values = (List.range values.length).map fun i => values.getD i 0 := by
    apply List.ext_getElem (by simp)
    intro i h1 h2
    simp [List.getD_eq_getElem?_getD, h1]
  unfold applyRows
  rw [hp]
  simp only [bind, Except.bind, two, gives_cols ht, gives_cols hl, if_true]
  rw [← anyLimit_iff hpos hl]
  split
  · obtain ⟨r, hr, h3⟩ := broadcast_rep h2 h1
    rw [hr]
    simp only
    rw [any_rep hpos h3]
    split
    · rfl
    · rw [broadcast_full hv h3]
      simp [Functor.map, Except.map, Function.comp_def]
  · rw [broadcast_full hv h1]
    simp [Functor.map, Except.map, Function.comp_def]

omit [LinearOrder F] in
theorem ensure_eq [LinearOrder F] (eps : F) (pa pb : Option F) :
    ensurePositive eps pb pa = if smallMass eps pa pb then .error .valueError else .ok () := by
  unfold smallMass
  cases h : ensurePositive eps pb pa with
  | ok _ => rfl
  | error e =>
    unfold ensurePositive at h
    split at h
    · split at h <;> cases h
      rfl
    · cases h

theorem mapE_if {α β : Type} (l : List α) (q : α → Bool) (g : α → β) :
    mapE (fun a => if q a then (.error .valueError : Except PyErr β) else .ok (g a)) l =
      if l.any q then .error .valueError else .ok (l.map g) := by
  induction l with
  | nil => rfl
  | cons a l ih =>
    simp only [mapE, List.any_cons]
    rw [ih]
    by_cases h : q a = true
    · simp [h]
    · simp only [h, Bool.false_or]
      by_cases h2 : l.any q = true <;> simp [h2]

theorem mapE_congr' {α β : Type} {l : List α} {f g : α → Except PyErr β} (h : ∀ a ∈ l, f a = g a) : mapE f l = mapE g l := by
  induction l with
  | nil => rfl
  | cons a l ih =>
    simp only [mapE]
    rw [h a (by simp), ih fun b hb => h b (by simp [hb])]

/-- All realizations: the function for one realization refuses exactly if there is too little probability. -/
theorem applyRows_mapE {β : Type} {tooSmall : Option F × Option F → F × F → Bool} {cut : Option F × Option F → F × F → F → β} {plain : F × F → F → β}
    {theta : Arr F} {lim : Arr (Option F)} {p : Nat → F × F} {l : Nat → Option F × Option F} (values : List F) (hn : values ≠ [])
    (ht : Gives values.length theta p) (hl : Gives values.length lim l) (one : Nat → F → Except PyErr β)
    (hcut : (∃ j < values.length, truncated (l j).1 (l j).2 = true) → ∀ i < values.length, one i (values.getD i 0) =
      if tooSmall (l i) (p i) then .error .valueError else .ok (cut (l i) (p i) (values.getD i 0)))
    (hplain : (∀ j < values.length, truncated (l j).1 (l j).2 = false) → ∀ i < values.length,
      one i (values.getD i 0) = .ok (plain (p i) (values.getD i 0))) :
    applyRows tooSmall cut plain theta lim values = mapE (fun i => one i (values.getD i 0)) (List.range values.length) := by
  rw [applyRows_eq _ _ _ values hn ht hl]
  split
  · rename_i h
    simp only [List.any_eq_true, List.mem_range] at h
    rw [mapE_congr' fun i hi => hcut h i (List.mem_range.1 hi), mapE_if]
  · rename_i h
    rw [mapE_pure fun i hi => hplain (fun j hj => ?_) i (List.mem_range.1 hi)]
    simp only [Bool.not_eq_true, List.any_eq_false, List.mem_range] at h
    exact h j hj

variable [IsStrictOrderedRing F]

/-! ## Normal and lognormal variables -/

/-- **C108 (normal variables).** With parameters and truncation limits for each realization, or the same for all, the
value in realization `i` is the one of the normal distribution with the parameters and limits of realization `i` (or
the sample is refused, because there is too little probability between the limits of some realization). -/
theorem C108_normal_partial (D : StdDist F) (eps : F) (he : eps ≤ 1) (theta : Arr F) (lim : Arr (Option F)) (p : Nat → F × F)
    (l : Nat → Option F × Option F) (values : List F) (hn : values ≠ []) (ht : Gives values.length theta p)
    (hl : Gives values.length lim l) (hs : ∀ i, 0 < (p i).2) :
    normalInverseRows D eps theta lim values =
        mapE (fun i => normalInverse D eps (p i).1 (p i).2 (l i).1 (l i).2 (values.getD i 0)) (List.range values.length) ∧
    normalCdfRows D eps theta lim values =
        mapE (fun i => normalCdf D eps (p i).1 (p i).2 (l i).1 (l i).2 (.fin (values.getD i 0))) (List.range values.length) := by
  have none_of : ∀ i, truncated (l i).1 (l i).2 = false → l i = (none, none) := by
    intro i h
    simp only [truncated, Bool.or_eq_false_iff, Option.isSome_eq_false_iff, Option.isNone_iff_eq_none] at h
    exact Prod.ext h.1 h.2
  have probs : ∀ i, l i = (none, none) → normalProbs D (l i) (p i) = (some 0, some 1) := by
    intro i h
    have h1 := stdCdf_lower D (mu := (p i).1) (hs i) none
    have h2 := stdCdf_upper D (mu := (p i).1) (hs i) none
    simp only [normalProbs, h]
    rw [h1, h2]
    rfl
  have small : ∀ i, l i = (none, none) → smallMass eps (normalProbs D (l i) (p i)).1 (normalProbs D (l i) (p i)).2 = false := by
    intro i h
    rw [probs i h]
    simp [smallMass, ensurePositive, osub, not_lt.2 he]
  constructor
  · apply applyRows_mapE values hn ht hl fun i u => normalInverse D eps (p i).1 (p i).2 (l i).1 (l i).2 u
    · intro _ i hi
      by_cases h : truncated (l i).1 (l i).2 = true
      · cases hb : smallMass eps (normalProbs D (l i) (p i)).1 (normalProbs D (l i) (p i)).2 <;>
          simp only [normalProbs] at hb <;> simp [normalInverse, h, ensure_eq, hb, normalProbs]
      · have h' := none_of i (by simpa using h)
        rw [small i h', probs i h']
        simp [normalInverse, h, rescale]
    · intro h i hi
      simp [normalInverse, h i hi]
  · apply applyRows_mapE values hn ht hl fun i u => normalCdf D eps (p i).1 (p i).2 (l i).1 (l i).2 (.fin u)
    · intro _ i hi
      by_cases h : truncated (l i).1 (l i).2 = true
      · cases hb : smallMass eps (normalProbs D (l i) (p i)).1 (normalProbs D (l i) (p i)).2 <;>
          simp only [normalProbs] at hb <;> simp [normalCdf, h, ensure_eq, hb, normalProbs]
      · have h' := none_of i (by simpa using h)
        rw [small i h', probs i h']
        simp [normalCdf, unscale, h', lowerInf, upperInf, Ext.max, Ext.min, truncated, normCdf, hs i, Ext.sub, Ext.divF, (hs i).ne', stdCdf]
    · intro h i hi
      simp [normalCdf, h i hi]

/-- **C108 (lognormal variables).** The same, if all realizations have truncation limits or none has. -/
theorem C108_lognormal_partial (D : StdDist F) (E : ExpLog F) (eps : F) (theta : Arr F) (lim : Arr (Option F)) (p : Nat → F × F)
    (l : Nat → Option F × Option F) (values : List F) (hn : values ≠ []) (ht : Gives values.length theta p)
    (hl : Gives values.length lim l) (hall : (∀ i, l i = (none, none)) ∨ (∀ i, l i ≠ (none, none))) :
    lognormalInverseRows D E eps theta lim values =
        mapE (fun i => lognormalInverse D E eps (p i).1 (p i).2 (l i).1 (l i).2 (values.getD i 0)) (List.range values.length) ∧
    lognormalCdfRows D E eps theta lim values =
        mapE (fun i => lognormalCdf D E eps (p i).1 (p i).2 (l i).1 (l i).2 (.fin (values.getD i 0))) (List.range values.length) := by
  have htr : (∃ j < values.length, truncated (l j).1 (l j).2 = true) → ∀ i, truncated (l i).1 (l i).2 = true := by
    rintro ⟨j, _, hj⟩ i
    rcases hall with h | h
    · rw [h j] at hj; cases hj
    · by_contra hi
      simp only [truncated, Bool.not_eq_true, Bool.or_eq_false_iff, Option.isSome_eq_false_iff, Option.isNone_iff_eq_none] at hi
      exact h i (Prod.ext hi.1 hi.2)
  constructor
  · apply applyRows_mapE values hn ht hl fun i u => lognormalInverse D E eps (p i).1 (p i).2 (l i).1 (l i).2 u
    · intro hex i hi
      have h := htr hex i
      cases hb : smallMass eps (lognormalProbs D E eps (l i) (p i)).1 (lognormalProbs D E eps (l i) (p i)).2 <;>
          simp only [lognormalProbs] at hb <;> simp [lognormalInverse, h, ensure_eq, hb, lognormalProbs]
    · intro h i hi
      simp [lognormalInverse, h i hi]
  · apply applyRows_mapE values hn ht hl fun i u => lognormalCdf D E eps (p i).1 (p i).2 (l i).1 (l i).2 (.fin u)
    · intro hex i hi
      have h := htr hex i
      cases hb : smallMass eps (lognormalProbsCdf D E eps (l i) (p i)).1 (lognormalProbsCdf D E eps (l i) (p i)).2 <;>
          simp only [lognormalProbsCdf] at hb <;> simp [lognormalCdf, h, ensure_eq, hb, lognormalProbsCdf]
    · intro h i hi
      simp [lognormalCdf, h i hi]

omit [IsStrictOrderedRing F] in
/-- Otherwise a realization without limits is cut at the constant `eps` of the code (`1e-16`). -/
theorem C108_lognormal_mixed (D : StdDist F) (E : ExpLog F) (eps : F) (he : 0 < eps) (theta : Arr F) (lim : Arr (Option F)) (p : Nat → F × F)
    (l : Nat → Option F × Option F) (values : List F) (hn : values ≠ []) (ht : Gives values.length theta p)
    (hl : Gives values.length lim l) (hex : ∃ j < values.length, l j ≠ (none, none)) :
    lognormalInverseRows D E eps theta lim values =
      mapE (fun i => lognormalInverse D E eps (p i).1 (p i).2 (some ((l i).1.getD eps)) (l i).2 (values.getD i 0)) (List.range values.length) := by
  apply applyRows_mapE values hn ht hl fun i u => lognormalInverse D E eps (p i).1 (p i).2 (some ((l i).1.getD eps)) (l i).2 u
  · intro _ i hi
    have h : truncated (some ((l i).1.getD eps)) (l i).2 = true := rfl
    have hlow : lowerPos eps (some ((l i).1.getD eps)) = lowerPos eps (l i).1 := by
      cases (l i).1 with
      | none => simp [lowerPos]
      | some x => rfl
    cases hb : smallMass eps (lognormalProbs D E eps (l i) (p i)).1 (lognormalProbs D E eps (l i) (p i)).2 <;>
        simp only [lognormalProbs] at hb <;> simp [lognormalInverse, h, ensure_eq, hb, lognormalProbs, hlow]
  · intro h
    obtain ⟨j, hj, hne⟩ := hex
    exfalso
    have := h j hj
    simp only [truncated, Bool.or_eq_false_iff, Option.isSome_eq_false_iff, Option.isNone_iff_eq_none] at this
    exact hne (Prod.ext this.1 this.2)

omit [IsStrictOrderedRing F] in
/-- Parameters for another number of realizations are refused. -/
theorem C108_wrong_number (D : StdDist F) (E : ExpLog F) (eps : F) (c : Nat) (l : List (Nat → F)) (lim : Arr (Option F)) (values : List F)
    (h : values.length ≠ l.length) :
    normalInverseRows D eps (.rows c l) lim values = .error .valueError ∧
    normalCdfRows D eps (.rows c l) lim values = .error .valueError ∧
    lognormalInverseRows D E eps (.rows c l) lim values = .error .valueError ∧
    lognormalCdfRows D E eps (.rows c l) lim values = .error .valueError := by
  have hp : prepare (.rows c l) lim values.length = .error .valueError := by
    unfold prepare
    rw [if_pos ⟨rfl, h⟩]
  refine ⟨?_, ?_, ?_, ?_⟩ <;>
    simp only [normalInverseRows, normalCdfRows, lognormalInverseRows, lognormalCdfRows, applyRows, hp, bind, Except.bind]

/-! ## Capacities with one operation for each realization -/

/-- **C108 (capacities).** The lognormal capacity of a limit state with the median `m i` in realization `i` (the results of
one operation for each realization) is `m i * exp(beta * z)`, where `z` is the standard normal value of the realization. -/
theorem C108_lognormal_capacities (D : StdDist F) (E : ExpLog F) (hE : E.Additive) (eps : F) (theta : Nat → F) (hb : 0 < theta 1)
    (medians us : List F) (hm : ∀ m ∈ medians, 0 < m) (hu : ∀ u ∈ us, 0 < u ∧ u < 1) (h2 : 2 ≤ medians.length) (hlen : us.length = medians.length) :
    lognormalInverseRows D E eps (capacityTheta 2 theta medians) (.vec 2 fun _ => none) us =
      .ok ((medians.zip us).map fun x => .fin (x.1 * E.exp (theta 1 * D.ppf x.2))) := by
  have hcap : capacityTheta 2 theta medians = .rows 2 (medians.map fun m j => if j = 0 then m else theta j) := by
    match medians, h2 with
    | m :: m' :: ms, _ => rfl
  have hne : us ≠ [] := by intro h; subst h; simp at hlen; omega
  have hg : Gives us.length (capacityTheta 2 theta medians) (fun i => (medians.getD i 1, theta 1)) := by
    right
    refine ⟨_, hcap, by simp [hlen], fun i r hr => ?_⟩
    simp only [List.getElem?_map, Option.map_eq_some_iff] at hr
    obtain ⟨m, hm, rfl⟩ := hr
    simp [List.getD_eq_getElem?_getD, hm]
  have hl : Gives us.length (.vec 2 fun _ => none) (fun _ => ((none : Option F), (none : Option F))) := .inl ⟨_, rfl, fun _ => rfl⟩
  rw [(C108_lognormal_partial D E eps _ _ _ _ us hne hg hl (.inl fun _ => rfl)).1,
    mapE_pure (g := fun i => .fin (medians.getD i 1 * E.exp (theta 1 * D.ppf (us.getD i 0))))]
  · congr 1
    apply List.ext_getElem (by simp [hlen])
    intro i h1 h3
    have hi : i < us.length := by simpa using h1
    have hi' : i < medians.length := hlen ▸ hi
    simp [List.getD_eq_getElem?_getD, hi, hi']
  · intro i hi
    have hi := List.mem_range.1 hi
    have hi' : i < medians.length := hlen ▸ hi
    have hu' := hu us[i] (List.getElem_mem hi)
    have hm' := hm medians[i] (List.getElem_mem hi')
    have := (C18_parameters D E hE eps hu'.1 hu'.2).2.2.1 medians[i] (theta 1) hm' hb
    simpa [List.getD_eq_getElem?_getD, hi, hi'] using this

omit [IsStrictOrderedRing F] in
/-- Normal capacities are refused: `normal` is the family with a coefficient of variation, of which the parameters cannot
be given for each realization. -/
theorem C108_normal_capacities_refused (theta : Nat → F) (c : Nat) (hc : 2 ≤ c) (medians : List F) (h2 : 2 ≤ medians.length) :
    normalCovTheta (capacityTheta c theta medians) = .error .valueError := by
  match medians, h2 with
  | m :: m' :: ms, _ =>
    simp only [capacityTheta, normalCovTheta, List.map_cons]
    rw [if_neg (by omega)]

omit [IsStrictOrderedRing F] [LinearOrder F] in
/-- Deterministic capacities have the result of the first operation in all realizations. -/
theorem C108_deterministic_capacities (theta : Nat → F) (m : F) (ms : List F) (n : Nat) :
    deterministicRows (capacityTheta 1 theta (m :: ms)) n = .ok (List.replicate n m) := by
  cases ms <;> simp [capacityTheta, deterministicRows]

omit [IsStrictOrderedRing F] in
/-- `Normal_STD` keeps the first two rows; the sample is refused unless it has two realizations. -/
theorem C108_normal_std_refused (D : StdDist F) (eps : F) (c : Nat) (l : List (Nat → F)) (theta : Arr F) (lim : Arr (Option F)) (values : List F)
    (h : normalStdTheta (.rows c l) = .ok theta) (hv : values.length ≠ 2) : normalInverseRows D eps theta lim values = .error .valueError := by
  match l, h with
  | x :: y :: l, h =>
    cases h
    have hp : prepare (.rows c [x, y]) lim values.length = .error .valueError := by
      unfold prepare
      rw [if_pos ⟨rfl, hv⟩]
    simp only [normalInverseRows, applyRows, hp, bind, Except.bind]

omit [IsStrictOrderedRing F] [LinearOrder F] [Field F] in
/-- Uniform and Weibull variables refuse parameters for each realization. -/
theorem C108_constant_only (c : Nat) (l : List (Nat → F)) : constantOnly (.rows c l) = .error .valueError := rfl

/-! ### The hypotheses can be met -/

/-- Three realizations with their own means and limits -/
example : normalInverseRows ratDist (1 / 10 ^ 16)
    (.rows 2 [fun j => if j = 0 then 1 else 2, fun j => if j = 0 then 3 else 1, fun j => if j = 0 then 5 else 1])
    (.rows 2 [fun _ => none, fun j => if j = 0 then some (2 : ℚ) else none, fun j => if j = 0 then none else some 5]) [1 / 4, 1 / 2, 1 / 2] =
    mapE (fun i => normalInverse ratDist (1 / 10 ^ 16) ([1, 3, 5].getD i 1) ([2, 1, 1].getD i 1) ([none, some 2, none].getD i none)
      ([none, none, some 5].getD i none) ([1 / 4, 1 / 2, 1 / 2].getD i 0)) [0, 1, 2] :=
  (C108_normal_partial ratDist (1 / 10 ^ 16) (by norm_num) _ _ (fun i => ([1, 3, 5].getD i 1, [2, 1, 1].getD i 1))
    (fun i => ([none, some 2, none].getD i none, [none, none, some 5].getD i none)) [1 / 4, 1 / 2, 1 / 2] (by simp)
    (.inr ⟨_, rfl, rfl, fun i r h => by
      match i, h with
      | 0, h => cases h; rfl
      | 1, h => cases h; rfl
      | 2, h => cases h; rfl⟩)
    (.inr ⟨_, rfl, rfl, fun i r h => by
      match i, h with
      | 0, h => cases h; rfl
      | 1, h => cases h; rfl
      | 2, h => cases h; rfl⟩)
    (fun i => by
      match i with
      | 0 => norm_num
      | 1 => norm_num
      | 2 => norm_num
      | _ + 3 => norm_num)).1

/-- Capacities with the medians 1, 2, 4 in three realizations -/
example : lognormalInverseRows gaussian realExp (1 / 10 ^ 16) (capacityTheta 2 (fun j => if j = 0 then 1 else 1 / 2) [1, 2, 4])
    (.vec 2 fun _ => none) [1 / 4, 1 / 2, 3 / 4] =
    .ok [.fin (1 * Real.exp (1 / 2 * gaussian.ppf (1 / 4))), .fin (2 * Real.exp (1 / 2 * gaussian.ppf (1 / 2))),
      .fin (4 * Real.exp (1 / 2 * gaussian.ppf (3 / 4)))] := by
  rw [C108_lognormal_capacities gaussian realExp realExp_additive _ _ (by norm_num) _ _ (by simp) (by norm_num) (by simp) (by simp)]
  simp [realExp]

/-- Medians 1 and 2, in three realizations -/
example : deterministicRows (capacityTheta 1 (fun _ => (1 : ℚ)) [1, 2, 4]) 3 = .ok [1, 1, 1] := C108_deterministic_capacities _ _ _ _

end Verif.UQRows
