import Verif.Spec.SampleProb
import Verif.Lemmas.DmgLhs
import Verif.Props.Orthotope
import Verif.Props.Weibull
import Verif.Props.UQFamilies

/-! # Lemmas for C118 -/

namespace Verif.SampleProb

open Verif.UQ MeasureTheory ProbabilityTheory
open Verif.Copula (uniform01)
open Verif.Weibull (weibullCdf)
open Verif.DmgProb (uniform_Ico drawRow_lt)
open Verif.Orthotope (Describes C107_families C107_lognormal)

/-! ### The uniform sample of a variable -/

section
variable {F : Type} [Field F] [LinearOrder F] [FloorRing F]

theorem transformAll_own (N : Num F) (n : Nat) (vs : List (RV F)) :
    ∀ st st', (vs.map RV.name).Nodup → transformAll N n vs st = .ok st' →
      ∀ v ∈ vs, v.kind.utility = false →
        (∀ w ∈ vs, w.kind.isMultinomial = true → w.root.name = v.root.name → w = v) →
        ∃ u s u', st.1.get? v.root.name = some u ∧ v.kind.inverse N u = .ok (s, u') ∧
          st'.2.get? v.name = some s := by
  induction vs with
  | nil => intro st st' _ _ v hv; simp at hv
  | cons v vs ih =>
    intro st st' hnd h w hw hk hm
    rw [List.map_cons, List.nodup_cons] at hnd
    simp only [transformAll] at h
    cases ho : transformOne N n v st with
    | error e => rw [ho] at h; simp at h
    | ok s1 =>
      rw [ho] at h
      simp only at h
      obtain ⟨_, h2, h3, h4⟩ := transformOne_spec N n v st s1 ho
      rcases List.mem_cons.1 hw with rfl | hw'
      · have hk' := transformAll_other N n vs s1 st' h w.name
          (fun x hx e => hnd.1 (e ▸ List.mem_map_of_mem hx))
        rw [if_neg (by simp [hk])] at h4
        obtain ⟨u0, s, u', hg, hi, hs, _⟩ := h4
        exact ⟨u0, s, u', hg, hi, by rw [hk', hs]⟩
      · obtain ⟨u, s, u', hg, hi, hs⟩ := ih s1 st' hnd.2 h w hw' hk
          (fun x hx => hm x (List.mem_cons_of_mem _ hx))
        refine ⟨u, s, u', ?_, hi, hs⟩
        rw [← hg]
        cases hmv : v.kind.isMultinomial with
        | false => exact (h3 hmv _).symm
        | true =>
          refine (h2 _ (fun e => ?_)).symm
          have := hm v (by simp) hmv e.symm
          subst this
          exact hnd.1 (List.mem_map_of_mem hw')

/-- A variable is computed from the uniform sample drawn for its root variable. -/
theorem own_row {N : Num F} {r r' : Registry F} {n : Nat} {m : Method} {perm : Nat → List Nat} {jitter : Nat → List F}
    (hr : RegInv r) (hc : Closed r) (h : generateSample N r n m perm jitter = .ok r') {v : RV F}
    (hv : v ∈ r.vars.map Prod.snd) (hset : ∀ s ∈ r.sets.map Prod.snd, ∀ w ∈ s.members, w.name ≠ v.root.name)
    (hmul : ∀ w ∈ r.vars.map Prod.snd, w.kind.isMultinomial = true → w.root.name = v.root.name → w = v)
    (hu : v.kind.utility = false) :
    v.root.name ∈ r.free ∧ ∃ u s u',
      drawRow m n (perm (r.free.idxOf v.root.name)) (jitter (r.free.idxOf v.root.name)) = .ok u ∧
      v.kind.inverse N u = .ok (s, u') ∧ r'.samples.get? v.name = some s := by
  have hfree := root_free hr hc hv
  refine ⟨hfree, ?_⟩
  unfold generateSample at h
  split at h
  · simp at h
  · rename_i uni hd
    unfold drawUniform at hd
    split at hd
    · simp at hd
    · rename_i uni1 ha
      have hidx : r.free[r.free.idxOf v.root.name]? = some v.root.name := by
        have hlt := List.idxOf_lt_length_iff.2 hfree
        rw [List.getElem?_eq_getElem hlt, List.getElem_idxOf]
      obtain ⟨row, hrow, hget⟩ := (assignUni_spec m n perm jitter r.free 0 _ _ (free_nodup hr) ha).2 _ _ hidx
      rw [Nat.zero_add] at hrow
      have hk := applySets_get? _ uni1 uni v.root.name hset hd
      split at h
      · simp at h
      · rename_i st hst
        simp only [Except.ok.injEq] at h
        obtain ⟨u, s, u', h1, h2, h3⟩ := transformAll_own N n _ _ _ (DemandGen.names_nodup hr) hst v hv hu hmul
        rw [hk, hget] at h1
        obtain rfl := Option.some.inj h1
        exact ⟨_, s, u', hrow, h2, by rw [← h]; exact h3⟩

end

/-! ### Events that a uniform number decides -/

/-- The values of a variable of kind `k` in `A` are those of the uniform numbers in `B`, apart from one number. -/
def Decides (N : Num ℝ) (k : RVKind ℝ) (A : Ext ℝ → Prop) (B : Set ℝ) : Prop :=
  ∃ c, ∀ row s u', k.inverse N row = .ok (s, u') → (∀ u ∈ row, 0 ≤ u ∧ u < 1) → ∀ (i : Nat) (x : ℝ), row[i]? = some x →
    0 < x → x ≠ c → ∃ y, s[i]? = some y ∧ (A y ↔ x ∈ B)

/-- The number in the uniform sample of free variable `v`. -/
noncomputable def value {Ω : Type} (m : Method) (n : Nat) (perm : Ω → Nat → List Nat) (jitter : Ω → Nat → List ℝ) (v i : Nat) (ω : Ω) : ℝ :=
  match drawRow m n (perm ω v) (jitter ω v) with
  | .ok row => row.getD i 0
  | .error _ => 0

variable {Ω : Type} [MeasurableSpace Ω] {P : Measure Ω} {n : Nat} {perm : Ω → Nat → List Nat} {jitter : Ω → Nat → List ℝ}
  {σ : Nat → Ω → Equiv.Perm (Fin n)} {m : Method}

theorem good (h : RandomGen P n perm jitter σ) (ω : Ω) : GoodDraws n (perm ω) (jitter ω) := by
  intro v
  refine ⟨?_, h.numbers v ω⟩
  rw [h.perms v ω]
  have e : (List.ofFn fun i => (σ v ω i : ℕ)) = (List.ofFn (σ v ω)).map Fin.val := by
    rw [List.map_ofFn]; rfl
  have e2 : List.range n = (List.ofFn fun i : Fin n => i).map Fin.val := by
    apply List.ext_getElem <;> simp
  rw [e, e2]
  refine List.Perm.map _ ?_
  refine (List.perm_ext_iff_of_nodup ?_ ?_).2 ?_
  · exact List.nodup_ofFn.2 (σ v ω).injective
  · exact List.nodup_ofFn.2 fun _ _ h => h
  · intro a
    simp only [List.mem_ofFn]
    exact ⟨fun _ => ⟨a, rfl⟩, fun _ => ⟨(σ v ω).symm a, by simp⟩⟩

theorem value_monteCarlo (v : Nat) (i : Fin n) : value .monteCarlo n perm jitter v i = number jitter v i := rfl

theorem value_lhs (h : RandomGen P n perm jitter σ) (v : Nat) (i : Fin n) :
    value .lhs n perm jitter v i = fun ω => ((σ v ω i : ℕ) + number jitter v i ω) / n := by
  funext ω
  have h2 := (h.numbers v ω).1
  have hi : i.1 < (jitter ω v).length := by rw [h2]; exact i.2
  unfold value number
  simp only [drawRow]
  rw [h.perms v ω, List.getD_eq_getElem?_getD, List.getElem?_zipWith, List.getD_eq_getElem?_getD,
    List.getElem?_eq_getElem hi, List.getElem?_ofFn, dif_pos i.2]
  simp

theorem value_law (h : RandomGen P n perm jitter σ) (hm : m = .monteCarlo ∨ m = .lhs) (v : Nat) (i : Fin n) :
    Measurable (value m n perm jitter v i) ∧ HasLaw (value m n perm jitter v i) uniform01 P := by
  rcases hm with rfl | rfl
  · rw [value_monteCarlo]
    exact ⟨h.measurable v i, h.uniform v i⟩
  · rw [value_lhs h]
    exact DmgLhs.lhs_law (U := fun ω i => number jitter v i ω) (h.perm_measurable v) (h.measurable v) (h.equally v)
      (h.within v) i (h.uniform v i)

theorem value_indep (h : RandomGen P n perm jitter σ) (hm : m = .monteCarlo ∨ m = .lhs) (i : Fin n) :
    iIndepFun (fun v => value m n perm jitter v i) P := by
  rcases hm with rfl | rfl
  · exact h.between.comp (fun _ (y : Equiv.Perm (Fin n) × (Fin n → ℝ)) => y.2 i)
      (fun _ => (measurable_pi_apply i).comp measurable_snd)
  · have := h.between.comp (fun _ (y : Equiv.Perm (Fin n) × (Fin n → ℝ)) => (((y.1 i : ℕ) : ℝ) + y.2 i) / n) (fun _ => by
      refine Measurable.div_const (Measurable.add ?_ ?_) _
      · exact (Measurable.of_discrete (f := fun σ : Equiv.Perm (Fin n) => ((σ i : ℕ) : ℝ))).comp measurable_fst
      · exact (measurable_pi_apply i).comp measurable_snd)
    convert this using 2 with v
    exact value_lhs h v i

variable {N : Num ℝ} {r : Registry ℝ} {r' : Ω → Registry ℝ}

/-- In almost every case the value of a variable is in `A` when its uniform number is in `B`. -/
theorem decided (h : Sampling P N r n m perm jitter σ r') (i : Fin n) {v : RV ℝ} (ha : Alone r v)
    (hu : v.kind.utility = false) {A : Ext ℝ → Prop} {B : Set ℝ} (hd : Decides N v.kind A B) :
    ∀ᵐ ω ∂P, ((∃ y, valueOf (r' ω).samples v.name i = some y ∧ A y) ↔
      value m n perm jitter (r.free.idxOf v.root.name) i ω ∈ B) := by
  obtain ⟨c, hc⟩ := hd
  have hlaw := (value_law h.draws h.method (r.free.idxOf v.root.name) i).2
  have hae : ∀ᵐ x ∂uniform01, 0 < x ∧ x ≠ c := by
    have h1 : ∀ᵐ x ∂uniform01, 0 < x := by
      unfold uniform01
      exact (ae_restrict_iff' measurableSet_Ioo).2 (.of_forall fun x hx => hx.1)
    have h2 : ∀ᵐ x ∂uniform01, x ≠ c := by
      unfold uniform01
      exact ae_restrict_of_ae (Measure.ae_ne volume c)
    exact h1.and h2
  have hms : MeasurableSet {x : ℝ | 0 < x ∧ x ≠ c} :=
    measurableSet_Ioi.inter (measurableSet_singleton c).compl
  have h2 : ∀ᵐ ω ∂P, 0 < value m n perm jitter (r.free.idxOf v.root.name) i ω ∧
      value m n perm jitter (r.free.idxOf v.root.name) i ω ≠ c :=
    (hlaw.ae_iff (p := fun x => 0 < x ∧ x ≠ c) (measurableSet_setOfPred.1 hms)).2 hae
  filter_upwards [h2] with ω ⟨hpos, hne⟩
  obtain ⟨_, u, s, u', e1, e2, e3⟩ := own_row h.names h.anchors (h.run ω) ha.registered ha.uncorrelated ha.unshared hu
  obtain ⟨hlen, hunit⟩ := drawRow_lt (good h.draws ω) _ e1
  have hi : i.1 < u.length := by rw [hlen]; exact i.2
  have hval : u[i.1]? = some (value m n perm jitter (r.free.idxOf v.root.name) i ω) := by
    unfold value
    rw [e1]
    simp only
    rw [List.getD_eq_getElem?_getD, List.getElem?_eq_getElem hi]
    rfl
  obtain ⟨y, hy, hiff⟩ := hc u s u' e2 hunit i _ hval hpos hne
  have hv : valueOf (r' ω).samples v.name i = some y := by
    unfold valueOf
    rw [e3]
    exact hy
  rw [hv, ← hiff]
  simp

/-- The probability that several variables with different roots have values in given sets. -/
theorem joint (h : Sampling P N r n m perm jitter σ r') (i : Fin n) {ι : Type} (S : Finset ι) (w : ι → RV ℝ)
    (ha : ∀ j ∈ S, Alone r (w j)) (hu : ∀ j ∈ S, (w j).kind.utility = false)
    (hdiff : ∀ j ∈ S, ∀ j' ∈ S, (w j).root.name = (w j').root.name → j = j')
    (A : ι → Ext ℝ → Prop) (B : ι → Set ℝ) (hB : ∀ j ∈ S, MeasurableSet (B j))
    (hd : ∀ j ∈ S, Decides N (w j).kind (A j) (B j)) :
    P {ω | ∀ j ∈ S, ∃ y, valueOf (r' ω).samples (w j).name i = some y ∧ A j y} = ∏ j ∈ S, uniform01 (B j) := by
  let f : S → Nat := fun j => r.free.idxOf (w j).root.name
  have hf : Function.Injective f := by
    intro j j' e
    have h1 := root_free h.names h.anchors (ha j j.2).registered
    have h2 := root_free h.names h.anchors (ha j' j'.2).registered
    have hn : (w j).root.name = (w j').root.name := (List.idxOf_inj h1).1 e
    exact Subtype.ext (hdiff j j.2 j' j'.2 hn)
  have hind := (value_indep h.draws h.method i).precomp hf
  have h1 := hind.measure_inter_preimage_eq_mul Finset.univ (sets := fun j => B j) (fun j _ => hB j j.2)
  have h2 : P {ω | ∀ j ∈ S, ∃ y, valueOf (r' ω).samples (w j).name i = some y ∧ A j y} =
      P (⋂ j ∈ (Finset.univ : Finset S), value m n perm jitter (f j) i ⁻¹' B j) := by
    apply measure_congr
    have hall : ∀ᵐ ω ∂P, ∀ j : S, ((∃ y, valueOf (r' ω).samples (w j).name i = some y ∧ A j y) ↔
        value m n perm jitter (f j) i ω ∈ B j) :=
      ae_all_iff.2 fun j => decided h i (ha j j.2) (hu j j.2) (hd j j.2)
    filter_upwards [hall] with ω hω
    apply propext
    change (∀ j ∈ S, _) ↔ ω ∈ ⋂ j ∈ (Finset.univ : Finset S), value m n perm jitter (f j) i ⁻¹' B j
    simp only [Set.mem_iInter, Finset.mem_univ, forall_true_left, Set.mem_preimage]
    exact ⟨fun hh j => (hω j).1 (hh j j.2), fun hh j hj => (hω ⟨j, hj⟩).2 (hh ⟨j, hj⟩)⟩
  rw [h2]
  refine Eq.trans h1 ?_
  rw [← Finset.prod_coe_sort S fun j => uniform01 (B j)]
  refine Finset.prod_congr rfl fun j _ => ?_
  exact (value_law h.draws h.method (f j) i).2.measure_eq (p := fun x => x ∈ B j) (hB j j.2)

end Verif.SampleProb
