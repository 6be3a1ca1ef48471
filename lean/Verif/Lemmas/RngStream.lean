import Verif.Spec.RngStream
import Verif.Lemmas.SampleProb

/-! # Lemmas for C125 -/

namespace Verif.RngStream

open Verif.UQ MeasureTheory ProbabilityTheory
open Verif.SampleProb (RandomGen number)

/-! ### The calls of a step -/

/-- Number of calls. -/
noncomputable def callsOf {Seed : Type} : Op Seed → Nat
  | .seed _ => 0
  | .sample r _ .lhs => r.free.length + r.free.length
  | .sample r _ .lhsMidpoint => r.free.length
  | .sample r _ .monteCarlo => r.free.length
  | .sample _ _ .other => 0
  | .normal _ => 1

theorem many_byCall {α : Type} (f : Nat → α) (k c : Nat) :
    many (fun c => (f c, c + 1)) k c = ((List.range k).map fun v => f (c + v), c + k) := by
  induction k generalizing c with
  | zero => rfl
  | succ k ih =>
    rw [many, ih, List.range_succ_eq_map]
    simp only [List.map_cons, List.map_map, Nat.add_zero, Prod.mk.injEq, List.cons.injEq, true_and]
    refine ⟨List.map_congr_left fun v _ => ?_, by omega⟩
    simp only [Function.comp, Nat.succ_eq_add_one]
    congr 1
    omega

theorem step_state (perm : Nat → List Nat) (row noise : Nat → List ℝ) (N : Num ℝ) (op : Op Unit) (h : ∀ s, op ≠ .seed s) (c : Nat) :
    (step (byCall perm row noise) N op c).2 = c + callsOf op := by
  cases op with
  | seed s => exact absurd rfl (h s)
  | normal k => rfl
  | sample r n m =>
    cases m <;> simp only [step, sample, byCall, many_byCall, callsOf] <;> omega

/-- The calls before step `t`. -/
noncomputable def before (ops : List (Op Unit)) (t : Nat) : Nat := ((ops.take t).map callsOf).sum

theorem run_get (perm : Nat → List Nat) (row noise : Nat → List ℝ) (N : Num ℝ) (ops : List (Op Unit)) (h : ∀ s, .seed s ∉ ops) (c t : Nat) :
    (run (byCall perm row noise) N ops c).1[t]? =
      ops[t]?.map fun op => (step (byCall perm row noise) N op (c + before ops t)).1 := by
  induction ops generalizing c t with
  | nil => simp [run]
  | cons op ops ih =>
    rw [run]
    cases t with
    | zero => simp [before]
    | succ t =>
      simp only [List.getElem?_cons_succ]
      rw [ih (fun s hs => h s (List.mem_cons_of_mem _ hs)), step_state _ _ _ _ _ fun s e => h s (e ▸ List.mem_cons_self)]
      simp only [before, List.take_succ_cons, List.map_cons, List.sum_cons, Nat.add_assoc]

theorem before_le {ops : List (Op Unit)} {t t' : Nat} {op : Op Unit} (h : ops[t]? = some op) (hlt : t < t') :
    before ops t + callsOf op ≤ before ops t' := by
  unfold before
  obtain ⟨ht, rfl⟩ := List.getElem?_eq_some_iff.1 h
  have h1 : ops.take t' = ops.take (t + 1) ++ (ops.drop (t + 1)).take (t' - (t + 1)) := by
    rw [← List.take_add]
    congr 1
    omega
  rw [h1, List.take_succ_eq_append_getElem ht]
  simp only [List.map_append, List.sum_append, List.map_cons, List.map_nil, List.sum_cons, List.sum_nil, Nat.add_zero]
  exact Nat.le_add_right _ _

theorem assignUni_congr {m : Method} {n : Nat} {perm perm' : Nat → List Nat} {jitter jitter' : Nat → List ℝ} (l : List Str) (i : Nat)
    (uni : Dict Str (List ℝ)) (h : ∀ v < l.length, drawRow m n (perm (i + v)) (jitter (i + v)) = drawRow m n (perm' (i + v)) (jitter' (i + v))) :
    assignUni m n perm jitter i l uni = assignUni m n perm' jitter' i l uni := by
  induction l generalizing i uni with
  | nil => rfl
  | cons a l ih =>
    have h0 := h 0 (by simp)
    simp only [Nat.add_zero] at h0
    rw [assignUni, assignUni, h0]
    cases drawRow m n (perm' i) (jitter' i) with
    | error e => rfl
    | ok row =>
      simp only
      refine ih (i + 1) _ fun v hv => ?_
      have := h (v + 1) (by simpa using hv)
      rwa [show i + 1 + v = i + (v + 1) by omega]

theorem generate_congr {N : Num ℝ} {r : Registry ℝ} {m : Method} {n : Nat} {perm perm' : Nat → List Nat} {jitter jitter' : Nat → List ℝ}
    (h : ∀ v < r.free.length, drawRow m n (perm v) (jitter v) = drawRow m n (perm' v) (jitter' v)) :
    generateSample N r n m perm jitter = generateSample N r n m perm' jitter' := by
  unfold generateSample drawUniform
  rw [assignUni_congr (perm' := perm') (jitter' := jitter') r.free 0 r.uni (by simpa using h)]

/-- The call that returns the permutation of a variable, for a step that begins with call `c`. -/
def permCall (m : Method) (k c v : Nat) : Nat :=
  match m with
  | .lhs => if v < k then c + v else c + k + k + v
  | _ => c + v

/-- The call that returns the numbers of a variable. -/
def rowCall (m : Method) (k c v : Nat) : Nat :=
  match m with
  | .lhs => if v < k then c + k + v else c + k + k + v
  | _ => c + v

theorem step_sample (perm : Nat → List Nat) (row noise : Nat → List ℝ) (N : Num ℝ) (r : Registry ℝ) (n : Nat) (m : Method)
    (hm : m = .monteCarlo ∨ m = .lhs) (c : Nat) :
    (step (byCall perm row noise) N (.sample r n m) c).1 =
      .samples (generateSample N r n m (fun v => perm (permCall m r.free.length c v)) (fun v => row (rowCall m r.free.length c v))) := by
  rcases hm with rfl | rfl
  · simp only [step, sample, byCall, many_byCall]
    congr 1
    refine generate_congr fun v hv => ?_
    simp [drawRow, rowCall, List.getD_eq_getElem?_getD, List.getElem?_range hv]
  · simp only [step, sample, byCall, many_byCall]
    congr 1
    refine generate_congr fun v hv => ?_
    simp [rowCall, permCall, List.getD_eq_getElem?_getD, List.getElem?_range hv, hv]

/-! ### Independence -/

section
variable {Ω : Type} [MeasurableSpace Ω] {P : Measure Ω}

/-- Events that depend on different variables are independent. -/
theorem blocks {E : Type} [MeasurableSpace E] {f : Nat → Ω → E} (hf : ∀ c, Measurable (f c)) (h : iIndepFun f P) {ι : Type} (T : Finset ι)
    (B : ι → Set Nat) (hd : ∀ j ∈ T, ∀ j' ∈ T, j ≠ j' → Disjoint (B j) (B j')) (A : ι → Set Ω)
    (hA : ∀ j ∈ T, MeasurableSet[⨆ c ∈ B j, MeasurableSpace.comap (f c) inferInstance] (A j)) :
    P (⋂ j ∈ T, A j) = ∏ j ∈ T, P (A j) := by
  classical
  haveI := h.isProbabilityMeasure
  induction T using Finset.induction_on with
  | empty => simp
  | insert a T ha ih =>
    rw [Finset.prod_insert ha, Finset.set_biInter_insert]
    rw [← ih (fun j hj j' hj' => hd j (Finset.mem_insert_of_mem hj) j' (Finset.mem_insert_of_mem hj'))
      (fun j hj => hA j (Finset.mem_insert_of_mem hj))]
    have hdis : Disjoint (B a) (⋃ j ∈ T, B j) := by
      rw [Set.disjoint_iUnion₂_right]
      intro j hj
      refine hd a (Finset.mem_insert_self _ _) j (Finset.mem_insert_of_mem hj) ?_
      rintro rfl
      exact ha hj
    have hI := indep_iSup_of_disjoint (fun c => (hf c).comap_le) h.iIndep hdis
    rw [Indep_iff] at hI
    refine hI _ _ (hA a (Finset.mem_insert_self _ _)) ?_
    refine Finset.measurableSet_biInter (m := ⨆ c ∈ ⋃ j ∈ T, B j, MeasurableSpace.comap (f c) inferInstance) T fun j hj => ?_
    have hle : (⨆ c ∈ B j, MeasurableSpace.comap (f c) (inferInstance : MeasurableSpace E)) ≤
        ⨆ c ∈ ⋃ j ∈ T, B j, MeasurableSpace.comap (f c) inferInstance :=
      biSup_mono fun c hc => Set.mem_biUnion (t := B) hj hc
    exact hle _ (hA j (Finset.mem_insert_of_mem hj))

variable {n : Nat} {perm : Ω → Nat → List Nat} {row : Ω → Nat → List ℝ} {σ : Nat → Ω → Equiv.Perm (Fin n)}

/-- What the generator returns in call `c`. -/
def call (row : Ω → Nat → List ℝ) (σ : Nat → Ω → Equiv.Perm (Fin n)) (c : Nat) (ω : Ω) : Equiv.Perm (Fin n) × (Fin n → ℝ) :=
  (σ c ω, fun i => number row c i ω)

theorem call_measurable (h : RandomGen P n perm row σ) (c : Nat) : Measurable (call row σ c) :=
  (h.perm_measurable c).prodMk (measurable_pi_lambda _ fun i => h.measurable c i)

/-- The permutation of one call and the numbers of another one. -/
theorem pair_measurable (a b : Nat) :
    Measurable[⨆ c ∈ ({a, b} : Set Nat), MeasurableSpace.comap (call row σ c) inferInstance]
      fun ω => (σ a ω, fun i : Fin n => number row b i ω) := by
  have h1 : ∀ c ∈ ({a, b} : Set Nat), Measurable[⨆ c ∈ ({a, b} : Set Nat), MeasurableSpace.comap (call row σ c) inferInstance] (call row σ c) := by
    intro c hc
    exact (comap_measurable (call row σ c)).mono (le_biSup (fun c => MeasurableSpace.comap (call row σ c) inferInstance) hc) le_rfl
  exact (measurable_fst.comp (h1 a (by simp))).prodMk (measurable_snd.comp (h1 b (by simp)))

/-- The variables of a step have a generator of their own. -/
theorem reindex (h : RandomGen P n perm row σ) (F G : Nat → Nat)
    (hd : ∀ v w, v ≠ w → Disjoint ({F v, G v} : Set Nat) {F w, G w}) :
    RandomGen P n (fun ω v => perm ω (F v)) (fun ω v => row ω (G v)) (fun v => σ (F v)) where
  perms := fun v => h.perms (F v)
  numbers := fun v => h.numbers (G v)
  perm_measurable := fun v => h.perm_measurable (F v)
  measurable := fun v => h.measurable (G v)
  equally := fun v => h.equally (F v)
  uniform := fun v => h.uniform (G v)
  within := fun v => by
    by_cases e : F v = G v
    · have := h.within (F v)
      have e2 : (fun ω (i : Fin n) => number (fun ω v => row ω (G v)) v i ω) = fun ω (i : Fin n) => number row (F v) i ω := by
        rw [e]; rfl
      rw [e2]
      exact this
    · exact (h.between.indepFun e).comp measurable_fst measurable_snd
  between := by
    rw [iIndepFun_iff_measure_inter_preimage_eq_mul]
    intro T sets hs
    refine blocks (call_measurable h) h.between T (fun v => {F v, G v}) (fun v _ w _ e => hd v w e) _ fun v hv => ?_
    exact pair_measurable (row := row) (σ := σ) (F v) (G v) (hs v hv)

end

end Verif.RngStream
