import Verif.Lemmas.RngStream
import Verif.Props.SampleProb

/-!
# C125: one generator for an assessment

Specification in `Spec/RngStream.lean`.
-/

namespace Verif.RngStream

open Verif.UQ MeasureTheory ProbabilityTheory
open Verif.SampleProb (RandomGen number Alone Proper Sampling value value_law UpTo valueOf Decides Below)
open Verif.Copula (uniform01 uniform_Iic)

/-! ### Seeds -/

section
variable {St Seed : Type} (G : Rng St Seed) (N : Num ℝ)

theorem run_append (a b : List (Op Seed)) (s : St) :
    run G N (a ++ b) s = ((run G N a s).1 ++ (run G N b (run G N a s).2).1, (run G N b (run G N a s).2).2) := by
  induction a generalizing s with
  | nil => simp [run]
  | cons op a ih => simp [run, ih]

theorem run_length (a : List (Op Seed)) (s : St) : (run G N a s).1.length = a.length := by
  induction a generalizing s with
  | nil => rfl
  | cons op a ih => simp [run, ih]

/-- C125: what comes after the seed is set does not depend on anything before.  So two assessments with the same seed and the same steps
have the same results, even in a session with other assessments and steps before. -/
theorem C125_restart (pre pre' ops : List (Op Seed)) (x : Seed) (s s' : St) :
    (run G N (pre ++ .seed x :: ops) s).1.drop pre.length = (run G N (pre' ++ .seed x :: ops) s').1.drop pre'.length := by
  rw [run_append, run_append, ← run_length G N pre s, ← run_length G N pre' s', List.drop_left, List.drop_left]
  rfl

/-- C125: later steps do not change the results of earlier ones. -/
theorem C125_earlier (ops later : List (Op Seed)) (s : St) : (run G N (ops ++ later) s).1.take ops.length = (run G N ops s).1 := by
  rw [run_append, ← run_length G N ops s, List.take_left]

theorem step_alike {a b : Op Seed} (h : Alike a b) (s : St) : (step G N a s).2 = (step G N b s).2 := by
  cases h with
  | seed x => rfl
  | normal k => rfl
  | sample r r' n m e => cases m <;> simp only [step, sample, e]

/-- C125: with the same seed, the results of later steps do not depend on the distributions, names and correlations in earlier steps, as long as
these have the same number of free variables and realizations.  (So studies that change a parameter compare results for the same random
numbers.) -/
theorem C125_same_numbers (pre pre' ops : List (Op Seed)) (h : List.Forall₂ Alike pre pre') (s : St) :
    (run G N (pre ++ ops) s).1.drop pre.length = (run G N (pre' ++ ops) s).1.drop pre'.length := by
  have hs : (run G N pre s).2 = (run G N pre' s).2 := by
    induction h generalizing s with
    | nil => rfl
    | cons h1 _ ih =>
      simp only [run]
      rw [step_alike G N h1]
      exact ih _
  rw [run_append, run_append, ← run_length G N pre s, ← run_length G N pre' s, List.drop_left, List.drop_left, hs]

/-- C125: if the seed is set again, the same sample is drawn again. -/
theorem C125_seed_again (r : Registry ℝ) (n : Nat) (m : Method) (between : List (Op Seed)) (x : Seed) (s : St) :
    (run G N ([.seed x, .sample r n m] ++ between ++ [.seed x, .sample r n m]) s).1[1]? =
      (run G N ([.seed x, .sample r n m] ++ between ++ [.seed x, .sample r n m]) s).1[between.length + 3]? := by
  have h1 := C125_restart G N ([.seed x, .sample r n m] ++ between) [] [.sample r n m] x s s
  have h2 : (run G N ([.seed x, .sample r n m] ++ between ++ [.seed x, .sample r n m]) s).1[between.length + 3]? =
      ((run G N (([.seed x, .sample r n m] ++ between) ++ .seed x :: [.sample r n m]) s).1.drop
        ([Op.seed x, Op.sample r n m] ++ between).length)[1]? := by
    rw [List.getElem?_drop]
    congr 1
  rw [h2, h1]
  rfl

end

/-! ### Independence of the steps -/

section
variable {Ω : Type} [MeasurableSpace Ω] {P : Measure Ω} {N : Num ℝ} {n : Nat} {ops : List (Op Unit)} {perm : Ω → Nat → List Nat}
  {row noise : Ω → Nat → List ℝ} {σ : Nat → Ω → Equiv.Perm (Fin n)} {out : Ω → List Out}

theorem calls_disjoint (m : Method) (k c v w : Nat) (h : v ≠ w) :
    Disjoint ({permCall m k c v, rowCall m k c v} : Set Nat) {permCall m k c w, rowCall m k c w} := by
  rw [Set.disjoint_left]
  intro x hx hy
  simp only [Set.mem_insert_iff, Set.mem_singleton_iff] at hx hy
  cases m <;> simp only [permCall, rowCall] at hx hy
  · split at hx <;> split at hy <;> omega
  all_goals omega

/-- A step that samples variables. -/
theorem sampling (h : Assessment P N n ops perm row noise σ out) {t : Nat} {r : Registry ℝ} {m : Method}
    (ht : ops[t]? = some (.sample r n m)) :
    ∃ r' : Ω → Registry ℝ, (∀ ω, (out ω)[t]? = some (.samples (.ok (r' ω)))) ∧
      Sampling P N r n m (fun ω v => perm ω (permCall m r.free.length (before ops t) v))
        (fun ω v => row ω (rowCall m r.free.length (before ops t) v)) (fun v => σ (permCall m r.free.length (before ops t) v)) r' := by
  obtain ⟨_, hm, hr, hc⟩ := h.size r n m (List.mem_of_getElem? ht)
  have h1 : ∀ ω, (out ω)[t]? = some (.samples (generateSample N r n m (fun v => perm ω (permCall m r.free.length (before ops t) v))
      (fun v => row ω (rowCall m r.free.length (before ops t) v)))) := by
    intro ω
    rw [← h.run ω, run_get _ _ _ _ _ h.once, ht, Option.map_some, step_sample _ _ _ _ _ _ _ hm, Nat.zero_add]
  choose r' hr' using fun ω => h.drawn ω t _ (h1 ω)
  refine ⟨r', fun ω => by rw [h1 ω, hr' ω], h.eps, hr, hc, hm, reindex h.calls _ _ (calls_disjoint m _ _), hr'⟩

theorem value_measurable {m : Method} (hm : m = .monteCarlo ∨ m = .lhs) (h : RandomGen P n perm row σ) (F G : Nat → Nat)
    (h' : RandomGen P n (fun ω v => perm ω (F v)) (fun ω v => row ω (G v)) (fun v => σ (F v))) (v : Nat) (i : Fin n) :
    Measurable[⨆ c ∈ ({F v, G v} : Set Nat), MeasurableSpace.comap (call row σ c) inferInstance]
      (value m n (fun ω v => perm ω (F v)) (fun ω v => row ω (G v)) v i) := by
  have key : ∀ g : Equiv.Perm (Fin n) × (Fin n → ℝ) → ℝ, Measurable g →
      value m n (fun ω v => perm ω (F v)) (fun ω v => row ω (G v)) v i = (fun ω => g (σ (F v) ω, fun i : Fin n => number row (G v) i ω)) →
      Measurable[⨆ c ∈ ({F v, G v} : Set Nat), MeasurableSpace.comap (call row σ c) inferInstance]
        (value m n (fun ω v => perm ω (F v)) (fun ω v => row ω (G v)) v i) := by
    intro g hg e
    rw [e]
    exact hg.comp (pair_measurable (row := row) (σ := σ) (F v) (G v))
  rcases hm with rfl | rfl
  · exact key (fun y => y.2 i) ((measurable_pi_apply i).comp measurable_snd) rfl
  · refine key (fun y => (((y.1 i : ℕ) : ℝ) + y.2 i) / n) ?_ (SampleProb.value_lhs h' v i)
    refine Measurable.div_const (Measurable.add ?_ ?_) _
    · exact (Measurable.of_discrete (f := fun σ : Equiv.Perm (Fin n) => ((σ i : ℕ) : ℝ))).comp measurable_fst
    · exact (measurable_pi_apply i).comp measurable_snd

/-- C125: the variables of all steps of an assessment, such as demands, quantities, capacities and consequences, have their distributions and
are independent: the probability that several variables of the same or different steps, with different anchors, are at most `z j` in
any realizations is the product of the values of their `cdf`. -/
theorem C125_independent (h : Assessment P N n ops perm row noise σ out) {ι : Type} (S : Finset ι) (t : ι → Nat) (r : ι → Registry ℝ) (m : ι → Method)
    (ht : ∀ j ∈ S, ops[t j]? = some (.sample (r j) n (m j))) (w : ι → RV ℝ) (ha : ∀ j ∈ S, Alone (r j) (w j))
    (hdiff : ∀ j ∈ S, ∀ j' ∈ S, t j = t j' → (w j).root.name = (w j').root.name → j = j') (i : ι → Nat) (hi : ∀ j ∈ S, i j < n)
    (z : ι → ℝ) (hp : ∀ j ∈ S, Proper N (w j).kind (z j)) :
    ∃ p : ι → ℝ, (∀ j ∈ S, SampleProb.cdf N (w j).kind (z j) = .ok (some (p j)) ∧ 0 ≤ p j ∧ p j ≤ 1) ∧
      P {ω | ∀ j ∈ S, StepUpTo (out ω) (t j) (w j).name (i j) (z j)} = ENNReal.ofReal (∏ j ∈ S, p j) := by
  classical
  let F : ι → Nat → Nat := fun j => permCall (m j) (r j).free.length (before ops (t j))
  let G : ι → Nat → Nat := fun j => rowCall (m j) (r j).free.length (before ops (t j))
  let v : ι → Nat := fun j => (r j).free.idxOf (w j).root.name
  -- one variable
  have hone : ∀ j : S, ∃ p, (SampleProb.cdf N (w j).kind (z j) = .ok (some p) ∧ 0 ≤ p ∧ p ≤ 1) ∧
      ∃ A : Set Ω, MeasurableSet[⨆ c ∈ ({F j (v j), G j (v j)} : Set Nat), MeasurableSpace.comap (call row σ c) inferInstance] A ∧
        P A = ENNReal.ofReal p ∧ ∀ᵐ ω ∂P, (StepUpTo (out ω) (t j) (w j).name (i j) (z j) ↔ ω ∈ A) := by
    rintro ⟨j, hj⟩
    obtain ⟨r', ho, hs⟩ := sampling h (ht j hj)
    obtain ⟨hu, p, h1, h2, h3, h4⟩ := SampleProb.family N h.eps (hp j hj)
      (SampleProb.sampled_row hs ⟨i j, hi j hj⟩ (ha j hj) (SampleProb.utility_of_proper (hp j hj)))
    refine ⟨p, ⟨h1, h2, h3⟩, value (m j) n _ _ (v j) (⟨i j, hi j hj⟩ : Fin n) ⁻¹' Set.Iic p,
      value_measurable hs.method h.calls (F j) (G j) hs.draws (v j) ⟨i j, hi j hj⟩ measurableSet_Iic, ?_, ?_⟩
    · rw [← uniform_Iic h2 h3]
      exact (value_law hs.draws hs.method (v j) ⟨i j, hi j hj⟩).2.measure_eq (p := fun x => x ∈ Set.Iic p) measurableSet_Iic
    · filter_upwards [SampleProb.decided hs ⟨i j, hi j hj⟩ (ha j hj) hu h4] with ω hω
      refine Iff.trans ?_ hω
      constructor
      · rintro ⟨r1, e, y, hy, hz⟩
        rw [ho ω] at e
        obtain rfl : r' ω = r1 := by simpa using e
        exact ⟨_, hy, y, rfl, hz⟩
      · rintro ⟨_, hy, y, rfl, hz⟩
        exact ⟨r' ω, ho ω, y, hy, hz⟩
  choose p hcdf A hA hPA hiff using hone
  refine ⟨fun j => if hj : j ∈ S then p ⟨j, hj⟩ else 0, fun j hj => by simp only [dif_pos hj]; exact hcdf ⟨j, hj⟩, ?_⟩
  -- different variables depend on different calls
  have hlt : ∀ j : S, v j < (r j).free.length := by
    rintro ⟨j, hj⟩
    obtain ⟨_, _, hr, hc⟩ := h.size (r j) n (m j) (List.mem_of_getElem? (ht j hj))
    exact List.idxOf_lt_length_of_mem (root_free hr hc (ha j hj).registered)
  have hrange : ∀ j : S, ∀ c ∈ ({F j (v j), G j (v j)} : Set Nat), before ops (t j) ≤ c ∧
      c < before ops (t j) + callsOf (.sample (r j) n (m j) : Op Unit) := by
    intro j c hc
    have hv := hlt j
    obtain ⟨_, hm, _⟩ := h.size (r j) n (m j) (List.mem_of_getElem? (ht j j.2))
    simp only [Set.mem_insert_iff, Set.mem_singleton_iff, F, G] at hc
    rcases hm with e | e <;> rw [e] at hc ⊢ <;> simp only [permCall, rowCall, callsOf, if_pos hv] at hc ⊢ <;> omega
  have hdis : ∀ j j' : S, j ≠ j' → Disjoint ({F j (v j), G j (v j)} : Set Nat) {F j' (v j'), G j' (v j')} := by
    intro j j' hne
    by_cases e : t j = t j'
    · have e1 : Op.sample (r j) n (m j) = (Op.sample (r j') n (m j') : Op Unit) := by
        have h1 := ht j j.2
        rw [e, ht j' j'.2] at h1
        exact (Option.some.inj h1).symm
      injection e1 with er _ em
      have hvn : v j ≠ v j' := by
        intro ev
        refine hne (Subtype.ext (hdiff j j.2 j' j'.2 e ?_))
        simp only [v, er] at ev
        obtain ⟨_, _, hr, hc⟩ := h.size (r j') n (m j') (List.mem_of_getElem? (ht j' j'.2))
        exact (List.idxOf_inj (root_free hr hc (er ▸ (ha j j.2).registered))).1 ev
      have := calls_disjoint (m j) (r j).free.length (before ops (t j)) (v j) (v j') hvn
      simp only [F, G]
      rw [← e, ← er, ← em]
      exact this
    · rw [Set.disjoint_left]
      intro c hc hc'
      have h1 := hrange j c hc
      have h2 := hrange j' c hc'
      rcases Nat.lt_or_gt_of_ne e with hl | hl
      · have := before_le (ht j j.2) hl
        omega
      · have := before_le (ht j' j'.2) hl
        omega
  have hprod := blocks (call_measurable h.calls) h.calls.between (Finset.univ : Finset S) (fun j => {F j (v j), G j (v j)})
    (fun j _ j' _ hne => hdis j j' hne) A (fun j _ => hA j)
  have hcongr : P {ω | ∀ j ∈ S, StepUpTo (out ω) (t j) (w j).name (i j) (z j)} = P (⋂ j ∈ (Finset.univ : Finset S), A j) := by
    apply measure_congr
    have hall : ∀ᵐ ω ∂P, ∀ j : S, (StepUpTo (out ω) (t j) (w j).name (i j) (z j) ↔ ω ∈ A j) := ae_all_iff.2 hiff
    filter_upwards [hall] with ω hω
    apply propext
    change (∀ j ∈ S, _) ↔ ω ∈ ⋂ j ∈ (Finset.univ : Finset S), A j
    simp only [Set.mem_iInter, Finset.mem_univ, forall_true_left]
    exact ⟨fun hh j => (hω j).1 (hh j j.2), fun hh j hj => (hω ⟨j, hj⟩).2 (hh ⟨j, hj⟩)⟩
  rw [hcongr, hprod, ENNReal.ofReal_prod_of_nonneg fun j hj => by simp only [dif_pos hj]; exact (hcdf ⟨j, hj⟩).2.1, ← Finset.prod_coe_sort S]
  refine Finset.prod_congr rfl fun j _ => ?_
  rw [hPA j, dif_pos j.2]

end

/-! ### A concrete case -/

open Verif.SampleProb (able_normal draws_exist ex_alone)

/-- Two samples of the same registry, one with each method, and normal numbers between them. -/
noncomputable def exOps : List (Op Unit) := [.sample SampleProb.exReg 3 .lhs, .normal 4, .sample SampleProb.exReg 3 .monteCarlo]

theorem ex_reg : RegInv SampleProb.exReg ∧ Closed SampleProb.exReg := by
  refine ⟨⟨?_, ?_⟩, ?_⟩
  · show [str "A", str "B", str "D"].Nodup
    decide
  · intro p hp; simp [SampleProb.exReg] at hp; rcases hp with rfl | rfl | rfl <;> rfl
  · intro v hv
    simp [SampleProb.exReg] at hv
    rcases hv with rfl | rfl | rfl <;> rfl

theorem ex_total (N : Num ℝ) (m : Method) (hm : m ≠ .other) (perm : Nat → List Nat) (jitter : Nat → List ℝ) :
    ∃ r', generateSample N SampleProb.exReg 3 m perm jitter = .ok r' := by
  refine DmgSample.generate_total_on (fun _ => True) hm N ex_reg.1 rfl ex_reg.2 3 ?_ perm jitter (fun _ _ _ => trivial)
  intro v hv
  simp only [SampleProb.exReg, List.map_cons, List.map_nil, List.mem_cons, List.not_mem_nil, or_false] at hv
  rcases hv with rfl | rfl | rfl
  · exact able_normal N _ 3 _ _ _ _
  · exact able_normal N _ 3 _ _ _ _
  · unfold DmgSample.AbleOn
    simp only [SampleProb.exD, RV.kind, RVKind.utility, Bool.false_eq_true, if_false, RVKind.inverse]
    exact fun u _ => ⟨_, _, rfl, trivial⟩

theorem ex_assessment (N : Num ℝ) (he : 0 < N.eps) (noise : Nat → List ℝ) :
    ∃ (Ω : Type) (_ : MeasurableSpace Ω) (P : Measure Ω) (perm : Ω → Nat → List Nat) (row : Ω → Nat → List ℝ)
      (σ : Nat → Ω → Equiv.Perm (Fin 3)) (out : Ω → List Out), Assessment P N 3 exOps perm row (fun _ => noise) σ out := by
  obtain ⟨Ω, mΩ, P, perm, row, σ, h⟩ := draws_exist 3
  have honce : ∀ s, (.seed s : Op Unit) ∉ exOps := by intro s; simp [exOps]
  refine ⟨Ω, mΩ, P, perm, row, σ, _, he, h, honce, ?_, fun ω => rfl, ?_⟩
  · intro r k m hr
    simp only [exOps, List.mem_cons, Op.sample.injEq, reduceCtorEq, List.not_mem_nil, or_false, false_or] at hr
    rcases hr with ⟨rfl, rfl, rfl⟩ | ⟨rfl, rfl, rfl⟩
    · exact ⟨rfl, .inr rfl, ex_reg⟩
    · exact ⟨rfl, .inl rfl, ex_reg⟩
  · intro ω t x hx
    rw [run_get _ _ _ _ _ honce] at hx
    match t with
    | 0 =>
      simp only [exOps, List.getElem?_cons_zero, Option.map_some, step_sample _ _ _ N SampleProb.exReg 3 .lhs (.inr rfl), Option.some.injEq,
        Out.samples.injEq] at hx
      obtain ⟨r', hr'⟩ := ex_total N .lhs (by simp) _ _
      exact ⟨r', hx.symm.trans hr'⟩
    | 1 => simp [exOps, step] at hx
    | 2 =>
      simp only [exOps, List.getElem?_cons_zero, List.getElem?_cons_succ, Option.map_some, step_sample _ _ _ N SampleProb.exReg 3 .monteCarlo (.inl rfl),
        Option.some.injEq, Out.samples.injEq] at hx
      obtain ⟨r', hr'⟩ := ex_total N .monteCarlo (by simp) _ _
      exact ⟨r', hx.symm.trans hr'⟩
    | k + 3 => simp [exOps] at hx

/-- The variable "B" is at most 6 in realization 1 of the first sample and at most 4 in realization 2 of the second sample. -/
example {Ω : Type} [MeasurableSpace Ω] {P : Measure Ω} {perm : Ω → Nat → List Nat} {row noise : Ω → Nat → List ℝ}
    {σ : Nat → Ω → Equiv.Perm (Fin 3)} {out : Ω → List Out} (h : Assessment P (realNum 1) 3 exOps perm row noise σ out) :
    ∃ p q : ℝ, SampleProb.cdf (realNum 1) SampleProb.exB.kind 6 = .ok (some p) ∧ SampleProb.cdf (realNum 1) SampleProb.exB.kind 4 = .ok (some q) ∧
      P {ω | StepUpTo (out ω) 0 (str "B") 1 6 ∧ StepUpTo (out ω) 2 (str "B") 2 4} = ENNReal.ofReal (p * q) := by
  obtain ⟨p, h1, h2⟩ := C125_independent h (Finset.univ : Finset Bool) (fun b => if b then 2 else 0) (fun _ => SampleProb.exReg)
    (fun b => if b then .monteCarlo else .lhs) (by intro j _; cases j <;> rfl) (fun _ => SampleProb.exB) (fun _ _ => ex_alone.1)
    (by intro j _ j' _; cases j <;> cases j' <;> simp) (fun b => if b then 2 else 1) (by intro j _; cases j <;> simp)
    (fun b => if b then 4 else 6) (fun j _ => by show (0 : ℝ) < 2; norm_num)
  refine ⟨p false, p true, (h1 false (by simp)).1, (h1 true (by simp)).1, ?_⟩
  rw [Fintype.prod_bool, mul_comm] at h2
  rw [← h2]
  congr 1
  ext ω
  constructor
  · rintro ⟨ha, hb⟩ j _
    cases j
    · exact ha
    · exact hb
  · intro hh
    exact ⟨hh false (by simp), hh true (by simp)⟩

/-- Another registry with two free variables leaves the later sample as it is. -/
example (G : Rng Nat Nat) (N : Num ℝ) (s : Nat) :
    (run G N [.sample SampleProb.exReg 3 .lhs, .sample SampleProb.exReg 5 .monteCarlo] s).1.drop 1 =
      (run G N [.sample { vars := [(str "D", SampleProb.exD), (str "X", .mk (str "X") (.uniform (some 0) (some 9) none none) none)] } 3 .lhs, .sample SampleProb.exReg 5 .monteCarlo] s).1.drop 1 :=
  C125_same_numbers G N [.sample SampleProb.exReg 3 .lhs] [.sample _ 3 .lhs] [.sample SampleProb.exReg 5 .monteCarlo]
    (.cons (.sample _ _ _ _ rfl) .nil) s

end Verif.RngStream
