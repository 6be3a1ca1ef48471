import Verif.Lemmas.CorrSample
import Verif.Props.DemandSave

/-!
# C122: correlated variables and demands have the joint distribution asked for

Specification in `Spec/CorrSample.lean`.
-/

namespace Verif.CorrSample

open Verif.UQ Verif.Copula Verif.SampleProb MeasureTheory ProbabilityTheory WithLp Matrix
open Verif.DemandGen
open Verif.FileIO (Label)

section
variable {Ω : Type} [MeasurableSpace Ω] {P : Measure Ω} {n : Nat} {perm : Ω → Nat → List Nat} {jitter : Ω → Nat → List ℝ}
  {σ : Nat → Ω → Equiv.Perm (Fin n)} {m : Method} {N : Num ℝ} {r : Registry ℝ} {r' : Ω → Registry ℝ}
  {names : List Str} {rho : Nat → Nat → ℝ} {f : Factors (CorrSet.init names rho).names.length}

theorem corr_family (h : Sampling P N r n m perm jitter σ r') (hs : HasSet r names rho f) (hc : Correlation names rho f) (i : Fin n)
    {v : RV ℝ} (hv : v ∈ r.vars.map Prod.snd) (hn : v.name ∈ names) (hmul : Unshared r v) {z : ℝ} (hp : Proper N v.kind z) :
    ∃ p, (SampleProb.cdf N v.kind z = .ok (some p) ∧ 0 ≤ p ∧ p ≤ 1) ∧ Decides N v.kind (Below z) (Set.Iic p) := by
  obtain ⟨ω⟩ := nonempty h i
  obtain ⟨u, s, u', e1, e2, e3, e4⟩ := correlated_row h hs ω hv hn hmul (utility_of_proper hp)
  obtain ⟨j, hj, ej⟩ := List.mem_iff_getElem.1 hn
  obtain ⟨_, p, h1, h2, h3, h4⟩ := family N h.eps hp ⟨u, s, u', by
    rintro rfl
    have := i.2
    simp at e3
    omega, by
    intro x hx
    obtain ⟨k, hk, rfl⟩ := List.mem_iff_getElem.1 hx
    have := e4 ⟨k, by rw [← e3]; exact hk⟩
    rw [← ej, show names[j] = names[(⟨j, hj⟩ : Fin names.length)] from rfl, cdf_score hc.distinct, List.getElem?_eq_getElem hk] at this
    rw [Option.some.inj this]
    exact ⟨(gaussian.cdf_pos _).le, gaussian.cdf_lt_one _⟩, e1⟩
  exact ⟨p, ⟨h1, h2, h3⟩, h4⟩

theorem below_iff {samples : Dict Str (List (Ext ℝ))} {a : Str} {i : Nat} {z : ℝ} :
    UpTo samples a i z ↔ ∃ y, valueOf samples a i = some y ∧ Below z y := by
  unfold UpTo Below
  constructor
  · rintro ⟨y, h1, h2⟩
    exact ⟨_, h1, y, rfl, h2⟩
  · rintro ⟨_, h1, y, rfl, h2⟩
    exact ⟨y, h1, h2⟩

/-- C122: in each realization, variables of a correlated set have the joint distribution of the Gaussian copula: the
probability that they are at most `z j` is the probability that standard normal variables with the given correlation matrix
are at most the normal quantiles of the values of the `cdf` of the variables. -/
theorem C122_joint (h : Sampling P N r n m perm jitter σ r') (hs : HasSet r names rho f) (hc : Correlation names rho f) (i : Nat)
    (hi : i < n) (S : Finset (Fin names.length)) (w : Fin names.length → RV ℝ) (hv : ∀ j ∈ S, w j ∈ r.vars.map Prod.snd)
    (hn : ∀ j ∈ S, (w j).name = names[j]) (hmul : ∀ j ∈ S, Unshared r (w j)) (z : Fin names.length → ℝ)
    (hp : ∀ j ∈ S, Proper N (w j).kind (z j)) :
    ∃ p : Fin names.length → ℝ, (∀ j ∈ S, SampleProb.cdf N (w j).kind (z j) = .ok (some (p j)) ∧ 0 ≤ p j ∧ p j ≤ 1) ∧
      P {ω | ∀ j ∈ S, UpTo (r' ω).samples names[j] i (z j)} =
        multivariateGaussian 0 (given names rho) {x | ∀ j ∈ S, gaussian.cdf (x j) ≤ p j} := by
  classical
  have hf : ∀ j, ∃ p, j ∈ S → (SampleProb.cdf N (w j).kind (z j) = .ok (some p) ∧ 0 ≤ p ∧ p ≤ 1) ∧
      Decides N (w j).kind (Below (z j)) (Set.Iic p) := by
    intro j
    by_cases hj : j ∈ S
    · obtain ⟨p, h1⟩ := corr_family h hs hc ⟨i, hi⟩ (hv j hj) (by rw [hn j hj]; exact List.getElem_mem _) (hmul j hj) (hp j hj)
      exact ⟨p, fun _ => h1⟩
    · exact ⟨0, fun hj' => absurd hj' hj⟩
  choose p hp' using hf
  refine ⟨p, fun j hj => (hp' j hj).1, ?_⟩
  have hmeas : MeasurableSet {x : EuclideanSpace ℝ (Fin names.length) | ∀ j ∈ S, gaussian.cdf (x j) ≤ p j} := by
    have : {x : EuclideanSpace ℝ (Fin names.length) | ∀ j ∈ S, gaussian.cdf (x j) ≤ p j} =
        ⋂ j ∈ S, (fun x : EuclideanSpace ℝ (Fin names.length) => gaussian.cdf (x j)) ⁻¹' Set.Iic (p j) := by
      ext x; simp
    rw [this]
    refine Finset.measurableSet_biInter _ fun j _ => ?_
    exact (cdf_measurable.comp (by fun_prop)) measurableSet_Iic
  have hlaw := score_law h hs hc ⟨i, hi⟩
  rw [← hlaw.map_eq, Measure.map_apply_of_aemeasurable hlaw.aemeasurable hmeas]
  apply measure_congr
  have hall : ∀ᵐ ω ∂P, ∀ j : S, ((∃ y, valueOf (r' ω).samples (w j).name i = some y ∧ Below (z j) y) ↔
      gaussian.cdf (score f r m perm jitter ⟨i, hi⟩ ω j) ∈ Set.Iic (p j)) :=
    ae_all_iff.2 fun j => decided_corr h hs hc ⟨i, hi⟩ j (hv j j.2) (hn j j.2) (hmul j j.2) (utility_of_proper (hp j j.2)) (hp' j j.2).2
  filter_upwards [hall] with ω hω
  refine propext ?_
  refine forall₂_congr fun j hj => ?_
  have := hω ⟨j, hj⟩
  rw [← below_iff, hn j hj] at this
  exact this

/-- C122: correlation does not change the distribution of a variable. -/
theorem C122_marginal (h : Sampling P N r n m perm jitter σ r') (hs : HasSet r names rho f) (hc : Correlation names rho f) (i : Nat)
    (hi : i < n) (v : RV ℝ) (hv : v ∈ r.vars.map Prod.snd) (hn : v.name ∈ names) (hmul : Unshared r v) (z : ℝ)
    (hp : Proper N v.kind z) :
    ∃ p, SampleProb.cdf N v.kind z = .ok (some p) ∧ P {ω | UpTo (r' ω).samples v.name i z} = ENNReal.ofReal p := by
  obtain ⟨j, hj, ej⟩ := List.mem_iff_getElem.1 hn
  obtain ⟨p, ⟨h1, h2, h3⟩, h4⟩ := corr_family h hs hc ⟨i, hi⟩ hv hn hmul hp
  refine ⟨p, h1, ?_⟩
  have hae := decided_corr h hs hc ⟨i, hi⟩ ⟨j, hj⟩ hv ej.symm hmul (utility_of_proper hp) h4
  have hlaw := C114_marginal_partial names hc.distinct rho hc.semidefinite f hc.factors _ (before_law h hs hc.distinct ⟨i, hi⟩) 0
    ⟨j, hj⟩ (hc.unit j hj)
  have e : P {ω | UpTo (r' ω).samples v.name i z} =
      P ((fun ω => setSamples names rho f (before r m perm jitter ⟨i, hi⟩ ω) names[(⟨j, hj⟩ : Fin names.length)] 0) ⁻¹' Set.Iic p) := by
    apply measure_congr
    filter_upwards [hae] with ω hω
    refine propext ?_
    rw [← below_iff] at hω
    refine hω.trans ?_
    rw [← cdf_score hc.distinct]
    rfl
  rw [e, ← Measure.map_apply_of_aemeasurable hlaw.aemeasurable measurableSet_Iic, hlaw.map_eq]
  exact uniform_Iic h2 h3

/-- C122: normal variables of a correlated set have a joint normal distribution with their means, their standard deviations
and the given correlation. -/
theorem C122_normal (h : Sampling P N r n m perm jitter σ r') (hD : N.D = gaussian) (hs : HasSet r names rho f)
    (hc : Correlation names rho f) (i : Nat) (hi : i < n) (S : Finset (Fin names.length)) (mean std : Fin names.length → ℝ)
    (hstd : ∀ j, 0 < std j)
    (hv : ∀ j ∈ S, RV.mk names[j] (.normal (.const (mean j) (std j)) none none) none ∈ r.vars.map Prod.snd)
    (hmul : ∀ j ∈ S, Unshared r (.mk names[j] (.normal (.const (mean j) (std j)) none none) none)) (z : Fin names.length → ℝ) :
    P {ω | ∀ j ∈ S, UpTo (r' ω).samples names[j] i (z j)} =
      jointNormal mean std (given names rho) {x | ∀ j ∈ S, x j ≤ z j} := by
  obtain ⟨p, h1, h2⟩ := C122_joint h hs hc i hi S _ hv (fun j _ => rfl) hmul z (fun j _ => hstd j)
  rw [h2, ← map_affine mean std _ hc.semidefinite, Measure.map_apply (by fun_prop)]
  · congr 1
    ext x
    refine forall₂_congr fun j hj => ?_
    have hp : p j = gaussian.cdf ((z j - mean j) / std j) := by
      have := (h1 j hj).1
      simpa [SampleProb.cdf, RV.kind, normalCdf, normCdf, truncated, stdCdf, Ext.sub, Ext.divF, hD, (hstd j).ne', hstd j, eq_comm] using this
    rw [hp, (show StrictMono gaussian.cdf from fun _ _ h => gaussian.cdf_strictMono h).le_iff_le, le_div_iff₀ (hstd j)]
    simp only
    constructor <;> intro hx <;> linarith
  · have : {x : EuclideanSpace ℝ (Fin names.length) | ∀ j ∈ S, x j ≤ z j} =
        ⋂ j ∈ S, (fun x : EuclideanSpace ℝ (Fin names.length) => x j) ⁻¹' Set.Iic (z j) := by
      ext x; simp
    rw [this]
    exact Finset.measurableSet_biInter _ fun j _ => (by fun_prop : Measurable _) measurableSet_Iic

/-- C122: the logarithms of lognormal variables of a correlated set have a joint normal distribution with the logarithms of
the medians, the logarithmic standard deviations and the given correlation (for values that are not below the smallest
number). -/
theorem C122_lognormal (h : Sampling P N r n m perm jitter σ r') (hD : N.D = gaussian) (hE : N.E = realExp)
    (hs : HasSet r names rho f) (hc : Correlation names rho f) (i : Nat) (hi : i < n) (S : Finset (Fin names.length))
    (theta beta : Fin names.length → ℝ) (ht : ∀ j, 0 < theta j) (hb : ∀ j, 0 < beta j)
    (hv : ∀ j ∈ S, RV.mk names[j] (.lognormal (.const (theta j) (beta j)) none none) none ∈ r.vars.map Prod.snd)
    (hmul : ∀ j ∈ S, Unshared r (.mk names[j] (.lognormal (.const (theta j) (beta j)) none none) none)) (z : Fin names.length → ℝ)
    (hz : ∀ j ∈ S, N.eps ≤ z j) :
    P {ω | ∀ j ∈ S, UpTo (r' ω).samples names[j] i (z j)} =
      jointNormal (fun j => Real.log (theta j)) beta (given names rho) {x | ∀ j ∈ S, Real.exp (x j) ≤ z j} := by
  have hz0 : ∀ j ∈ S, 0 < z j := fun j hj => lt_of_lt_of_le h.eps (hz j hj)
  obtain ⟨p, h1, h2⟩ := C122_joint h hs hc i hi S _ hv (fun j _ => rfl) hmul z (fun j hj =>
    ⟨ht j, hb j, by simp, by simp, hz0 j hj, fun _ _ => hz j hj⟩)
  rw [h2, ← map_affine _ beta _ hc.semidefinite, Measure.map_apply (by fun_prop)]
  · congr 1
    ext x
    refine forall₂_congr fun j hj => ?_
    have hp : p j = gaussian.cdf ((Real.log (z j) - Real.log (theta j)) / beta j) := by
      have hmax : (if z j ≤ N.eps then N.eps else z j) = z j := by
        split
        · exact le_antisymm (hz j hj) ‹_›
        · rfl
      have := (h1 j hj).1
      simpa [hmax, SampleProb.cdf, RV.kind, lognormalCdf, normCdf, truncated, stdCdf, Ext.sub, Ext.divF, Ext.log, Ext.max, hD, hE, realExp, (hb j).ne', hb j,
        max_eq_left (hz j hj), hz j hj, ht j, hz0 j hj, eq_comm] using this
    rw [hp, (show StrictMono gaussian.cdf from fun _ _ h => gaussian.cdf_strictMono h).le_iff_le, le_div_iff₀ (hb j)]
    simp only [Set.mem_preimage]
    rw [← Real.le_log_iff_exp_le (hz0 j hj)]
    constructor <;> intro hx <;> linarith
  · have : {x : EuclideanSpace ℝ (Fin names.length) | ∀ j ∈ S, Real.exp (x j) ≤ z j} =
        ⋂ j ∈ S, (fun x : EuclideanSpace ℝ (Fin names.length) => Real.exp (x j)) ⁻¹' Set.Iic (z j) := by
      ext x; simp
    rw [this]
    exact Finset.measurableSet_biInter _ fun j _ => (by fun_prop : Measurable _) measurableSet_Iic

end

/-! ### Demands -/

theorem init_names (names : List Str) (rho : Nat → Nat → ℝ) : (CorrSet.init names rho).names = pySort strLe names := by
  unfold CorrSet.init
  split
  · simp only [argsortNames, List.map_map]
    have h1 : ∀ q ∈ pySort (fun (x y : Str × Nat) => strLe x.1 y.1) names.zipIdx, names.getD q.2 [] = q.1 := by
      intro q hq
      have := (pySort_perm _ _).mem_iff.1 hq
      rw [List.getD_eq_getElem?_getD, (List.mem_zipIdx_iff_getElem?.1 this)]
      rfl
    rw [List.map_congr_left (f := (fun i => names.getD i []) ∘ Prod.snd) (g := Prod.fst) (fun q hq => h1 q hq),
      ← DemandSave.pySort_map (le' := strLe) (f := Prod.fst) (fun _ _ => rfl), List.zipIdx_map_fst]
  · match names with
    | [] => rfl
    | [a] => rfl
    | _ :: _ :: _ => rename_i hc; simp at hc

section
variable {Ω : Type} [MeasurableSpace Ω] {P : Measure Ω} {n : Nat} {perm : Ω → Nat → List Nat} {jitter : Ω → Nat → List ℝ}
  {σ : Nat → Ω → Equiv.Perm (Fin n)} {m : Method} {N : Num ℝ} {rows : List (Label × Marginal ℝ)}
  {emp : Option (Dict Label (List ℝ))} {preserve : Bool} {cols : Ω → List (Label × List (Ext ℝ))}
  {labels : List Label} {rho : Nat → Nat → ℝ} {f : Factors (CorrSet.init (labels.map (tag (str "EDP"))) rho).names.length}

theorem created_set {r : Registry ℝ} (hd : (labels.map (tag (str "EDP"))).Nodup)
    (hcr : createRVs (str "EDP") preserve emp rows (some (labels, copulaRows f)) = .ok r) :
    HasSet r (labels.map (tag (str "EDP"))) rho f ∧ RegInv r ∧ ∀ v ∈ r.vars.map Prod.snd, v.root = v := by
  obtain ⟨hr, _, ⟨ks, _, h4⟩, hsets⟩ := createRVs_spec _ _ _ _ _ _ hcr
  have hroot := created_root h4
  rcases hsets with ⟨h, _⟩ | ⟨ls, copula, vs, he, hvs, hsets⟩
  · simp at h
  simp only [Option.some.injEq, Prod.mk.injEq] at he
  obtain ⟨rfl, rfl⟩ := he
  have hreg : ∀ v ∈ vs, v ∈ r.vars.map Prod.snd ∧ ∃ l ∈ labels, v.name = tag (str "EDP") l := by
    intro v hv
    obtain ⟨k, hk, e⟩ := List.mem_iff_getElem.1 hv
    obtain ⟨hlen, hall⟩ := List.forall₂_iff_get.1 hvs
    have hk' : k < labels.length := by rw [hlen]; exact hk
    have hl : labels[k] ∈ labels := List.getElem_mem _
    have hg : r.vars.get? (tag (str "EDP") labels[k]) = some v := by simpa [e] using hall k hk' hk
    have hm := Dict.mem_of_get? hg
    exact ⟨List.mem_map.2 ⟨_, hm, rfl⟩, _, hl, (hr.2 _ hm).symm⟩
  have hnames : vs.map RV.name = labels.map (tag (str "EDP")) := by
    have : ∀ {ls : List Label} {us : List (RV ℝ)}, List.Forall₂ (fun l v => r.vars.get? (tag (str "EDP") l) = some v) ls us →
        us.map RV.name = ls.map (tag (str "EDP")) := by
      intro ls us hf
      induction hf with
      | nil => rfl
      | cons hg _ ih => rw [List.map_cons, List.map_cons, ih, ← hr.2 _ (Dict.mem_of_get? hg)]
    exact this hvs
  refine ⟨⟨?_, ?_, ?_, ?_, ?_⟩, hr, hroot⟩
  · rw [hsets]; simp
  · intro s hs
    rw [hsets] at hs
    simp only [List.map_cons, List.map_nil, List.mem_singleton] at hs
    subst hs
    exact (((pySort_perm _ _).map RV.name).nodup_iff).2 (by rw [hnames]; exact hd)
  · intro s hs v hv
    rw [hsets] at hs
    simp only [List.map_cons, List.map_nil, List.mem_singleton] at hs
    subst hs
    exact hroot v (hreg v ((pySort_perm _ _).mem_iff.1 hv)).1
  · intro s hs v hv
    rw [hsets] at hs
    simp only [List.map_cons, List.map_nil, List.mem_singleton] at hs
    subst hs
    exact (hreg v ((pySort_perm _ _).mem_iff.1 hv)).1
  · refine ⟨⟨str "EDP_set", pySort (fun a b => strLe a.name b.name) vs, copulaRows f⟩, by rw [hsets]; simp, ?_, rfl⟩
    simp only
    rw [init_names, ← hnames, DemandSave.pySort_map (le := fun a b : RV ℝ => strLe a.name b.name) (fun _ _ => rfl)]

theorem demand_registry (h : DemandSampling P N rows emp (some (labels, copulaRows f)) preserve n m perm jitter σ cols)
    (hc : Correlation (labels.map (tag (str "EDP"))) rho f) (hpos : 0 < n) :
    ∃ r r', Sampling P N r n m perm jitter σ r' ∧ HasSet r (labels.map (tag (str "EDP"))) rho f ∧
      (∀ l k, (l, Marginal.dist k) ∈ rows → RV.mk (tag (str "EDP") l) k none ∈ r.vars.map Prod.snd) ∧
      (∀ v ∈ r.vars.map Prod.snd, Unshared r v) ∧
      ∀ l mg, (l, mg) ∈ rows → ∀ ω (i : Nat) z, (UpTo (r' ω).samples (tag (str "EDP") l) i z ↔
        ∃ x, Entry (cols ω) l i x ∧ x ≤ z) := by
  obtain ⟨r, hcr, hrun, _⟩ := demand_created h hpos
  obtain ⟨hset, hr, hroot⟩ := created_set (rho := rho) hc.distinct hcr
  obtain ⟨r', hs, _, _, h3⟩ := table_registry (by decide) (by omega) h.eps h.labels h.method h.draws hcr hrun
  obtain ⟨_, _, ⟨ks, h5, h4⟩, _⟩ := createRVs_spec _ _ _ _ _ _ hcr
  refine ⟨r, r', hs, hset, ?_, ?_, ?_⟩
  · intro l k hk
    obtain ⟨k', hk', hkind⟩ := zip_mem_of_forall₂ h5 hk
    obtain rfl := Except.ok.inj (show Except.ok k = Except.ok k' from hkind)
    exact var_mem h4 hk'
  · intro v hv w hw _ e
    rw [hroot w hw] at e
    have q1 := vars_get? hr hw
    rw [e, vars_get? hr hv] at q1
    exact (Option.some.inj q1).symm
  · intro l mg hl ω i z
    unfold UpTo
    exact exists_congr fun x => by rw [h3 _ _ hl ω i x]

theorem tag_at (labels : List Label) (j : Fin (labels.map (tag (str "EDP"))).length) :
    tag (str "EDP") (labels.getD j []) = (labels.map (tag (str "EDP")))[j] := by
  have hj : j.1 < labels.length := by simpa using j.2
  rw [List.getD_eq_getElem?_getD, List.getElem?_eq_getElem hj]
  simp

/-- C122: in each realization of a demand sample, the demands named in the correlation matrix have the joint distribution of
the Gaussian copula with that matrix and the distributions of the demands. -/
theorem C122_demand (h : DemandSampling P N rows emp (some (labels, copulaRows f)) preserve n m perm jitter σ cols)
    (hc : Correlation (labels.map (tag (str "EDP"))) rho f) (i : Nat) (hi : i < n)
    (S : Finset (Fin (labels.map (tag (str "EDP"))).length)) (k : Fin (labels.map (tag (str "EDP"))).length → RVKind ℝ)
    (hk : ∀ j ∈ S, (labels.getD j [], Marginal.dist (k j)) ∈ rows) (z : Fin (labels.map (tag (str "EDP"))).length → ℝ)
    (hp : ∀ j ∈ S, Proper N (k j) (z j)) :
    ∃ p : Fin (labels.map (tag (str "EDP"))).length → ℝ,
      (∀ j ∈ S, SampleProb.cdf N (k j) (z j) = .ok (some (p j)) ∧ 0 ≤ p j ∧ p j ≤ 1) ∧
      P {ω | ∀ j ∈ S, ∃ x, Entry (cols ω) (labels.getD j []) i x ∧ x ≤ z j} =
        multivariateGaussian 0 (given (labels.map (tag (str "EDP"))) rho) {x | ∀ j ∈ S, gaussian.cdf (x j) ≤ p j} := by
  obtain ⟨r, r', hs, hset, hv, hu, h3⟩ := demand_registry h hc (by omega)
  obtain ⟨p, g1, g2⟩ := C122_joint hs hset hc i hi S (fun j => .mk (tag (str "EDP") (labels.getD j [])) (k j) none)
    (fun j hj => hv _ _ (hk j hj)) (fun j _ => tag_at labels j) (fun j hj => hu _ (hv _ _ (hk j hj))) z hp
  refine ⟨p, g1, ?_⟩
  rw [← g2]
  congr 1
  ext ω
  exact forall₂_congr fun j hj => by rw [← tag_at labels j]; exact (h3 _ _ (hk j hj) ω i (z j)).symm

/-- C122: demands with normal distributions that are named in the correlation matrix have a joint normal distribution. -/
theorem C122_demand_normal (h : DemandSampling P N rows emp (some (labels, copulaRows f)) preserve n m perm jitter σ cols)
    (hD : N.D = gaussian) (hc : Correlation (labels.map (tag (str "EDP"))) rho f) (i : Nat) (hi : i < n)
    (S : Finset (Fin (labels.map (tag (str "EDP"))).length)) (mean std : Fin (labels.map (tag (str "EDP"))).length → ℝ)
    (hstd : ∀ j, 0 < std j)
    (hk : ∀ j ∈ S, (labels.getD j [], Marginal.dist (.normal (.const (mean j) (std j)) none none)) ∈ rows)
    (z : Fin (labels.map (tag (str "EDP"))).length → ℝ) :
    P {ω | ∀ j ∈ S, ∃ x, Entry (cols ω) (labels.getD j []) i x ∧ x ≤ z j} =
      jointNormal mean std (given (labels.map (tag (str "EDP"))) rho) {x | ∀ j ∈ S, x j ≤ z j} := by
  obtain ⟨r, r', hs, hset, hv, hu, h3⟩ := demand_registry h hc (by omega)
  have hv' := fun j hj => hv _ _ (hk j hj)
  simp only [tag_at] at hv'
  rw [← C122_normal hs hD hset hc i hi S mean std hstd hv' (fun j hj => hu _ (hv' j hj)) z]
  congr 1
  ext ω
  exact forall₂_congr fun j hj => by rw [← tag_at labels j]; exact (h3 _ _ (hk j hj) ω i (z j)).symm

/-- C122: the logarithms of demands with lognormal distributions that are named in the correlation matrix have a joint normal
distribution. -/
theorem C122_demand_lognormal (h : DemandSampling P N rows emp (some (labels, copulaRows f)) preserve n m perm jitter σ cols)
    (hD : N.D = gaussian) (hE : N.E = realExp) (hc : Correlation (labels.map (tag (str "EDP"))) rho f) (i : Nat) (hi : i < n)
    (S : Finset (Fin (labels.map (tag (str "EDP"))).length)) (theta beta : Fin (labels.map (tag (str "EDP"))).length → ℝ)
    (ht : ∀ j, 0 < theta j) (hb : ∀ j, 0 < beta j)
    (hk : ∀ j ∈ S, (labels.getD j [], Marginal.dist (.lognormal (.const (theta j) (beta j)) none none)) ∈ rows)
    (z : Fin (labels.map (tag (str "EDP"))).length → ℝ) (hz : ∀ j ∈ S, N.eps ≤ z j) :
    P {ω | ∀ j ∈ S, ∃ x, Entry (cols ω) (labels.getD j []) i x ∧ x ≤ z j} =
      jointNormal (fun j => Real.log (theta j)) beta (given (labels.map (tag (str "EDP"))) rho)
        {x | ∀ j ∈ S, Real.exp (x j) ≤ z j} := by
  obtain ⟨r, r', hs, hset, hv, hu, h3⟩ := demand_registry h hc (by omega)
  have hv' := fun j hj => hv _ _ (hk j hj)
  simp only [tag_at] at hv'
  rw [← C122_lognormal hs hD hE hset hc i hi S theta beta ht hb hv' (fun j hj => hu _ (hv' j hj)) z hz]
  congr 1
  ext ω
  exact forall₂_congr fun j hj => by rw [← tag_at labels j]; exact (h3 _ _ (hk j hj) ω i (z j)).symm

end

/-! ### Runs that meet the hypotheses -/

theorem applySets_isSome (sets : List (RVSet ℝ)) : ∀ (uni uni' : Dict Str (List ℝ)) (x : Str), applySets sets uni = .ok uni' →
    (uni.get? x).isSome = true → (uni'.get? x).isSome = true := by
  induction sets with
  | nil => intro uni uni' x h hx; simp only [applySets, Except.ok.injEq] at h; rw [← h]; exact hx
  | cons s sets ih =>
    intro uni uni' x h hx
    simp only [applySets] at h
    cases hc : UQ.applyCorrelation s uni with
    | error e => rw [hc] at h; simp at h
    | ok u1 =>
      rw [hc] at h
      refine ih u1 uni' x h ?_
      unfold UQ.applyCorrelation at hc
      split at hc
      · simp at hc
      · cases hc
        exact setRows_isSome _ _ _ _ hx

theorem generate_total_sets {m : Method} (hm : m ≠ .other) (N : Num ℝ) {r : Registry ℝ} (hr : RegInv r) (hc : Closed r)
    (hsets : ∀ s ∈ r.sets.map Prod.snd, ∀ v ∈ s.members, v ∈ r.vars.map Prod.snd) (n : Nat)
    (ha : ∀ v ∈ r.vars.map Prod.snd, DmgSample.AbleOn (fun _ => True) N n v) (perm : Nat → List Nat) (jitter : Nat → List ℝ) :
    ∃ r', generateSample N r n m perm jitter = .ok r' := by
  obtain ⟨uni, hu⟩ := DmgSample.assignUni_total hm n perm jitter r.free 0 r.uni
  have hsome : ∀ v ∈ r.vars.map Prod.snd, (uni.get? v.root.name).isSome = true := by
    intro v hv
    have hfree := root_free hr hc hv
    have hidx : r.free[r.free.idxOf v.root.name]? = some v.root.name := by
      have hlt := List.idxOf_lt_length_iff.2 hfree
      rw [List.getElem?_eq_getElem hlt, List.getElem_idxOf]
    obtain ⟨row, hrow, hget⟩ := (assignUni_spec m n perm jitter r.free 0 _ _ (free_nodup hr) hu).2 _ _ hidx
    rw [hget]
    rfl
  obtain ⟨uni', hu'⟩ := applySets_runs (r.sets.map Prod.snd) uni (fun s hs v hv => hsome v (hsets s hs v hv))
  have hd' : drawUniform r n m perm jitter = .ok uni' := by
    unfold drawUniform
    rw [hu]
    exact hu'
  obtain ⟨st, hst⟩ := DmgSample.transformAll_total (fun _ => True) N n (r.vars.map Prod.snd) (uni', r.samples) ha (by
    intro v hv
    have : (uni'.get? v.root.name).isSome = true := applySets_isSome _ _ _ _ hu' (hsome v hv)
    obtain ⟨row, hrow⟩ := Option.isSome_iff_exists.1 this
    exact ⟨row, hrow, trivial⟩)
  exact ⟨_, by unfold generateSample; rw [hd']; simp only [hst]; rfl⟩

/-- Two demands; the matrix lists them in the other order. -/
noncomputable def exRows : List (Label × Marginal ℝ) :=
  [(DemandGen.exA, .dist (.normal (.const 1 2) none none)), (DemandGen.exB, .dist (.normal (.const 5 3) none none))]

def exLabels : List Label := [DemandGen.exB, DemandGen.exA]

theorem ex_correlation : ∃ f, Correlation (exLabels.map (tag (str "EDP"))) (allPairs 0.6) f := by
  have hd : (exLabels.map (tag (str "EDP"))).Nodup := by decide +kernel
  obtain ⟨f, hf⟩ := exists_valid (stored_symm _ hd _ (allPairs_symm _ 0.6))
  exact ⟨f, hd, two_psd 0.6 (by norm_num), fun _ _ => by simp [allPairs], hf⟩

theorem ex_demand (N : Num ℝ) (he : 0 < N.eps) (n : Nat) (m : Method) (hm : m = .monteCarlo ∨ m = .lhs)
    (f : Factors (CorrSet.init (exLabels.map (tag (str "EDP"))) (allPairs 0.6)).names.length) :
    ∃ (Ω : Type) (_ : MeasurableSpace Ω) (P : Measure Ω) (perm : Ω → Nat → List Nat) (jitter : Ω → Nat → List ℝ)
      (σ : Nat → Ω → Equiv.Perm (Fin n)) (cols : Ω → List (Label × List (Ext ℝ))),
      DemandSampling P N exRows none (some (exLabels, copulaRows f)) false n m perm jitter σ cols := by
  obtain ⟨Ω, mΩ, P, perm, jitter, σ, h⟩ := draws_exist n
  have ht : Tidy 3 (exRows.map Prod.fst) := by
    show Tidy 3 [DemandGen.exA, DemandGen.exB]
    unfold Tidy
    decide
  have ht' : Tidy 3 exLabels := by
    unfold Tidy
    decide
  have hm' : m ≠ .other := by rcases hm with rfl | rfl <;> simp
  have hd : (exLabels.map (tag (str "EDP"))).Nodup := by decide +kernel
  have hcr : ∃ r, createRVs (str "EDP") false none exRows (some (exLabels, copulaRows f)) = .ok r ∧ r.vars =
      [(tag (str "EDP") DemandGen.exA, .mk (tag (str "EDP") DemandGen.exA) (.normal (.const 1 2) none none) none),
        (tag (str "EDP") DemandGen.exB, .mk (tag (str "EDP") DemandGen.exB) (.normal (.const 5 3) none none) none)] :=
    ⟨_, by with_unfolding_all rfl, by with_unfolding_all rfl⟩
  obtain ⟨r, hcr, hvars⟩ := hcr
  obtain ⟨hr, _, ⟨ks, h3, h4⟩, _⟩ := createRVs_spec _ _ _ _ _ _ hcr
  have hset := (created_set hd hcr).1
  have hrun : ∀ ω, ∃ cols, generateDemand N (some exRows) none (some (exLabels, copulaRows f)) false n m (perm ω) (jitter ω) = .ok cols := by
    intro ω
    obtain ⟨r', hr'⟩ := generate_total_sets hm' N hr (created_closed hr (created_root h4)) hset.registered n (by
        rw [hvars]
        simp only [List.map_cons, List.map_nil, List.forall_mem_cons]
        exact ⟨able_normal N _ n _ _ _ _, able_normal N _ n _ _ _ _, by simp⟩) (perm ω) (jitter ω)
    obtain ⟨cols, hcols⟩ := sampleOf_runs N (str "EDP") (by decide) 3 (by omega) exRows ks h3.length_eq (by simp [exRows]) ht _ h4
      n m _ _ r' hr'
    exact ⟨cols, by unfold generateDemand; simp only [hcr]; exact hcols⟩
  choose cols hcols using hrun
  exact ⟨Ω, mΩ, P, perm, jitter, σ, cols, he, ht, by simpa using ht', hm, h, hcols⟩

/-- The two demands have a joint normal distribution with correlation 0.6. -/
example {Ω : Type} [MeasurableSpace Ω] {P : Measure Ω} {perm : Ω → Nat → List Nat} {jitter : Ω → Nat → List ℝ}
    {σ : Nat → Ω → Equiv.Perm (Fin 5)} {cols : Ω → List (Label × List (Ext ℝ))}
    {f : Factors (CorrSet.init (exLabels.map (tag (str "EDP"))) (allPairs 0.6)).names.length}
    (hc : Correlation (exLabels.map (tag (str "EDP"))) (allPairs 0.6) f)
    (h : DemandSampling P (realNum 1) exRows none (some (exLabels, copulaRows f)) false 5 .lhs perm jitter σ cols) :
    P {ω | (∃ x, Entry (cols ω) DemandGen.exB 4 x ∧ x ≤ 7) ∧ ∃ x, Entry (cols ω) DemandGen.exA 4 x ∧ x ≤ 0} =
      jointNormal ![5, 1] ![3, 2] !![1, 0.6; 0.6, 1] {x | x 0 ≤ 7 ∧ x 1 ≤ 0} := by
  have key := C122_demand_normal h rfl hc 4 (by omega) Finset.univ (![5, 1] : Fin 2 → ℝ) (![3, 2] : Fin 2 → ℝ)
    (fun j => (show ∀ j : Fin 2, (0 : ℝ) < (![3, 2] : Fin 2 → ℝ) j by intro j; fin_cases j <;> norm_num) j)
    (by intro j _; fin_cases j <;> simp [exRows, exLabels]) (![7, 0] : Fin 2 → ℝ)
  have e : given (exLabels.map (tag (str "EDP"))) (allPairs 0.6) = (!![1, 0.6; 0.6, 1] : Matrix (Fin 2) (Fin 2) ℝ) := by
    show (Matrix.of fun i j : Fin 2 => allPairs 0.6 i j) = _
    ext i j
    fin_cases i <;> fin_cases j <;> simp [allPairs]
  rw [e] at key
  refine Eq.trans ?_ (key.trans ?_)
  · congr 1
    ext ω
    constructor
    · rintro ⟨h1, h2⟩ j
      revert j
      show ∀ j : Fin 2, _
      intro j
      fin_cases j
      · exact fun _ => h1
      · exact fun _ => h2
    · intro hj
      exact ⟨hj (0 : Fin 2) (Finset.mem_univ _), hj (1 : Fin 2) (Finset.mem_univ _)⟩
  · congr 1
    ext x
    constructor
    · intro hj
      exact ⟨hj (0 : Fin 2) (Finset.mem_univ _), hj (1 : Fin 2) (Finset.mem_univ _)⟩
    · rintro ⟨h1, h2⟩ j
      revert j
      show ∀ j : Fin 2, _
      intro j
      fin_cases j
      · exact fun _ => h1
      · exact fun _ => h2

end Verif.CorrSample
