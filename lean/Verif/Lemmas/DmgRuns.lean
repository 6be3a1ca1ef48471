import Verif.Lemmas.DmgSample

/-! # Damage calculations that succeed -/

namespace Verif.DmgSample

open Verif.UQ Verif.FileIO
open Verif.DmgEval (BlockId)
open Verif.DemandReq (PGid)
open Verif.DemandGen (tag rvSample toColumns sampleOf Tidy)

section
variable {F : Type} [Field F] [LinearOrder F]

theorem addVars_runs (vs : List (RV F)) : ∀ r : Registry F, (vs.map RV.name).Nodup →
    (∀ v ∈ vs, v.name ∉ r.vars.keys) → RegInv r → ∃ r', addVars vs r = .ok r' := by
  induction vs with
  | nil => intro r _ _ _; exact ⟨r, rfl⟩
  | cons v vs ih =>
    intro r hnd hk hr
    have hc : r.vars.contains v.name = false := by
      by_contra h
      have h1 : r.vars.contains v.name = true := by simpa using h
      exact hk v (by simp) ((Dict.contains_iff _ _).1 h1)
    have hadd : r.addRV v = .ok { r with vars := r.vars.set v.name v } := by
      unfold Registry.addRV
      rw [hc]
      rfl
    have h1 : addVars [v] r = .ok { r with vars := r.vars.set v.name v } := by
      simp only [addVars, hadd]
    obtain ⟨hinv, _, _, _, hvars⟩ := addVars_spec [v] r _ hr h1
    rw [List.map_cons, List.nodup_cons] at hnd
    obtain ⟨r', hr'⟩ := ih { r with vars := r.vars.set v.name v } hnd.2 (by
      intro w hw
      rw [hvars]
      simp only [Dict.keys, List.map_append, List.map_cons, List.map_nil, List.mem_append, List.mem_singleton, not_or]
      refine ⟨hk w (List.mem_cons_of_mem _ hw), ?_⟩
      intro e
      exact hnd.1 (e ▸ List.mem_map_of_mem hw)) hinv
    exact ⟨r', by simp only [addVars, hadd, hr']⟩

variable [FloorRing F]

/-- A variable whose values can be computed. -/
def Able (N : Num F) (n : Nat) (v : RV F) : Prop :=
  if v.kind.utility then ∃ s, v.kind.generate n = .ok s
  else ∀ u, ∃ s, v.kind.inverse N u = .ok s

/-- The same for the uniform samples that meet `Good`. -/
def AbleOn (Good : List F → Prop) (N : Num F) (n : Nat) (v : RV F) : Prop :=
  if v.kind.utility then ∃ s, v.kind.generate n = .ok s
  else ∀ u, Good u → ∃ s u', v.kind.inverse N u = .ok (s, u') ∧ Good u'

theorem able_on {N : Num F} {n : Nat} {v : RV F} (h : Able N n v) : AbleOn (fun _ => True) N n v := by
  unfold Able at h
  unfold AbleOn
  split
  · rename_i hk
    rwa [if_pos hk] at h
  · rename_i hk
    rw [if_neg hk] at h
    intro u _
    obtain ⟨⟨s, u'⟩, hs⟩ := h u
    exact ⟨s, u', hs, trivial⟩

theorem transformAll_total (Good : List F → Prop) (N : Num F) (n : Nat) (vs : List (RV F)) :
    ∀ st : Dict Str (List F) × Dict Str (List (Ext F)), (∀ v ∈ vs, AbleOn Good N n v) →
      (∀ v ∈ vs, ∃ u, st.1.get? v.root.name = some u ∧ Good u) → ∃ st', transformAll N n vs st = .ok st' := by
  induction vs with
  | nil => intro st _ _; exact ⟨st, rfl⟩
  | cons v vs ih =>
    intro st ha hu
    have h1 : ∃ st', transformOne N n v st = .ok st' ∧
        ∀ x, (∃ u, st.1.get? x = some u ∧ Good u) → ∃ u, st'.1.get? x = some u ∧ Good u := by
      have := ha v (by simp)
      unfold AbleOn at this
      unfold transformOne
      split at this
      · rename_i hk
        obtain ⟨s, hs⟩ := this
        rw [if_pos hk, hs]
        exact ⟨_, rfl, fun x h => h⟩
      · rename_i hk
        rw [if_neg hk]
        obtain ⟨u, hu, hg⟩ := hu v (by simp)
        unfold Registry.uniOf
        rw [hu]
        obtain ⟨s, u', hs, hg'⟩ := this u hg
        simp only [hs]
        refine ⟨_, rfl, fun x h => ?_⟩
        by_cases hx : x = v.root.name
        · subst hx
          exact ⟨u', by rw [Dict.get?_set, if_pos rfl], hg'⟩
        · obtain ⟨w, hw, hg⟩ := h
          exact ⟨w, by rw [Dict.get?_set, if_neg (Ne.symm hx)]; exact hw, hg⟩
    obtain ⟨st1, hs1, hk⟩ := h1
    obtain ⟨st', hst'⟩ := ih st1 (fun w hw => ha w (List.mem_cons_of_mem _ hw))
      (fun w hw => hk _ (hu w (List.mem_cons_of_mem _ hw)))
    exact ⟨st', by simp only [transformAll, hs1, hst']⟩

theorem assignUni_total {m : Method} (hm : m ≠ .other) (n : Nat) (perm : Nat → List Nat) (jitter : Nat → List F) (l : List Str) :
    ∀ i uni, ∃ uni', assignUni m n perm jitter i l uni = .ok uni' := by
  induction l with
  | nil => intro i uni; exact ⟨uni, rfl⟩
  | cons a l ih => intro i uni; cases m with
    | other => exact absurd rfl hm
    | lhs => simpa only [assignUni, drawRow] using ih (i + 1) _
    | lhsMidpoint => simpa only [assignUni, drawRow] using ih (i + 1) _
    | monteCarlo => simpa only [assignUni, drawRow] using ih (i + 1) _

theorem generate_total_on (Good : List F → Prop) {m : Method} (hm : m ≠ .other) (N : Num F) {r : Registry F} (hr : RegInv r)
    (hs : r.sets = []) (hc : Closed r) (n : Nat) (ha : ∀ v ∈ r.vars.map Prod.snd, AbleOn Good N n v) (perm : Nat → List Nat)
    (jitter : Nat → List F) (hd : ∀ k row, drawRow m n (perm k) (jitter k) = .ok row → Good row) :
    ∃ r', generateSample N r n m perm jitter = .ok r' := by
  obtain ⟨uni, hu⟩ := assignUni_total hm n perm jitter r.free 0 r.uni
  have hd' : drawUniform r n m perm jitter = .ok uni := by
    unfold drawUniform
    rw [hu, hs]
    rfl
  obtain ⟨st, hst⟩ := transformAll_total Good N n (r.vars.map Prod.snd) (uni, r.samples) ha (by
    intro v hv
    have hfree := root_free hr hc hv
    have hidx : r.free[r.free.idxOf v.root.name]? = some v.root.name := by
      have hlt := List.idxOf_lt_length_iff.2 hfree
      rw [List.getElem?_eq_getElem hlt, List.getElem_idxOf]
    obtain ⟨row, hrow, hget⟩ := (assignUni_spec m n perm jitter r.free 0 _ _ (free_nodup hr) hu).2 _ _ hidx
    exact ⟨row, hget, hd _ row hrow⟩)
  exact ⟨_, by unfold generateSample; rw [hd']; simp only [hst]; rfl⟩

theorem generate_total {m : Method} (hm : m ≠ .other) (N : Num F) {r : Registry F} (hr : RegInv r) (hs : r.sets = []) (hc : Closed r) (n : Nat)
    (ha : ∀ v ∈ r.vars.map Prod.snd, Able N n v) (perm : Nat → List Nat) (jitter : Nat → List F) :
    ∃ r', generateSample N r n m perm jitter = .ok r' :=
  generate_total_on (fun _ => True) hm N hr hs hc n (fun v hv => able_on (ha v hv)) perm jitter fun _ _ _ => trivial

theorem toColumns_total (pre : Str) (hpre : '-' ∉ pre) {vars : List (BlockVar F)} (hne : vars ≠ [])
    (hnd : (vars.map (·.label)).Nodup) (ht : Tidy 6 (vars.map (·.label))) (g : BlockVar F → List (Ext F)) :
    ∃ cols, toColumns pre 6 (vars.map fun v => (tag pre v.label, g v)) = .ok cols ∧
      cols.Perm (vars.map fun v => (v.label, g v)) := by
  let f : Str → List (Ext F) := fun t =>
    match vars.find? fun v => decide (tag pre v.label = t) with
    | none => []
    | some v => g v
  have hf : ∀ v ∈ vars, f (tag pre v.label) = g v := by
    intro v hv
    simp only [f]
    cases hfind : vars.find? fun w => decide (tag pre w.label = tag pre v.label) with
    | none => exact absurd (List.find?_eq_none.1 hfind v hv) (by simp)
    | some w =>
      have h1 := List.find?_some hfind
      have hw := List.mem_of_find?_eq_some hfind
      simp only [decide_eq_true_eq] at h1
      have h2 := DemandGen.tag_inj pre hpre
        (ht _ (List.mem_map_of_mem hw)).2 (ht _ (List.mem_map_of_mem hv)).2 h1
      have h3 : w = v := List.inj_on_of_nodup_map hnd hw hv h2
      rw [h3]
  obtain ⟨cols, h1, h2⟩ := DemandGen.toColumns_perm pre hpre 6 (by omega)
    (vars.map (·.label)) (by simpa using hne) ht f
  refine ⟨cols, ?_, ?_⟩
  · rw [← h1, List.map_map]
    congr 1
    exact List.map_congr_left fun v hv => by simp only [Function.comp, hf v hv]
  · refine h2.trans (.of_eq ?_)
    rw [List.map_map]
    exact List.map_congr_left fun v hv => by simp only [Function.comp, hf v hv]

theorem tags_nodup (pre : Str) (hpre : '-' ∉ pre) {vars : List (BlockVar F)} (hnd : (vars.map (·.label)).Nodup)
    (ht : Tidy 6 (vars.map (·.label))) : (vars.map fun v => tag pre v.label).Nodup := by
  have : vars.map (fun v => tag pre v.label) = (vars.map (·.label)).map (tag pre) := by simp
  rw [this]
  refine hnd.map_on ?_
  intro a ha b hb e
  exact DemandGen.tag_inj pre hpre (ht _ ha).2 (ht _ hb).2 e

theorem sampleCaps_total {m : Method} (hm : m ≠ .other) (N : Num F) {vars : List (BlockVar F)} (hne : vars ≠ [])
    (hname : ∀ v ∈ vars, v.cap.name = tag (str "FRG") v.label) (hnd : (vars.map (·.label)).Nodup)
    (ht : Tidy 6 (vars.map (·.label))) (hroot : ∀ v ∈ vars, ∃ w ∈ vars, w.cap = v.cap.root) (n : Nat)
    (ha : ∀ v ∈ vars, Able N n v.cap) (dc : Draws F) :
    ∃ cap, sampleCaps N vars n m dc = .ok cap ∧ (cap.map Prod.fst).Perm (vars.map (·.label)) := by
  obtain ⟨r, hr⟩ := addVars_runs (vars.map (·.cap)) {} (by
    rw [List.map_map]
    have e : vars.map (RV.name ∘ fun v => v.cap) = vars.map fun v => tag (str "FRG") v.label :=
      List.map_congr_left fun v hv => hname v hv
    rw [e]
    exact tags_nodup _ (by decide) hnd ht) (by simp [Dict.keys]) RegInv.empty
  obtain ⟨hinv, hsets, hvars⟩ := addVars_vars hr
  obtain ⟨r', hr'⟩ := generate_total hm N hinv hsets (addVars_root_closed hr hroot) n (by
    rw [addVars_snd hr]
    intro v hv
    obtain ⟨w, hw, rfl⟩ := List.mem_map.1 hv
    exact ha w hw) dc.perm dc.jitter
  obtain ⟨cols, h1, h2⟩ := toColumns_total (str "FRG") (by decide) hne hnd ht fun v => (r'.samples.get? v.cap.name).getD []
  refine ⟨cols, ?_, ?_⟩
  · unfold sampleCaps
    rw [hr]
    simp only
    unfold sampleOf
    rw [hr']
    simp only
    rw [← h1]
    congr 1
    unfold rvSample
    rw [DemandGen.generate_vars hr', hvars, List.map_map, List.map_map]
    exact List.map_congr_left fun v hv => by simp only [Function.comp, hname v hv]
  · refine (h2.map Prod.fst).trans (.of_eq ?_)
    rw [List.map_map]
    rfl

theorem able_lsds (N : Num F) (n : Nat) (v : BlockVar F) : Able N n (lsdsVar v) := by
  unfold Able lsdsVar
  cases v.ds with
  | fixed d =>
    simp [lsdsKind, RV.kind, RVKind.utility, RVKind.generate, deterministicInverse]
    exact ⟨_, rfl⟩
  | drawn ws o =>
    simp only [lsdsKind, RV.kind, RVKind.utility, RVKind.inverse, Bool.false_eq_true, if_false]
    exact fun u => ⟨_, rfl⟩

theorem intColumn_total (c : Label × List (Ext F)) (h : ∃ l : List F, c.2 = l.map Ext.fin) :
    ∃ y, intColumn c = .ok y := by
  obtain ⟨l, hl⟩ := h
  have : mapE toInt c.2 = .ok (l.map pyTrunc) := by
    rw [hl, mapE_ok_iff, List.forall₂_map_left_iff, List.forall₂_map_right_iff]
    exact List.forall₂_same.2 fun x _ => rfl
  exact ⟨_, by unfold intColumn; rw [this]⟩

end

section
variable {F : Type} [Field F] [LinearOrder F] [FloorRing F] [IsStrictOrderedRing F]

theorem sampleLsds_total {m : Method} (hm : m ≠ .other) (N : Num F) {vars : List (BlockVar F)} (hne : vars ≠ [])
    (hnd : (vars.map (·.label)).Nodup) (ht : Tidy 6 (vars.map (·.label))) (n : Nat) (dl : Draws F)
    (hd : GoodDraws n dl.perm dl.jitter) : ∃ ls, sampleLsds N vars n m dl = .ok ls := by
  obtain ⟨r, hr⟩ := addVars_runs (vars.map lsdsVar) {} (by
    rw [List.map_map]
    exact tags_nodup (str "LSDS") (by decide) hnd ht) (by simp [Dict.keys]) RegInv.empty
  obtain ⟨hinv, hsets, hvars⟩ := addVars_vars hr
  have hroot : ∀ w ∈ r.vars.map Prod.snd, w.root = w := by
    intro w hw
    rw [addVars_snd hr] at hw
    obtain ⟨a, _, rfl⟩ := List.mem_map.1 hw
    rfl
  obtain ⟨r', hr'⟩ := generate_total hm N hinv hsets (DemandGen.created_closed hinv hroot) n (by
    rw [addVars_snd hr]
    intro v hv
    obtain ⟨w, hw, rfl⟩ := List.mem_map.1 hv
    exact able_lsds N n w) dl.perm dl.jitter
  obtain ⟨cols, h1, h2⟩ := toColumns_total (str "LSDS") (by decide) hne hnd ht fun v =>
    mapDs (lsdsOffset v.ds) ((r'.samples.get? (tag (str "LSDS") v.label)).getD [])
  obtain ⟨ls, hls⟩ : ∃ ls, mapE intColumn cols = .ok ls := by
    have : ∀ c ∈ cols, ∃ y, intColumn c = .ok y := by
      intro c hc
      obtain ⟨v, hv, rfl⟩ := List.mem_map.1 (h2.mem_iff.1 hc)
      refine intColumn_total _ ?_
      obtain ⟨_, us, _, _, _, he⟩ := lsds_values hd hr hr' hv
      exact ⟨_, he⟩
    clear h1 h2
    induction cols with
    | nil => exact ⟨[], rfl⟩
    | cons c cols ih =>
      obtain ⟨y, hy⟩ := this c (by simp)
      obtain ⟨l, hl⟩ := ih fun c hc => this c (List.mem_cons_of_mem _ hc)
      exact ⟨y :: l, by simp [mapE, hy, hl]⟩
  refine ⟨ls, ?_⟩
  unfold sampleLsds
  rw [hr]
  simp only [hr', h1, hls]

/-- A batch whose variables can be sampled and whose demands are available succeeds. -/
theorem runBatch_total (N : Num F) (x : Input F) (pgb : List (PGid × Nat)) {vars : List (BlockVar F)}
    (hv : batchVars x.caps pgb = .ok vars) (hne : vars ≠ [])
    (hname : ∀ v ∈ vars, v.cap.name = tag (str "FRG") v.label) (hnd : (vars.map (·.label)).Nodup)
    (ht : Tidy 6 (vars.map (·.label))) (hroot : ∀ v ∈ vars, ∃ w ∈ vars, w.cap = v.cap.root)
    (ha : ∀ v ∈ vars, Able N x.size v.cap) (hm : x.method ≠ .other)
    {d : PGid → List (Option ℚ)} (hdem : batchDemand x (pgb.map Prod.fst) = .ok d)
    (hcol : ∀ pg ∈ pgb.map Prod.fst, ∃ v ∈ vars, pgOf (blockOf v.label).1 = pg) (dc dl : Draws F)
    (hd : GoodDraws x.size dl.perm dl.jitter) : ∃ rows, runBatch N N x dc dl pgb = .ok rows := by
  obtain ⟨cap, h1, h2⟩ := sampleCaps_total hm N hne hname hnd ht hroot x.size ha dc
  obtain ⟨ls, h3⟩ := sampleLsds_total hm N hne hnd ht x.size dl hd
  have h4 : checkColumns cap (pgb.map Prod.fst) = .ok () := by
    unfold checkColumns
    rw [if_pos]
    intro pg hpg
    obtain ⟨v, hv, e⟩ := hcol pg hpg
    obtain ⟨c, hc, e'⟩ := List.mem_map.1 (h2.mem_iff.2 (List.mem_map_of_mem (f := fun v : BlockVar F => v.label) hv))
    exact ⟨c, hc, by rw [e']; exact e⟩
  unfold runBatch
  rw [hv]
  simp only [generateBatch, h1, h3, hdem, h4]
  exact ⟨_, rfl⟩

end

end Verif.DmgSample
