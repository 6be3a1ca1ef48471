import Mathlib.Algebra.Order.Floor.Semifield
import Verif.Model.DemandGen
import Verif.Props.UQRegistry
import Verif.Props.UQFamilies
import Verif.Props.FileIO
import Verif.Lemmas.Lists

/-! # Property C88: generated demand and component samples -/

namespace Verif.DemandGen

open Verif.UQ Verif.FileIO

/-! ### Specification -/

/-- Labels with `k` parts and no dash in any part. -/
def Tidy (k : Nat) (labels : List Label) : Prop :=
  ∀ l ∈ labels, l.length = k ∧ ∀ p ∈ l, '-' ∉ p

/-- A copula returns as many values for each variable as it is given. -/
def KeepsLength {F : Type} (n : Nat) (copula : List (List F) → List (List F)) : Prop :=
  ∀ rows, (∀ row ∈ rows, row.length = n) → ∀ row ∈ copula rows, row.length = n

/-! ### Lemmas -/

section
variable {F : Type} [Field F] [LinearOrder F]

theorem addAll_spec (pre : Str) (preserve : Bool) (emp : Option (Dict Label (List F)))
    (rows : List (Label × Marginal F)) : ∀ r r' : Registry F, RegInv r →
    addAll pre preserve emp rows r = .ok r' →
    RegInv r' ∧ r'.sets = r.sets ∧ r'.samples = r.samples ∧ r'.uni = r.uni ∧
    ∃ ks, List.Forall₂ (fun e k => kindOf preserve emp e = .ok k) rows ks ∧
      r'.vars = r.vars ++ (rows.zip ks).map
        (fun x => (tag pre x.1.1, .mk (tag pre x.1.1) x.2 none)) := by
  induction rows with
  | nil =>
    intro r r' hr h
    simp only [addAll, Except.ok.injEq] at h
    subst h
    exact ⟨hr, rfl, rfl, rfl, [], .nil, by simp⟩
  | cons e rows ih =>
    intro r r' hr h
    simp only [addAll] at h
    cases hk : kindOf preserve emp e with
    | error x => rw [hk] at h; simp at h
    | ok k =>
      rw [hk] at h
      simp only at h
      cases ha : r.addRV (.mk (tag pre e.1) k none) with
      | error x => rw [ha] at h; simp at h
      | ok r1 =>
        rw [ha] at h
        simp only at h
        obtain ⟨h1, h2⟩ := addRV_inv hr ha
        have h3 : r1.sets = r.sets ∧ r1.samples = r.samples ∧ r1.uni = r.uni := by
          unfold Registry.addRV at ha
          split at ha
          · simp at ha
          · cases ha; exact ⟨rfl, rfl, rfl⟩
        obtain ⟨g1, g2, g3, g4, ks, g5, g6⟩ := ih r1 r' h1 h
        refine ⟨g1, g2.trans h3.1, g3.trans h3.2.1, g4.trans h3.2.2, k :: ks, .cons hk g5, ?_⟩
        rw [g6, h2]
        simp [RV.name]

/-- What a successful creation of the variables leaves behind. -/
theorem createRVs_spec (pre : Str) (preserve : Bool) (emp : Option (Dict Label (List F)))
    (rows : List (Label × Marginal F))
    (corr : Option (List Label × (List (List F) → List (List F)))) (r : Registry F)
    (h : createRVs pre preserve emp rows corr = .ok r) :
    RegInv r ∧ r.samples = [] ∧
    (∃ ks, List.Forall₂ (fun e k => kindOf preserve emp e = .ok k) rows ks ∧
      r.vars = (rows.zip ks).map (fun x => (tag pre x.1.1, .mk (tag pre x.1.1) x.2 none))) ∧
    ((corr = none ∧ r.sets = []) ∨ ∃ ls copula vs, corr = some (ls, copula) ∧
      List.Forall₂ (fun l v => r.vars.get? (tag pre l) = some v) ls vs ∧
      r.sets = [(str "EDP_set", ⟨str "EDP_set", pySort (fun a b => strLe a.name b.name) vs,
        copula⟩)]) := by
  unfold createRVs at h
  cases ha : addAll pre preserve emp rows ({} : Registry F) with
  | error x => rw [ha] at h; simp at h
  | ok r0 =>
    rw [ha] at h
    simp only at h
    obtain ⟨h1, h2, h3, _, ks, h5, h6⟩ := addAll_spec pre preserve emp rows {} r0 RegInv.empty ha
    have h6' : r0.vars = (rows.zip ks).map
        (fun x => (tag pre x.1.1, .mk (tag pre x.1.1) x.2 none)) := by rw [h6]; simp
    unfold addCorr at h
    cases corr with
    | none =>
      simp only [Except.ok.injEq] at h
      subst h
      exact ⟨h1, h3, ⟨ks, h5, h6'⟩, .inl ⟨rfl, h2⟩⟩
    | some c =>
      obtain ⟨ls, copula⟩ := c
      simp only at h
      cases hp : pick r0 (ls.map (tag pre)) with
      | error x => rw [hp] at h; simp at h
      | ok vs =>
        rw [hp] at h
        simp only [Except.ok.injEq] at h
        subst h
        refine ⟨h1, h3, ⟨ks, h5, h6'⟩, .inr ⟨ls, copula, vs, rfl, ?_, ?_⟩⟩
        · have := mapE_ok_iff.1 hp
          rw [List.forall₂_map_left_iff] at this
          refine this.imp ?_
          intro l v hv
          simp only [Registry.addRVSet]
          cases hg : r0.vars.get? (tag pre l) with
          | none => rw [hg] at hv; simp at hv
          | some w => rw [hg] at hv; simp only [Except.ok.injEq] at hv; rw [hv]
        · simp only [Registry.addRVSet, h2]
          rfl

/-- All variables are their own anchors. -/
theorem created_root {pre : Str} {rows : List (Label × Marginal F)} {ks : List (RVKind F)}
    {r : Registry F} (h : r.vars = (rows.zip ks).map
      (fun x => (tag pre x.1.1, .mk (tag pre x.1.1) x.2 none))) :
    ∀ v ∈ r.vars.map Prod.snd, v.root = v := by
  intro v hv
  rw [h, List.map_map] at hv
  obtain ⟨x, _, rfl⟩ := List.mem_map.1 hv
  with_unfolding_all rfl

theorem created_closed {r : Registry F} (hr : RegInv r)
    (h : ∀ v ∈ r.vars.map Prod.snd, v.root = v) : Closed r := by
  intro v hv
  rw [h v hv]
  obtain ⟨p, hp, rfl⟩ := List.mem_map.1 hv
  have : p = (p.2.name, p.2) := by rw [← hr.2 p hp]
  rw [this] at hp
  exact (Dict.get?_iff_mem hr.1).2 hp

theorem zip_fst_map {α β γ : Type} (f : α → γ) : ∀ (l : List α) (ks : List β), l.length = ks.length →
    (l.zip ks).map (fun x => f x.1) = l.map f := by
  intro l
  induction l with
  | nil => intro ks _; simp
  | cons a l ih =>
    intro ks h
    cases ks with
    | nil => simp at h
    | cons k ks => simp only [List.zip_cons_cons, List.map_cons, ih ks (by simpa using h)]

theorem zip_mem_of_forall₂ {α β : Type} {R : α → β → Prop} {l : List α} {ks : List β}
    (h : List.Forall₂ R l ks) {a : α} (ha : a ∈ l) : ∃ k, (a, k) ∈ l.zip ks ∧ R a k := by
  induction h with
  | nil => simp at ha
  | cons hr _ ih =>
    rcases List.mem_cons.1 ha with rfl | ha
    · exact ⟨_, by simp, hr⟩
    · obtain ⟨k, h1, h2⟩ := ih ha
      exact ⟨k, by simp [h1], h2⟩

variable [FloorRing F]

/-- The columns of the result: one for each label, with the sample of its variable. -/
theorem toColumns_perm (pre : Str) (hpre : '-' ∉ pre) (nlev : Nat) (hl : 1 ≤ nlev)
    (labels : List Label) (hne : labels ≠ []) (ht : Tidy nlev labels) (f : Str → List (Ext F)) :
    ∃ cols, toColumns pre nlev (labels.map fun l => (tag pre l, f (tag pre l))) = .ok cols ∧
      cols.Perm (labels.map fun l => (l, f (tag pre l))) := by
  have key : ∃ L : List Label, L.Perm labels ∧
      pySort (fun a b => strLe a.1 b.1) (labels.map fun l => (tag pre l, f (tag pre l)))
        = L.map fun l => (tag pre l, f (tag pre l)) := by
    have hp := pySort_perm (fun (a b : Str × List (Ext F)) => strLe a.1 b.1)
      (labels.map fun l => (tag pre l, f (tag pre l)))
    generalize pySort (fun (a b : Str × List (Ext F)) => strLe a.1 b.1)
      (labels.map fun l => (tag pre l, f (tag pre l))) = t at hp
    have hs : ∀ p ∈ t, ∃ l ∈ labels, p = (tag pre l, f (tag pre l)) := by
      intro p hp'
      obtain ⟨l, hl, rfl⟩ := List.mem_map.1 (hp.mem_iff.1 hp')
      exact ⟨l, hl, rfl⟩
    have hsp : ∀ l ∈ labels, (splitChar '-' (tag pre l)).tail = l := by
      intro l hl
      unfold tag
      rw [split_join '-' (pre :: l) (by simp) (by
        intro p hp
        rcases List.mem_cons.1 hp with rfl | hp
        · exact hpre
        · exact (ht l hl).2 p hp)]
      rfl
    refine ⟨t.map fun p => (splitChar '-' p.1).tail, ?_, ?_⟩
    · refine (hp.map _).trans ?_
      rw [List.map_map]
      have : labels.map ((fun p : Str × List (Ext F) => (splitChar '-' p.1).tail) ∘
          fun l => (tag pre l, f (tag pre l))) = labels.map id :=
        List.map_congr_left (fun l hl => hsp l hl)
      rw [this, List.map_id]
    · rw [List.map_map]
      conv_lhs => rw [← List.map_id t]
      refine List.map_congr_left ?_
      intro p hp'
      obtain ⟨l, hl, rfl⟩ := hs p hp'
      simp only [Function.comp, id, hsp l hl]
  obtain ⟨L, hL, hsort⟩ := key
  have hLne : L ≠ [] := by
    intro e; subst e; exact hne (List.perm_nil.1 hL.symm)
  have hmulti : Labels.toMulti (.simple (L.map (tag pre))) = .ok (.multi (nlev + 1) (L.map (pre :: ·))) := by
    have h2 : 2 ≤ nlev + 1 := by omega
    have := (Labels.C06_multi_round_trip (nlev + 1) (L.map (pre :: ·)) h2 (by simpa using hLne) (by
      intro r hr
      obtain ⟨l, hl, rfl⟩ := List.mem_map.1 hr
      simp [(ht l (hL.mem_iff.1 hl)).1])).2 (by
      intro r hr p hp
      obtain ⟨l, hl, rfl⟩ := List.mem_map.1 hr
      rcases List.mem_cons.1 hp with rfl | hp
      · exact hpre
      · exact (ht l (hL.mem_iff.1 hl)).2 p hp)
    simp only [Labels.toSimple, gt_iff_lt, show 1 < nlev + 1 by omega, if_true, List.map_map] at this
    exact this
  have hz : ∀ L : List Label, (((L.map (pre :: ·)).zip
        ((L.map fun l => (tag pre l, f (tag pre l))).map Prod.snd)).filter
          fun c => c.1.head? = some pre).map (fun c => (c.1.tail, c.2))
        = L.map fun l => (l, f (tag pre l)) := by
    intro L
    induction L with
    | nil => rfl
    | cons a L ih =>
      rw [List.map_cons, List.map_cons, List.map_cons, List.zip_cons_cons, List.filter_cons]
      simp only [List.head?_cons, decide_true, if_true, List.map_cons, List.tail_cons]
      rw [ih]
  refine ⟨L.map fun l => (l, f (tag pre l)), ?_, hL.map _⟩
  unfold toColumns
  simp only [hsort]
  rw [show (L.map fun l => (tag pre l, f (tag pre l))).map Prod.fst = L.map (tag pre) by
    rw [List.map_map]; rfl, hmulti]
  simp only [if_true, hz]

/-- The sample of a utility variable. -/
theorem transformAll_utility (N : Num F) (n : Nat) (vs : List (RV F)) :
    ∀ st st', (vs.map RV.name).Nodup → transformAll N n vs st = .ok st' →
      ∀ v ∈ vs, v.kind.utility = true →
        ∃ s, v.kind.generate n = .ok s ∧ st'.2.get? v.name = some s := by
  induction vs with
  | nil => intro st st' _ _ v hv; simp at hv
  | cons v vs ih =>
    intro st st' hnd h w hw hk
    rw [List.map_cons, List.nodup_cons] at hnd
    simp only [transformAll] at h
    cases ho : transformOne N n v st with
    | error e => rw [ho] at h; simp at h
    | ok s1 =>
      rw [ho] at h
      simp only at h
      obtain ⟨_, _, _, h4⟩ := transformOne_spec N n v st s1 ho
      rcases List.mem_cons.1 hw with rfl | hw'
      · rw [if_pos hk] at h4
        obtain ⟨s, g1, g2⟩ := h4
        refine ⟨s, g1, ?_⟩
        rw [transformAll_other N n vs s1 st' h w.name
          (fun x hx e => hnd.1 (e ▸ List.mem_map_of_mem hx)), g2]
      · exact ih s1 st' hnd.2 h w hw' hk

theorem names_nodup {r : Registry F} (hr : RegInv r) :
    ((r.vars.map Prod.snd).map RV.name).Nodup := by
  rw [List.map_map]
  have : r.vars.map (RV.name ∘ Prod.snd) = r.vars.map Prod.fst :=
    List.map_congr_left (fun p hp => (hr.2 p hp).symm)
  rw [this]; exact hr.1

theorem generate_vars {N : Num F} {r r' : Registry F} {n : Nat} {m : Method}
    {perm : Nat → List Nat} {jitter : Nat → List F}
    (h : generateSample N r n m perm jitter = .ok r') : r'.vars = r.vars := by
  unfold generateSample at h
  split at h
  · simp at h
  · split at h
    · simp at h
    · cases h; rfl

theorem generate_utility {N : Num F} {r r' : Registry F} {n : Nat} {m : Method}
    {perm : Nat → List Nat} {jitter : Nat → List F} (hr : RegInv r)
    (h : generateSample N r n m perm jitter = .ok r') (v : RV F)
    (hv : v ∈ r.vars.map Prod.snd) (hk : v.kind.utility = true) :
    ∃ s, v.kind.generate n = .ok s ∧ r'.samples.get? v.name = some s := by
  unfold generateSample at h
  split at h
  · simp at h
  · split at h
    · simp at h
    · rename_i st hst
      cases h
      exact transformAll_utility N n _ _ _ (names_nodup hr) hst v hv hk

/-- The result of the generation, seen from one row of the parameter table. -/
theorem sampleOf_spec (N : Num F) (pre : Str) (hpre : '-' ∉ pre) (nlev : Nat) (hl : 1 ≤ nlev)
    (rows : List (Label × Marginal F)) (ks : List (RVKind F)) (hlen : rows.length = ks.length)
    (ht : Tidy nlev (rows.map Prod.fst)) (r : Registry F)
    (hv : r.vars = (rows.zip ks).map
      (fun x => (tag pre x.1.1, .mk (tag pre x.1.1) x.2 none)))
    (n : Nat) (m : Method) (perm : Nat → List Nat) (jitter : Nat → List F)
    (cols : List (Label × List (Ext F)))
    (h : sampleOf N pre nlev r n m perm jitter = .ok cols) :
    ∃ r', generateSample N r n m perm jitter = .ok r' ∧
      cols.Perm ((rows.map Prod.fst).map fun l => (l, (r'.samples.get? (tag pre l)).getD [])) := by
  unfold sampleOf at h
  cases hg : generateSample N r n m perm jitter with
  | error x => rw [hg] at h; simp at h
  | ok r' =>
    rw [hg] at h
    simp only at h
    have hs : rvSample r' = (rows.map Prod.fst).map
        fun l => (tag pre l, (r'.samples.get? (tag pre l)).getD []) := by
      unfold rvSample
      rw [generate_vars hg, hv, List.map_map, List.map_map]
      exact zip_fst_map (fun e : Label × Marginal F =>
        (tag pre e.1, (r'.samples.get? (tag pre e.1)).getD [])) rows ks hlen
    by_cases hne : rows.map Prod.fst = []
    · rw [hs, hne] at h
      simp [toColumns, pySort, Labels.toMulti] at h
    · obtain ⟨cols', h1, h2⟩ := toColumns_perm pre hpre nlev hl (rows.map Prod.fst) hne ht
        (fun x => (r'.samples.get? x).getD [])
      rw [hs, h1] at h
      cases h
      exact ⟨r', rfl, h2⟩

theorem sampleOf_runs (N : Num F) (pre : Str) (hpre : '-' ∉ pre) (nlev : Nat) (hl : 1 ≤ nlev)
    (rows : List (Label × Marginal F)) (ks : List (RVKind F)) (hlen : rows.length = ks.length)
    (hne : rows ≠ []) (ht : Tidy nlev (rows.map Prod.fst)) (r : Registry F)
    (hv : r.vars = (rows.zip ks).map
      (fun x => (tag pre x.1.1, .mk (tag pre x.1.1) x.2 none)))
    (n : Nat) (m : Method) (perm : Nat → List Nat) (jitter : Nat → List F) (r' : Registry F)
    (hg : generateSample N r n m perm jitter = .ok r') :
    ∃ cols, sampleOf N pre nlev r n m perm jitter = .ok cols := by
  unfold sampleOf
  rw [hg]
  have hs : rvSample r' = (rows.map Prod.fst).map
      fun l => (tag pre l, (r'.samples.get? (tag pre l)).getD []) := by
    unfold rvSample
    rw [generate_vars hg, hv, List.map_map, List.map_map]
    exact zip_fst_map (fun e : Label × Marginal F =>
      (tag pre e.1, (r'.samples.get? (tag pre e.1)).getD [])) rows ks hlen
  obtain ⟨cols', h1, _⟩ := toColumns_perm pre hpre nlev hl (rows.map Prod.fst) (by simpa using hne) ht
    (fun x => (r'.samples.get? x).getD [])
  exact ⟨cols', by simp only [hs, h1]⟩

/-- Everything known about a demand sample that was generated. -/
theorem demand_spec (N : Num F) (rows : List (Label × Marginal F))
    (emp : Option (Dict Label (List F)))
    (corr : Option (List Label × (List (List F) → List (List F))))
    (preserve : Bool) (n : Nat) (m : Method) (perm : Nat → List Nat) (jitter : Nat → List F)
    (ht : Tidy 3 (rows.map Prod.fst)) (cols : List (Label × List (Ext F)))
    (h : generateDemand N (some rows) emp corr preserve n m perm jitter = .ok cols) :
    ∃ r r' ks, createRVs (str "EDP") preserve emp rows corr = .ok r ∧
      generateSample N r n m perm jitter = .ok r' ∧
      List.Forall₂ (fun e k => kindOf preserve emp e = .ok k) rows ks ∧
      r.vars = (rows.zip ks).map
        (fun x => (tag (str "EDP") x.1.1, .mk (tag (str "EDP") x.1.1) x.2 none)) ∧
      cols.Perm ((rows.map Prod.fst).map
        fun l => (l, (r'.samples.get? (tag (str "EDP") l)).getD [])) := by
  unfold generateDemand at h
  simp only at h
  cases hc : createRVs (str "EDP") preserve emp rows corr with
  | error x => rw [hc] at h; simp at h
  | ok r =>
    rw [hc] at h
    simp only at h
    obtain ⟨_, _, ⟨ks, h1, h2⟩, _⟩ := createRVs_spec _ _ _ _ _ _ hc
    obtain ⟨r', h3, h4⟩ := sampleOf_spec N (str "EDP") (by decide) 3 (by omega) rows ks h1.length_eq
      ht r h2 n m perm jitter cols h
    exact ⟨r, r', ks, rfl, h3, h1, h2, h4⟩

theorem var_mem {pre : Str} {rows : List (Label × Marginal F)} {ks : List (RVKind F)}
    {r : Registry F} (h : r.vars = (rows.zip ks).map
      (fun x => (tag pre x.1.1, .mk (tag pre x.1.1) x.2 none)))
    {e : Label × Marginal F} {k : RVKind F} (hm : (e, k) ∈ rows.zip ks) :
    RV.mk (tag pre e.1) k none ∈ r.vars.map Prod.snd := by
  rw [h, List.map_map]
  exact List.mem_map.2 ⟨(e, k), hm, rfl⟩

/-- A variable that is not multinomial keeps its uniform sample. -/
theorem own_uniform {r : Registry F} (hr : RegInv r)
    (hroot : ∀ v ∈ r.vars.map Prod.snd, v.root = v) {v : RV F} (hv : v ∈ r.vars.map Prod.snd)
    (hk : v.kind.isMultinomial = false) :
    ∀ w ∈ r.vars.map Prod.snd, w.kind.isMultinomial = true → w.root.name ≠ v.root.name := by
  intro w hw hwk e
  rw [hroot w hw, hroot v hv] at e
  have h1 := vars_get? hr hw
  rw [e, vars_get? hr hv] at h1
  cases h1
  rw [hk] at hwk
  cases hwk

theorem pyIndex_mem {α : Type} {l : List α} {i : Int} {x : α} (h : pyIndex l i = .ok x) : x ∈ l := by
  unfold pyIndex at h
  split at h
  · cases hg : l[i.toNat]? with
    | none => rw [hg] at h; simp at h
    | some y =>
      rw [hg] at h
      simp only [Except.ok.injEq] at h
      subst h
      exact List.mem_of_getElem? hg
  · split at h
    · cases hg : l[(i + l.length).toNat]? with
      | none => rw [hg] at h; simp at h
      | some y =>
        rw [hg] at h
        simp only [Except.ok.injEq] at h
        subst h
        exact List.mem_of_getElem? hg
    · simp at h

theorem tag_split (x : Label) (hx : ∀ p ∈ x, '-' ∉ p) :
    splitChar '-' (tag (str "EDP") x) = str "EDP" :: x := by
  unfold tag
  rw [split_join '-' _ (by simp)]
  intro p hp
  rcases List.mem_cons.1 hp with rfl | hp
  · decide
  · exact hx p hp

/-- A demand that is not named in the correlation matrix is not in the correlated set. -/
theorem set_other {r : Registry F} (hr : RegInv r)
    {corr : Option (List Label × (List (List F) → List (List F)))}
    (hsets : (corr = none ∧ r.sets = []) ∨ ∃ ls copula vs, corr = some (ls, copula) ∧
      List.Forall₂ (fun l v => r.vars.get? (tag (str "EDP") l) = some v) ls vs ∧
      r.sets = [(str "EDP_set", ⟨str "EDP_set", pySort (fun a b => strLe a.name b.name) vs,
        copula⟩)]) {l : Label} {k : RVKind F}
    (hcorr : ∀ c ∈ corr, Tidy 3 c.1 ∧ l ∉ c.1) (hl : ∀ p ∈ l, '-' ∉ p) :
    ∀ s ∈ r.sets.map Prod.snd, ∀ w ∈ s.members,
      w.name ≠ (RV.mk (tag (str "EDP") l) k none).root.name := by
  intro t hts w hw
  rcases hsets with ⟨_, e⟩ | ⟨ls, copula, vs, e1, e2, e3⟩
  · rw [e] at hts; simp at hts
  · rw [e3] at hts
    simp only [List.map_cons, List.map_nil, List.mem_cons, List.not_mem_nil, or_false] at hts
    subst hts
    have hw' : w ∈ vs := mem_pySort.1 hw
    obtain ⟨l', hl', hg⟩ := forall₂_mem_right e2 hw'
    have hwn : w.name = tag (str "EDP") l' := by
      have := hr.2 _ (Dict.mem_of_get? hg)
      exact this.symm
    rw [hwn, RV.root, RV.name]
    intro e
    obtain ⟨c1, c2⟩ := hcorr (ls, copula) (by rw [e1]; rfl)
    have := congrArg (splitChar '-') e
    rw [tag_split l' (c1 l' hl').2, tag_split l hl] at this
    simp only [List.cons.injEq, true_and] at this
    exact c2 (this ▸ hl')

/-! ### C88: demands -/

/-- C88: the demand sample has exactly one column for each demand of the model, under the same
label, and each column has as many values as realizations were asked for. -/
theorem C88_one_column_for_each_demand (N : Num F) (rows : List (Label × Marginal F))
    (emp : Option (Dict Label (List F)))
    (corr : Option (List Label × (List (List F) → List (List F))))
    (preserve : Bool) (n : Nat) (m : Method) (perm : Nat → List Nat) (jitter : Nat → List F)
    (ht : Tidy 3 (rows.map Prod.fst)) (hp : ∀ i, (perm i).length = n)
    (hj : ∀ i, (jitter i).length = n) (hcop : ∀ c ∈ corr, KeepsLength n c.2)
    (cols : List (Label × List (Ext F)))
    (h : generateDemand N (some rows) emp corr preserve n m perm jitter = .ok cols) :
    (cols.map Prod.fst).Perm (rows.map Prod.fst) ∧ ∀ c ∈ cols, c.2.length = n := by
  obtain ⟨r, r', ks, h1, h2, h3, h4, h5⟩ := demand_spec N rows emp corr preserve n m perm jitter ht
    cols h
  obtain ⟨hr, _, _, hsets⟩ := createRVs_spec _ _ _ _ _ _ h1
  have hroot := created_root h4
  constructor
  · refine (h5.map Prod.fst).trans ?_
    rw [List.map_map]
    have : List.map (Prod.fst ∘ fun l => (l, (r'.samples.get? (tag (str "EDP") l)).getD []))
        (rows.map Prod.fst) = (rows.map Prod.fst).map id := List.map_congr_left (fun _ _ => rfl)
    rw [this, List.map_id]
  · have hlen := C14_all_sampled N r r' n m perm jitter hr (created_closed hr hroot) hp hj (by
      intro s hs
      rcases hsets with ⟨_, e⟩ | ⟨ls, copula, vs, e1, e2, e3⟩
      · rw [e] at hs; simp at hs
      · rw [e3] at hs
        simp only [List.map_cons, List.map_nil, List.mem_cons, List.not_mem_nil, or_false] at hs
        subst hs
        refine ⟨fun v hv => ?_, hcop (ls, copula) (by rw [e1]; rfl)⟩
        have hv' : v ∈ vs := mem_pySort.1 hv
        obtain ⟨l, _, hl⟩ := forall₂_mem_right e2 hv'
        exact List.mem_map.2 ⟨_, Dict.mem_of_get? hl, rfl⟩) h2
    intro c hc
    obtain ⟨l, hl, rfl⟩ := List.mem_map.1 (h5.mem_iff.1 hc)
    obtain ⟨e, he, rfl⟩ := List.mem_map.1 hl
    obtain ⟨k, hk, _⟩ := zip_mem_of_forall₂ h3 he
    obtain ⟨s, hs, hsl⟩ := hlen _ (by rw [generate_vars h2]; exact var_mem h4 hk)
    simp only [RV.name] at hs
    simp only [hs, Option.getD_some, hsl]

/-- C88: with `PreserveRawOrder` the empirical demands are replayed together: realization `i` of
every one of them is row `i mod R` of the raw data, which has `R` rows. -/
theorem C88_raw_order (N : Num F) (rows : List (Label × Marginal F))
    (raw : Dict Label (List F)) (R : Nat) (hR : ∀ l data, raw.get? l = some data → data.length = R)
    (corr : Option (List Label × (List (List F) → List (List F))))
    (n : Nat) (m : Method) (perm : Nat → List Nat) (jitter : Nat → List F)
    (ht : Tidy 3 (rows.map Prod.fst)) (cols : List (Label × List (Ext F)))
    (h : generateDemand N (some rows) (some raw) corr true n m perm jitter = .ok cols) :
    ∀ l, (l, Marginal.empirical) ∈ rows → ∃ data v, raw.get? l = some data ∧ (l, v) ∈ cols ∧
      v.length = n ∧ ∀ i < n, ∃ q, data[i % R]? = some q ∧ v[i]? = some (.fin q) := by
  obtain ⟨r, r', ks, h1, h2, h3, h4, h5⟩ := demand_spec N rows _ corr true n m perm jitter ht
    cols h
  obtain ⟨hr, _⟩ := createRVs_spec _ _ _ _ _ _ h1
  intro l hl
  obtain ⟨k, hk, hkind⟩ := zip_mem_of_forall₂ h3 hl
  simp only [kindOf] at hkind
  cases hg : raw.get? l with
  | none => rw [hg] at hkind; simp at hkind
  | some data =>
    rw [hg] at hkind
    simp only [if_true, Except.ok.injEq] at hkind
    subst hkind
    obtain ⟨s, hs1, hs2⟩ := generate_utility hr h2 _ (var_mem h4 hk) rfl
    simp only [RV.name, RV.kind, RVKind.generate] at hs1 hs2
    have hne : data ≠ [] := by
      rintro rfl
      simp [coupledInverse, Except.map] at hs1
    obtain ⟨t, ht1, ht2, ht3⟩ := C20_replay data n hne
    rw [ht1] at hs1
    simp only [Except.map, Except.ok.injEq] at hs1
    subst hs1
    refine ⟨data, t.map .fin, rfl, ?_, by simpa using ht2, ?_⟩
    · refine h5.mem_iff.2 (List.mem_map.2 ⟨l, List.mem_map.2 ⟨_, hl, rfl⟩, ?_⟩)
      rw [hs2]; rfl
    · intro i hi
      have hlt : i % data.length < data.length := Nat.mod_lt _ (List.length_pos_of_ne_nil hne)
      refine ⟨data[i % data.length], ?_, ?_⟩
      · rw [← hR l data hg]; exact List.getElem?_eq_getElem hlt
      · rw [List.getElem?_map, ht3 i hi, List.getElem?_eq_getElem hlt]; rfl

/-- C88: without `PreserveRawOrder` every value of an empirical demand is one of the raw values
of that demand. -/
theorem C88_raw_values [IsStrictOrderedRing F] (N : Num F) (rows : List (Label × Marginal F))
    (raw : Dict Label (List F))
    (corr : Option (List Label × (List (List F) → List (List F))))
    (n : Nat) (m : Method) (perm : Nat → List Nat) (jitter : Nat → List F)
    (ht : Tidy 3 (rows.map Prod.fst)) (cols : List (Label × List (Ext F)))
    (h : generateDemand N (some rows) (some raw) corr false n m perm jitter = .ok cols) :
    ∀ l, (l, Marginal.empirical) ∈ rows → ∃ data v, raw.get? l = some data ∧ (l, v) ∈ cols ∧
      ∀ x ∈ v, ∃ q ∈ data, x = .fin q := by
  obtain ⟨r, r', ks, h1, h2, h3, h4, h5⟩ := demand_spec N rows _ corr false n m perm jitter ht
    cols h
  obtain ⟨hr, _⟩ := createRVs_spec _ _ _ _ _ _ h1
  intro l hl
  obtain ⟨k, hk, hkind⟩ := zip_mem_of_forall₂ h3 hl
  simp only [kindOf] at hkind
  cases hg : raw.get? l with
  | none => rw [hg] at hkind; simp at hkind
  | some data =>
    rw [hg] at hkind
    simp only [Bool.false_eq_true, if_false, Except.ok.injEq] at hkind
    subst hkind
    have hv := var_mem h4 hk
    obtain ⟨u, s, _, _, _, hi, _, hs, _⟩ := C15_same_uniform N r r' n m perm jitter hr h2 _ _ hv hv
      rfl rfl rfl (own_uniform hr (created_root h4) hv rfl)
    simp only [RV.name, RV.kind, RVKind.inverse] at hi hs
    cases he : empiricalInverse data u with
    | error x => rw [he] at hi; simp [Except.map] at hi
    | ok t =>
      rw [he] at hi
      simp only [Except.map, Except.ok.injEq, Prod.mk.injEq, and_true] at hi
      subst hi
      refine ⟨data, t.map .fin, rfl, ?_, ?_⟩
      · refine h5.mem_iff.2 (List.mem_map.2 ⟨l, List.mem_map.2 ⟨_, hl, rfl⟩, ?_⟩)
        rw [hs]; rfl
      · intro x hx
        obtain ⟨q, hq, rfl⟩ := List.mem_map.1 hx
        obtain ⟨i, _, hi⟩ := forall₂_mem_right (mapE_ok_iff.1 he) hq
        exact ⟨q, pyIndex_mem hi, rfl⟩

/-- C88: a demand with a distribution (neither deterministic nor multinomial) is the transform of
a uniform sample of its own; with a Latin hypercube method, for a demand that is not named in the
correlation matrix, this uniform sample has one value in each of the `n` equal strata. -/
theorem C88_distribution [IsStrictOrderedRing F] (N : Num F) (rows : List (Label × Marginal F))
    (emp : Option (Dict Label (List F)))
    (corr : Option (List Label × (List (List F) → List (List F))))
    (preserve : Bool) (n : Nat) (m : Method) (perm : Nat → List Nat) (jitter : Nat → List F)
    (ht : Tidy 3 (rows.map Prod.fst)) (cols : List (Label × List (Ext F)))
    (h : generateDemand N (some rows) emp corr preserve n m perm jitter = .ok cols) :
    ∀ l k, (l, Marginal.dist k) ∈ rows → k.utility = false → k.isMultinomial = false →
      ∃ u v, (l, v) ∈ cols ∧ k.inverse N u = .ok (v, u) ∧
        (0 < n → m = .lhs ∨ m = .lhsMidpoint → GoodDraws n perm jitter →
          (∀ c ∈ corr, Tidy 3 c.1 ∧ l ∉ c.1) → Stratified n u) := by
  obtain ⟨r, r', ks, h1, h2, h3, h4, h5⟩ := demand_spec N rows _ corr preserve n m perm jitter ht
    cols h
  obtain ⟨hr, _, _, hsets⟩ := createRVs_spec _ _ _ _ _ _ h1
  intro l k hl hu hmul
  obtain ⟨k', hk, hkind⟩ := zip_mem_of_forall₂ h3 hl
  simp only [kindOf, Except.ok.injEq] at hkind
  subst hkind
  have hroot := created_root h4
  have hv := var_mem h4 hk
  have hown := own_uniform hr hroot hv hmul
  obtain ⟨u, s, _, hun, _, hi, _, hs, _⟩ := C15_same_uniform N r r' n m perm jitter hr h2 _ _ hv hv
    hu hu rfl hown
  simp only [RV.name, RV.kind] at hi hs
  refine ⟨u, s, ?_, hi, ?_⟩
  · refine h5.mem_iff.2 (List.mem_map.2 ⟨l, List.mem_map.2 ⟨_, hl, rfl⟩, ?_⟩)
    rw [hs]; rfl
  · intro hn hm hd hcorr
    obtain ⟨row, g1, g2, _⟩ := C13_lhs_stratified N r r' n hn m perm jitter hm hr
      (created_closed hr hroot) hd h2 _ hv (set_other hr hsets hcorr
        (ht l (List.mem_map.2 ⟨_, hl, rfl⟩)).2) hown
    rw [g1] at hun
    cases hun
    exact g2

/-- C88: a deterministic demand has the same value in every realization. -/
theorem C88_deterministic (N : Num F) (rows : List (Label × Marginal F))
    (emp : Option (Dict Label (List F)))
    (corr : Option (List Label × (List (List F) → List (List F))))
    (preserve : Bool) (n : Nat) (m : Method) (perm : Nat → List Nat) (jitter : Nat → List F)
    (ht : Tidy 3 (rows.map Prod.fst)) (cols : List (Label × List (Ext F)))
    (h : generateDemand N (some rows) emp corr preserve n m perm jitter = .ok cols) :
    ∀ l q t, (l, Marginal.dist (.deterministic (q :: t))) ∈ rows →
      (l, List.replicate n (.fin q)) ∈ cols := by
  obtain ⟨r, r', ks, h1, h2, h3, h4, h5⟩ := demand_spec N rows _ corr preserve n m perm jitter ht
    cols h
  obtain ⟨hr, _⟩ := createRVs_spec _ _ _ _ _ _ h1
  intro l q t hl
  obtain ⟨k, hk, hkind⟩ := zip_mem_of_forall₂ h3 hl
  simp only [kindOf, Except.ok.injEq] at hkind
  subst hkind
  obtain ⟨s, hs1, hs2⟩ := generate_utility hr h2 _ (var_mem h4 hk) rfl
  simp only [RV.name, RV.kind, RVKind.generate, deterministicInverse, Except.map,
    Except.ok.injEq, List.map_replicate] at hs1 hs2
  subst hs1
  refine h5.mem_iff.2 (List.mem_map.2 ⟨l, List.mem_map.2 ⟨_, hl, rfl⟩, ?_⟩)
  rw [hs2]; rfl

/-! ### C88: raw data that cover the realizations evenly -/

theorem count_range_div (k : Nat) (hk : 0 < k) (j : Nat) : ∀ R : Nat,
    ((List.range (k * R)).map (· / k)).count j = if j < R then k else 0 := by
  intro R
  induction R with
  | zero => simp
  | succ R ih =>
    rw [Nat.mul_succ, List.range_add, List.map_append, List.count_append, ih, List.map_map]
    have : (List.range k).map ((· / k) ∘ (k * R + ·)) = List.replicate k R := by
      rw [List.eq_replicate_iff]
      refine ⟨by simp, ?_⟩
      intro x hx
      obtain ⟨i, hi, rfl⟩ := List.mem_map.1 hx
      have hi := List.mem_range.1 hi
      simp only [Function.comp]
      rw [Nat.mul_add_div hk, Nat.div_eq_of_lt hi, Nat.add_zero]
    rw [this, List.count_replicate]
    simp only [beq_iff_eq]
    split <;> split <;> split <;> omega

theorem stratified_perm [IsStrictOrderedRing F] {n : Nat} (hn : 0 < n) {u : List F} (h : Stratified n u) :
    (u.map fun x : F => ⌊x * (n : F)⌋₊).Perm (List.range n) := by
  have hnF : (0 : F) < n := Nat.cast_pos.2 hn
  have hsub : List.range n ⊆ u.map fun x : F => ⌊x * (n : F)⌋₊ := by
    intro k hk
    obtain ⟨j, ⟨x, hx, h1, h2⟩, _⟩ := h.2 k (List.mem_range.1 hk)
    refine List.mem_map.2 ⟨x, List.mem_of_getElem? hx, ?_⟩
    rw [div_le_iff₀ hnF] at h1
    rw [lt_div_iff₀ hnF] at h2
    exact (Nat.floor_eq_iff (le_trans (Nat.cast_nonneg k) h1)).2 ⟨h1, h2⟩
  refine List.Perm.symm ((List.nodup_range.subperm hsub).perm_of_length_le ?_)
  simp [h.1]

/-- Values of a stratified row are in the unit interval. -/
theorem stratified_nonneg [IsStrictOrderedRing F] {n : Nat} (hn : 0 < n) {u : List F} (h : Stratified n u) :
    ∀ x ∈ u, 0 ≤ x ∧ x < 1 := by
  have hnF : (0 : F) < n := Nat.cast_pos.2 hn
  have hp := stratified_perm hn h
  have hnd : (u.map fun x : F => ⌊x * (n : F)⌋₊).Nodup := hp.nodup_iff.2 List.nodup_range
  intro x hx
  obtain ⟨i, hi, rfl⟩ := List.mem_iff_getElem.1 hx
  have hk : ⌊u[i] * n⌋₊ < n :=
    List.mem_range.1 (hp.mem_iff.1 (List.mem_map.2 ⟨u[i], hx, rfl⟩))
  obtain ⟨j, ⟨y, hy, h1, h2⟩, _⟩ := h.2 _ hk
  obtain ⟨hj, hjy⟩ := List.getElem?_eq_some_iff.1 hy
  have e : ⌊y * n⌋₊ = ⌊u[i] * n⌋₊ := by
    have h1' := (div_le_iff₀ hnF).1 h1
    have h2' := (lt_div_iff₀ hnF).1 h2
    exact (Nat.floor_eq_iff (le_trans (Nat.cast_nonneg _) h1')).2 ⟨h1', h2'⟩
  have hij : i = j := by
    have hi' : i < (u.map fun x : F => ⌊x * (n : F)⌋₊).length := by simpa using hi
    have hj' : j < (u.map fun x : F => ⌊x * (n : F)⌋₊).length := by simpa using hj
    refine (List.Nodup.getElem_inj_iff hnd (hi := hi') (hj := hj')).1 ?_
    simp only [List.getElem_map]
    rw [hjy, e]
  subst hij
  rw [hjy]
  refine ⟨le_trans (div_nonneg (Nat.cast_nonneg _) hnF.le) h1, lt_of_lt_of_le h2 ?_⟩
  rw [div_le_one hnF]
  exact_mod_cast hk

/-- C88: with a Latin hypercube method and a number of realizations that is a multiple of the
number of raw rows, every row of the raw data of an uncorrelated empirical demand is used the same
number of times. -/
theorem C88_even_resampling [IsStrictOrderedRing F] (N : Num F) (rows : List (Label × Marginal F))
    (raw : Dict Label (List F))
    (corr : Option (List Label × (List (List F) → List (List F))))
    (m : Method) (perm : Nat → List Nat) (jitter : Nat → List F)
    (ht : Tidy 3 (rows.map Prod.fst)) (cols : List (Label × List (Ext F)))
    (k : Nat) (l : Label) (data : List F) (hk : 0 < k) (hdata : raw.get? l = some data)
    (hne : data ≠ []) (hm : m = .lhs ∨ m = .lhsMidpoint)
    (hd : GoodDraws (k * data.length) perm jitter) (hcorr : ∀ c ∈ corr, Tidy 3 c.1 ∧ l ∉ c.1)
    (h : generateDemand N (some rows) (some raw) corr false (k * data.length) m perm jitter
      = .ok cols) (hl : (l, Marginal.empirical) ∈ rows) :
    ∃ used : List Nat, used.length = k * data.length ∧
      (∀ j < data.length, used.count j = k) ∧
      (l, used.filterMap fun j => (data[j]?).map Ext.fin) ∈ cols := by
  have hR : 0 < data.length := List.length_pos_of_ne_nil hne
  have hn : 0 < k * data.length := Nat.mul_pos hk hR
  obtain ⟨r, r', ks, h1, h2, h3, h4, h5⟩ := demand_spec N rows _ corr false _ m perm jitter ht
    cols h
  obtain ⟨hr, _, _, hsets⟩ := createRVs_spec _ _ _ _ _ _ h1
  obtain ⟨k', hk', hkind⟩ := zip_mem_of_forall₂ h3 hl
  simp only [kindOf, hdata, Bool.false_eq_true, if_false, Except.ok.injEq] at hkind
  subst hkind
  have hroot := created_root h4
  have hv := var_mem h4 hk'
  have hown := own_uniform hr hroot hv rfl
  obtain ⟨u, s, _, hun, _, hi, _, hs, _⟩ := C15_same_uniform N r r' _ m perm jitter hr h2 _ _ hv hv
    rfl rfl rfl hown
  obtain ⟨row, g1, g2, _⟩ := C13_lhs_stratified N r r' _ hn m perm jitter hm hr
    (created_closed hr hroot) hd h2 _ hv (set_other hr hsets hcorr
      (ht l (List.mem_map.2 ⟨_, hl, rfl⟩)).2) hown
  rw [g1] at hun
  have hun := Option.some.inj hun
  subst hun
  simp only [RV.name, RV.kind, RVKind.inverse] at hi hs
  obtain ⟨idx, i1, _, i3⟩ := C24_shares data row hne (stratified_nonneg hn g2)
  have hidx : ∀ v ∈ row, idx v = ⌊v * ((k * data.length : Nat) : F)⌋₊ / k := by
    intro v hv
    rw [i3 v hv]
    have hRF : (0 : F) < data.length := Nat.cast_pos.2 hR
    have hkF : (k : F) ≠ 0 := by exact_mod_cast hk.ne'
    have e : ⌊v * ((k * data.length : Nat) : F)⌋₊ / k = ⌊v * data.length⌋₊ := by
      rw [← Nat.floor_div_natCast]
      congr 1
      push_cast
      field_simp
    rw [e, div_le_iff₀ hRF, lt_div_iff₀ hRF]
    have h0 : (0 : F) ≤ v * data.length := mul_nonneg (stratified_nonneg hn g2 v hv).1 hRF.le
    exact ⟨Nat.floor_le h0, Nat.lt_floor_add_one _⟩
  refine ⟨row.map idx, by simpa using g2.1, ?_, ?_⟩
  · intro j hj
    have e : row.map idx = (row.map fun x : F => ⌊x * ((k * data.length : Nat) : F)⌋₊).map (· / k) := by
      rw [List.map_map]
      exact List.map_congr_left hidx
    rw [e, ((stratified_perm hn g2).map (· / k)).count_eq, count_range_div k hk, if_pos hj]
  · rw [i1] at hi
    simp only [Except.map, Except.ok.injEq, Prod.mk.injEq, and_true] at hi
    subst hi
    refine h5.mem_iff.2 (List.mem_map.2 ⟨l, List.mem_map.2 ⟨_, hl, rfl⟩, ?_⟩)
    rw [hs, Option.getD_some, List.filterMap_map, List.map_filterMap]
    rfl

/-! ### C88: correlated demands -/

theorem setRows_nth (vs : List (RV F)) : ∀ (rws : List (List F)) (uni : Dict Str (List F)),
    (vs.map RV.name).Nodup → ∀ (j : Nat) (v : RV F) (row : List F), vs[j]? = some v →
    rws[j]? = some row → (setRows vs rws uni).get? v.name = some row := by
  induction vs with
  | nil => intro rws uni _ j v row hv; simp at hv
  | cons a vs ih =>
    intro rws uni hnd j v row hv hrow
    rw [List.map_cons, List.nodup_cons] at hnd
    cases rws with
    | nil => simp at hrow
    | cons x rws =>
      simp only [setRows]
      cases j with
      | zero =>
        simp only [List.getElem?_cons_zero, Option.some.injEq] at hv hrow
        subst hv; subst hrow
        rw [setRows_get? vs rws _ a.name (fun w hw e => hnd.1 (e ▸ List.mem_map_of_mem hw)),
          Dict.get?_set, if_pos rfl]
      | succ j =>
        simp only [List.getElem?_cons_succ] at hv hrow
        exact ih rws _ hnd.2 j v row hv hrow

theorem map_eq_of_forall₂ {α β : Type} {R : α → β → Prop} {f : β → α} {l : List α} {l' : List β}
    (h : List.Forall₂ R l l') : (∀ a ∈ l, ∀ b, R a b → f b = a) → l'.map f = l := by
  induction h with
  | nil => intro _; rfl
  | cons a _ ih =>
    intro hf
    rw [List.map_cons, hf _ (by simp) _ a, ih (fun x hx => hf x (List.mem_cons_of_mem _ hx))]

/-- C88: the demands named in the correlation matrix are sampled through the copula: there is one
uniform sample per named demand (with a Latin hypercube method it has one value in each of the `n`
equal strata), in the order of the names, and a named demand with a distribution is the transform
of its row of the copula applied to these samples. -/
theorem C88_correlated [IsStrictOrderedRing F] (N : Num F) (rows : List (Label × Marginal F))
    (emp : Option (Dict Label (List F))) (ls : List Label) (hls : ls.Nodup) (htl : Tidy 3 ls)
    (copula : List (List F) → List (List F)) (hcop : ∀ rws, (copula rws).length = rws.length)
    (preserve : Bool) (n : Nat) (m : Method) (perm : Nat → List Nat) (jitter : Nat → List F)
    (ht : Tidy 3 (rows.map Prod.fst)) (cols : List (Label × List (Ext F)))
    (h : generateDemand N (some rows) emp (some (ls, copula)) preserve n m perm jitter = .ok cols) :
    ∃ (order : List Label) (drawn : List (List F)), order.Perm ls ∧
      order.Pairwise (fun a b => strLe (tag (str "EDP") a) (tag (str "EDP") b) = true) ∧
      drawn.length = order.length ∧
      (0 < n → m = .lhs ∨ m = .lhsMidpoint → GoodDraws n perm jitter →
        ∀ u ∈ drawn, Stratified n u) ∧
      ∀ (j : Nat) (l : Label) (k : RVKind F), order[j]? = some l → (l, Marginal.dist k) ∈ rows → k.utility = false →
        k.isMultinomial = false → ∃ u v, (copula drawn)[j]? = some u ∧ (l, v) ∈ cols ∧
          k.inverse N u = .ok (v, u) := by
  obtain ⟨r, r', ks, h1, h2, h3, h4, h5⟩ := demand_spec N rows _ _ preserve n m perm jitter ht
    cols h
  obtain ⟨hr, _, _, hsets⟩ := createRVs_spec _ _ _ _ _ _ h1
  have hroot := created_root h4
  obtain ⟨vs, e2, e3⟩ : ∃ vs, List.Forall₂ (fun l v => r.vars.get? (tag (str "EDP") l) = some v) ls vs ∧
      r.sets = [(str "EDP_set", ⟨str "EDP_set", pySort (fun a b => strLe a.name b.name) vs,
        copula⟩)] := by
    rcases hsets with ⟨e, _⟩ | ⟨ls', copula', vs, e1, e2, e3⟩
    · cases e
    · simp only [Option.some.injEq, Prod.mk.injEq] at e1
      obtain ⟨rfl, rfl⟩ := e1
      exact ⟨vs, e2, e3⟩
  have hname : ∀ v ∈ vs, v ∈ r.vars.map Prod.snd ∧
      ∃ l ∈ ls, v.name = tag (str "EDP") l ∧ (splitChar '-' v.name).tail = l := by
    intro v hv
    obtain ⟨l, hl, hg⟩ := forall₂_mem_right e2 hv
    have hm := Dict.mem_of_get? hg
    have hn : v.name = tag (str "EDP") l := (hr.2 _ hm).symm
    refine ⟨List.mem_map.2 ⟨_, hm, rfl⟩, l, hl, hn, ?_⟩
    rw [hn, tag_split l (htl l hl).2]
    rfl
  have hvs : vs.map (fun v => (splitChar '-' v.name).tail) = ls := by
    refine map_eq_of_forall₂ e2 ?_
    intro l hl v hg
    have hn : v.name = tag (str "EDP") l := (hr.2 _ (Dict.mem_of_get? hg)).symm
    rw [hn, tag_split l (htl l hl).2]
    rfl
  have hMperm := pySort_perm (fun (a b : RV F) => strLe a.name b.name) vs
  have hMsorted := pySort_sorted (le := fun (a b : RV F) => strLe a.name b.name)
    (fun a b => strLe_total a.name b.name) (fun a b c => strLe_trans a.name b.name c.name) vs
  generalize hM : pySort (fun (a b : RV F) => strLe a.name b.name) vs = M at *
  have hMname : ∀ v ∈ M, v ∈ r.vars.map Prod.snd ∧
      v.name = tag (str "EDP") ((splitChar '-' v.name).tail) := by
    intro v hv
    obtain ⟨g1, l, _, g2, g3⟩ := hname v (hMperm.mem_iff.1 hv)
    exact ⟨g1, by rw [g3, g2]⟩
  have hMnd : (M.map RV.name).Nodup := by
    have hnd : (M.map (fun v => (splitChar '-' (RV.name v)).tail)).Nodup := by
      refine (hMperm.map _).nodup_iff.2 ?_
      rw [hvs]; exact hls
    have e : M.map (fun v => (splitChar '-' (RV.name v)).tail)
        = (M.map RV.name).map (fun x => (splitChar '-' x).tail) := by rw [List.map_map]; rfl
    rw [e] at hnd
    exact List.Nodup.of_map _ hnd
  unfold generateSample at h2
  cases hd : drawUniform r n m perm jitter with
  | error e => rw [hd] at h2; simp at h2
  | ok uni =>
    rw [hd] at h2
    simp only at h2
    cases htr : transformAll N n (r.vars.map Prod.snd) (uni, r.samples) with
    | error e => rw [htr] at h2; simp at h2
    | ok st =>
      rw [htr] at h2
      cases h2
      simp only at h5
      unfold drawUniform at hd
      cases ha : assignUni m n perm jitter 0 r.free r.uni with
      | error e => rw [ha] at hd; simp at hd
      | ok u0 =>
        rw [ha] at hd
        simp only [e3, List.map_cons, List.map_nil, applySets] at hd
        obtain ⟨_, hrow⟩ := assignUni_spec m n perm jitter r.free 0 r.uni u0 (free_nodup hr) ha
        unfold applyCorrelation at hd
        simp only at hd
        split at hd
        · cases hd
        · rename_i u1 hu1
          simp only [Except.ok.injEq] at hd
          subst hd
          split at hu1
          · cases hu1
          · rename_i drawn hdrawn
            simp only [Except.ok.injEq] at hu1
            subst hu1
            have hdr := mapE_ok_iff.1 hdrawn
            refine ⟨M.map (fun v => (splitChar '-' v.name).tail), drawn, ?_, ?_, ?_, ?_, ?_⟩
            · rw [← hvs]; exact hMperm.map _
            · rw [List.pairwise_map]
              refine hMsorted.imp_of_mem ?_
              intro a b ha' hb hab
              rw [← (hMname a ha').2, ← (hMname b hb).2]
              exact hab
            · rw [List.length_map]; exact hdr.length_eq.symm
            · intro hn hm hgd u hu
              obtain ⟨v, hv, hvu⟩ := forall₂_mem_right hdr hu
              obtain ⟨j, hj⟩ := List.mem_iff_getElem?.1
                (root_free hr (created_closed hr hroot) (hMname v hv).1)
              obtain ⟨row, hrw, hg⟩ := hrow j _ hj
              unfold Registry.uniOf at hvu
              rw [hg] at hvu
              simp only [Except.ok.injEq] at hvu
              subst hvu
              obtain ⟨d1, d2, d3⟩ := hgd (0 + j)
              exact (drawRow_stratified hn hm d1 d2 d3 hrw).1
            · intro j l k hj hl hu hmul
              rw [List.getElem?_map] at hj
              cases hv : M[j]? with
              | none => rw [hv] at hj; cases hj
              | some v =>
                rw [hv] at hj
                simp only [Option.map_some, Option.some.injEq] at hj
                have hvM : v ∈ M := List.mem_of_getElem? hv
                obtain ⟨k', hk', hkind⟩ := zip_mem_of_forall₂ h3 hl
                simp only [kindOf, Except.ok.injEq] at hkind
                subst hkind
                have hw := var_mem h4 hk'
                have hveq : v = .mk (tag (str "EDP") l) k none := by
                  have a1 := vars_get? hr (hMname v hvM).1
                  have a2 := vars_get? hr hw
                  rw [(hMname v hvM).2, hj] at a1
                  rw [show (RV.mk (tag (str "EDP") l) k none).name = tag (str "EDP") l from rfl, a1] at a2
                  exact Option.some.inj a2
                have hlt : j < (copula drawn).length := by
                  rw [hcop, ← hdr.length_eq]
                  exact (List.getElem?_eq_some_iff.1 hv).1
                have hnth := setRows_nth M (copula drawn) u0 hMnd j v _ hv
                  (List.getElem?_eq_getElem hlt)
                obtain ⟨u, s, u', g1, g2, g3⟩ := transformAll_sample N n _ _ _ (names_nodup hr) htr
                  _ hw hu (own_uniform hr hroot hw hmul)
                have hpure := inverse_pure N _ hmul _ _ _ g2
                subst hpure
                rw [hveq] at hnth
                have g1' : (setRows M (copula drawn) u0).get? (RV.mk (tag (str "EDP") l) k none).name
                    = some u' := g1
                rw [hnth] at g1'
                refine ⟨u', s, ?_, ?_, g2⟩
                · rw [List.getElem?_eq_getElem hlt]; exact g1'
                · refine h5.mem_iff.2 (List.mem_map.2 ⟨l, List.mem_map.2 ⟨_, hl, rfl⟩, ?_⟩)
                  have g3' : Dict.get? st.2 (tag (str "EDP") l) = some s := g3
                  rw [g3']; rfl

/-! ### C88: when a demand sample cannot be generated -/

theorem tag_inj (pre : Str) (hpre : '-' ∉ pre) {a b : Label} (ha : ∀ p ∈ a, '-' ∉ p)
    (hb : ∀ p ∈ b, '-' ∉ p) (h : tag pre a = tag pre b) : a = b := by
  have hdash : ∀ x : Label, (∀ p ∈ x, '-' ∉ p) → splitChar '-' (tag pre x) = pre :: x := by
    intro x hx
    unfold tag
    rw [split_join '-' _ (by simp)]
    intro p hp
    rcases List.mem_cons.1 hp with rfl | hp
    · exact hpre
    · exact hx p hp
  have := congrArg (splitChar '-') h
  rw [hdash a ha, hdash b hb] at this
  simpa using this

/-- With distinct labels, the first row whose variable cannot be built decides. -/
theorem addAll_error (pre : Str) (hpre : '-' ∉ pre) (preserve : Bool)
    (emp : Option (Dict Label (List F))) (x : PyErr) (rows : List (Label × Marginal F)) :
    ∀ r : Registry F, (rows.map Prod.fst).Nodup → (∀ e ∈ rows, ∀ p ∈ e.1, '-' ∉ p) →
    (∀ e ∈ rows, tag pre e.1 ∉ r.vars.keys) →
    (∀ e ∈ rows, kindOf preserve emp e = .error x ∨ ∃ k, kindOf preserve emp e = .ok k) →
    (∃ e ∈ rows, kindOf preserve emp e = .error x) → addAll pre preserve emp rows r = .error x := by
  induction rows with
  | nil => intro r _ _ _ _ ⟨e, he, _⟩; simp at he
  | cons a rows ih =>
    intro r hnd hd hk hall hex
    rw [List.map_cons, List.nodup_cons] at hnd
    simp only [addAll]
    rcases hall a (by simp) with h1 | ⟨k, h1⟩
    · rw [h1]
    · rw [h1]
      have hadd : r.addRV (.mk (tag pre a.1) k none)
          = .ok { r with vars := r.vars ++ [(tag pre a.1, .mk (tag pre a.1) k none)] } := by
        have hkey : (RV.mk (tag pre a.1) k none).name ∉ r.vars.keys := hk a (by simp)
        unfold Registry.addRV
        rw [if_neg (fun hc => hkey ((Dict.contains_iff _ _).1 hc)), Dict.set_of_not_mem hkey]
        rfl
      simp only [hadd]
      refine ih _ hnd.2 (fun e he => hd e (List.mem_cons_of_mem _ he)) ?_
        (fun e he => hall e (List.mem_cons_of_mem _ he)) ?_
      · intro e he hc
        simp only [Dict.keys, List.map_append, List.map_cons, List.map_nil, List.mem_append,
          List.mem_cons, List.not_mem_nil, or_false] at hc
        rcases hc with hc | hc
        · exact hk e (List.mem_cons_of_mem _ he) hc
        · have := tag_inj pre hpre (hd e (List.mem_cons_of_mem _ he)) (hd a (by simp)) hc
          exact hnd.1 (this ▸ List.mem_map.2 ⟨e, he, rfl⟩)
      · obtain ⟨e, he, hee⟩ := hex
        rcases List.mem_cons.1 he with rfl | he
        · rw [h1] at hee; cases hee
        · exact ⟨e, he, hee⟩

/-- C88: a model without parameters is refused; an empirical demand in a model without empirical
data ends in an `AttributeError`, and one without a column in the data in a `KeyError`. -/
theorem C88_refused (N : Num F) (rows : List (Label × Marginal F))
    (emp : Option (Dict Label (List F)))
    (corr : Option (List Label × (List (List F) → List (List F))))
    (preserve : Bool) (n : Nat) (m : Method) (perm : Nat → List Nat) (jitter : Nat → List F) :
    generateDemand N none emp corr preserve n m perm jitter = .error .valueError ∧
    ((rows.map Prod.fst).Nodup → Tidy 3 (rows.map Prod.fst) →
      (emp = none → (∃ l, (l, Marginal.empirical) ∈ rows) →
        generateDemand N (some rows) emp corr preserve n m perm jitter
          = .error .attributeError) ∧
      (∀ raw, emp = some raw → (∃ l, (l, Marginal.empirical) ∈ rows ∧ l ∉ raw.keys) →
        generateDemand N (some rows) emp corr preserve n m perm jitter = .error .keyError)) := by
  refine ⟨rfl, fun hnd ht => ⟨?_, ?_⟩⟩
  · rintro rfl ⟨l, hl⟩
    have : addAll (str "EDP") preserve none rows ({} : Registry F) = .error .attributeError := by
      refine addAll_error _ (by decide) _ _ _ rows {} hnd
        (fun e he => (ht e.1 (List.mem_map.2 ⟨e, he, rfl⟩)).2) (by simp [Dict.keys]) ?_
        ⟨_, hl, rfl⟩
      rintro ⟨l', mg⟩ _
      cases mg with
      | empirical => exact .inl rfl
      | dist k => exact .inr ⟨k, rfl⟩
    simp only [generateDemand, createRVs, this]
  · rintro raw rfl ⟨l, hl, hk⟩
    have : addAll (str "EDP") preserve (some raw) rows ({} : Registry F) = .error .keyError := by
      refine addAll_error _ (by decide) _ _ _ rows {} hnd
        (fun e he => (ht e.1 (List.mem_map.2 ⟨e, he, rfl⟩)).2) (by simp [Dict.keys]) ?_
        ⟨_, hl, ?_⟩
      · rintro ⟨l', mg⟩ _
        cases mg with
        | empirical =>
          simp only [kindOf]
          cases raw.get? l' with
          | none => exact .inl rfl
          | some v => exact .inr ⟨_, rfl⟩
        | dist k => exact .inr ⟨k, rfl⟩
      · simp only [kindOf, (Dict.get?_eq_none_iff _ _).2 hk]
    simp only [generateDemand, createRVs, this]

/-! ### C88: replaying raw data always succeeds -/

theorem assignUni_runs (m : Method) (hm : m ≠ .other) (n : Nat) (perm : Nat → List Nat)
    (jitter : Nat → List F) (names : List Str) : ∀ (i : Nat) (uni : Dict Str (List F)),
    ∃ uni', assignUni m n perm jitter i names uni = .ok uni' := by
  induction names with
  | nil => intro i uni; exact ⟨uni, rfl⟩
  | cons a names ih =>
    intro i uni
    simp only [assignUni]
    cases m with
    | other => exact absurd rfl hm
    | lhs => exact ih _ _
    | lhsMidpoint => exact ih _ _
    | monteCarlo => exact ih _ _

theorem transformAll_runs (N : Num F) (n : Nat) (vs : List (RV F))
    (h : ∀ v ∈ vs, v.kind.utility = true ∧ ∃ s, v.kind.generate n = .ok s) :
    ∀ st, ∃ st', transformAll N n vs st = .ok st' := by
  induction vs with
  | nil => intro st; exact ⟨st, rfl⟩
  | cons v vs ih =>
    intro st
    obtain ⟨h1, s, h2⟩ := h v (by simp)
    have : transformOne N n v st = .ok (st.1, st.2.set v.name s) := by
      unfold transformOne
      rw [if_pos h1, h2]
    simp only [transformAll, this]
    exact ih (fun w hw => h w (List.mem_cons_of_mem _ hw)) _

theorem addAll_runs (pre : Str) (hpre : '-' ∉ pre) (preserve : Bool)
    (emp : Option (Dict Label (List F))) (rows : List (Label × Marginal F)) :
    ∀ r : Registry F, (rows.map Prod.fst).Nodup → (∀ e ∈ rows, ∀ p ∈ e.1, '-' ∉ p) →
    (∀ e ∈ rows, tag pre e.1 ∉ r.vars.keys) →
    (∀ e ∈ rows, ∃ k, kindOf preserve emp e = .ok k) →
    ∃ r', addAll pre preserve emp rows r = .ok r' := by
  induction rows with
  | nil => intro r _ _ _ _; exact ⟨r, rfl⟩
  | cons a rows ih =>
    intro r hnd hd hk hall
    rw [List.map_cons, List.nodup_cons] at hnd
    simp only [addAll]
    obtain ⟨k, h1⟩ := hall a (by simp)
    rw [h1]
    have hadd : r.addRV (.mk (tag pre a.1) k none)
        = .ok { r with vars := r.vars ++ [(tag pre a.1, .mk (tag pre a.1) k none)] } := by
      have hkey : (RV.mk (tag pre a.1) k none).name ∉ r.vars.keys := hk a (by simp)
      unfold Registry.addRV
      rw [if_neg (fun hc => hkey ((Dict.contains_iff _ _).1 hc)), Dict.set_of_not_mem hkey]
      rfl
    simp only [hadd]
    refine ih _ hnd.2 (fun e he => hd e (List.mem_cons_of_mem _ he)) ?_
      (fun e he => hall e (List.mem_cons_of_mem _ he))
    intro e he hc
    simp only [Dict.keys, List.map_append, List.map_cons, List.map_nil, List.mem_append,
      List.mem_cons, List.not_mem_nil, or_false] at hc
    rcases hc with hc | hc
    · exact hk e (List.mem_cons_of_mem _ he) hc
    · have := tag_inj pre hpre (hd e (List.mem_cons_of_mem _ he)) (hd a (by simp)) hc
      exact hnd.1 (this ▸ List.mem_map.2 ⟨e, he, rfl⟩)

/-- C88: replaying raw data does not fail: with distinct demands that are all empirical, data for
each of them and a correlation matrix (if any) over demands of the model, a sample is generated. -/
theorem C88_raw_order_runs (N : Num F) (labels : List Label) (hne : labels ≠ [])
    (hnd : labels.Nodup) (ht : Tidy 3 labels) (raw : Dict Label (List F))
    (hraw : ∀ l ∈ labels, ∃ data, raw.get? l = some data ∧ data ≠ [])
    (corr : Option (List Label × (List (List F) → List (List F))))
    (hcorr : ∀ c ∈ corr, ∀ l ∈ c.1, l ∈ labels)
    (n : Nat) (m : Method) (hm : m ≠ .other) (perm : Nat → List Nat) (jitter : Nat → List F) :
    ∃ cols, generateDemand N (some (labels.map fun l => (l, Marginal.empirical))) (some raw) corr
      true n m perm jitter = .ok cols := by
  have hfst : (labels.map fun l => (l, (Marginal.empirical : Marginal F))).map Prod.fst = labels := by
    rw [List.map_map]
    exact (List.map_congr_left (fun _ _ => rfl)).trans (List.map_id labels)
  have hkinds : ∀ e ∈ labels.map fun l => (l, (Marginal.empirical : Marginal F)),
      ∃ data, data ≠ [] ∧ kindOf true (some raw) e = .ok (.coupledEmpirical data) := by
    intro e he
    obtain ⟨l, hl, rfl⟩ := List.mem_map.1 he
    obtain ⟨data, h1, h2⟩ := hraw l hl
    exact ⟨data, h2, by simp only [kindOf, h1, if_true]⟩
  generalize hrows : (labels.map fun l => (l, (Marginal.empirical : Marginal F))) = rows at *
  have htr : ∀ e ∈ rows, ∀ p ∈ e.1, '-' ∉ p := fun e he =>
    (ht e.1 (hfst ▸ List.mem_map.2 ⟨e, he, rfl⟩)).2
  obtain ⟨r0, hr0⟩ := addAll_runs (str "EDP") (by decide) true (some raw) rows {}
    (by rw [hfst]; exact hnd) htr (by simp [Dict.keys])
    (fun e he => by obtain ⟨d, _, h⟩ := hkinds e he; exact ⟨_, h⟩)
  obtain ⟨h1, h2, h3, h4, ks, h5, h6⟩ := addAll_spec _ _ _ _ {} r0 RegInv.empty hr0
  have h6' : r0.vars = (rows.zip ks).map
      (fun x => (tag (str "EDP") x.1.1, .mk (tag (str "EDP") x.1.1) x.2 none)) := by
    rw [h6]; simp
  have hget : ∀ l ∈ labels, ∃ v ∈ r0.vars.map Prod.snd, v.name = tag (str "EDP") l ∧
      r0.vars.get? (tag (str "EDP") l) = some v := by
    intro l hl
    obtain ⟨e, he, rfl⟩ := List.mem_map.1 (hfst ▸ hl)
    obtain ⟨k, hk, _⟩ := zip_mem_of_forall₂ h5 he
    exact ⟨_, var_mem h6' hk, rfl, vars_get? h1 (var_mem h6' hk)⟩
  -- the registry with the correlated set
  have hcr : ∃ r, addCorr (str "EDP") r0 corr = .ok r := by
    unfold addCorr
    cases corr with
    | none => exact ⟨r0, rfl⟩
    | some c =>
      have : ∃ vs, pick r0 (c.1.map (tag (str "EDP"))) = .ok vs := by
        refine mapE_ok_of_forall ?_
        intro x hx
        obtain ⟨l, hl, rfl⟩ := List.mem_map.1 hx
        obtain ⟨v, _, _, hv⟩ := hget l (hcorr c rfl l hl)
        exact ⟨v, by rw [hv]⟩
      obtain ⟨vs, hvs⟩ := this
      exact ⟨_, by simp only [hvs]; rfl⟩
  obtain ⟨r, hr⟩ := hcr
  have hcreate : createRVs (str "EDP") true (some raw) rows corr = .ok r := by
    simp only [createRVs, hr0, hr]
  obtain ⟨g1, g2, ⟨ks', g3, g4⟩, g5⟩ := createRVs_spec _ _ _ _ _ _ hcreate
  have hroot := created_root g4
  -- the uniform samples
  have hdraw : ∃ uni, drawUniform r n m perm jitter = .ok uni := by
    obtain ⟨u0, hu0⟩ := assignUni_runs m hm n perm jitter r.free 0 r.uni
    unfold drawUniform
    rw [hu0]
    simp only
    rcases g5 with ⟨_, e⟩ | ⟨ls, copula, vs, e1, e2, e3⟩
    · rw [e]; exact ⟨u0, rfl⟩
    · rw [e3]
      simp only [List.map_cons, List.map_nil, applySets]
      have hcor : ∃ u1, applyCorrelation ⟨str "EDP_set",
          pySort (fun a b => strLe a.name b.name) vs, copula⟩ u0 = .ok u1 := by
        unfold applyCorrelation
        split
        · rename_i x hx
          obtain ⟨v, hv, hvx⟩ := mapE_error hx
          obtain ⟨l, _, hl⟩ := forall₂_mem_right e2 (mem_pySort.1 hv)
          have hvm : v ∈ r.vars.map Prod.snd := List.mem_map.2 ⟨_, Dict.mem_of_get? hl, rfl⟩
          obtain ⟨j, hj⟩ := List.mem_iff_getElem?.1 (root_free g1 (created_closed g1 hroot) hvm)
          obtain ⟨row, _, hrow⟩ := (assignUni_spec m n perm jitter r.free 0 r.uni u0
            (free_nodup g1) hu0).2 j _ hj
          unfold Registry.uniOf at hvx
          rw [hrow] at hvx
          cases hvx
        · exact ⟨_, rfl⟩
      obtain ⟨u1, hu1⟩ := hcor
      rw [hu1]
      exact ⟨u1, rfl⟩
  obtain ⟨uni, huni⟩ := hdraw
  have htrans := transformAll_runs N n (r.vars.map Prod.snd) (by
    intro v hv
    rw [g4, List.map_map] at hv
    obtain ⟨x, hx, rfl⟩ := List.mem_map.1 hv
    obtain ⟨e, k⟩ := x
    have hkx : kindOf true (some raw) e = .ok k := by
      have := List.forall₂_iff_zip.1 g3
      exact this.2 hx
    obtain ⟨d, hd, hk⟩ := hkinds e (List.of_mem_zip hx).1
    rw [hk] at hkx
    cases hkx
    obtain ⟨s, hs, _⟩ := C20_replay d n hd
    refine ⟨rfl, s.map .fin, ?_⟩
    simp only [Function.comp, RV.kind, RVKind.generate, hs, Except.map]) (uni, r.samples)
  obtain ⟨st, hst⟩ := htrans
  have hgen : generateSample N r n m perm jitter = .ok { r with uni := st.1, samples := st.2 } := by
    unfold generateSample
    simp only [huni, hst]
  obtain ⟨cols, hcols⟩ := sampleOf_runs N (str "EDP") (by decide) 3 (by omega) rows ks' g3.length_eq
    (by intro e; rw [e] at hfst; exact hne (by rw [← hfst]; rfl)) (by rw [hfst]; exact ht) r g4 n m
    perm jitter _ hgen
  refine ⟨cols, ?_⟩
  simp only [generateDemand, hcreate, hcols]

/-! ### C88: component quantities -/

/-- C88: the component sample has exactly one column for each component of the model, under the
same label; the number of realizations is the one asked for, or else that of the demand sample;
a deterministic quantity is the same in all realizations and any other (not multinomial) quantity
the transform of a uniform sample of its own. -/
theorem C88_component_sample [IsStrictOrderedRing F] (N : Num F) (rows : List (Label × RVKind F))
    (size demand : Option Nat) (m : Method) (perm : Nat → List Nat) (jitter : Nat → List F)
    (ht : Tidy 4 (rows.map Prod.fst)) (cols : List (Label × List (Ext F)))
    (h : generateCmp N (some rows) size demand m perm jitter = .ok cols) :
    ∃ n, (size = some n ∨ size = none ∧ demand = some n) ∧
      (cols.map Prod.fst).Perm (rows.map Prod.fst) ∧
      ((∀ i, (perm i).length = n) → (∀ i, (jitter i).length = n) → ∀ c ∈ cols, c.2.length = n) ∧
      (∀ l q t, (l, RVKind.deterministic (q :: t)) ∈ rows →
        (l, List.replicate n (.fin q)) ∈ cols) ∧
      ∀ l k, (l, k) ∈ rows → k.utility = false → k.isMultinomial = false →
        ∃ u v, (l, v) ∈ cols ∧ k.inverse N u = .ok (v, u) ∧
          (0 < n → m = .lhs ∨ m = .lhsMidpoint → GoodDraws n perm jitter → Stratified n u) := by
  unfold generateCmp at h
  simp only at h
  cases hn : size.or demand with
  | none => rw [hn] at h; simp at h
  | some n =>
    rw [hn] at h
    simp only at h
    have hsize : size = some n ∨ size = none ∧ demand = some n := by
      cases size with
      | none => exact .inr ⟨rfl, by simpa using hn⟩
      | some k => exact .inl (by simpa using hn)
    refine ⟨n, hsize, ?_⟩
    have hfst : (rows.map fun e => (e.1, (Marginal.dist e.2 : Marginal F))).map Prod.fst
        = rows.map Prod.fst := by
      rw [List.map_map]; rfl
    cases hc : createRVs (str "CMP") false none (rows.map fun e => (e.1, .dist e.2)) none with
    | error x => rw [hc] at h; simp at h
    | ok r =>
      rw [hc] at h
      simp only at h
      obtain ⟨hr, _, ⟨ks, h3, h4⟩, hsets⟩ := createRVs_spec _ _ _ _ _ _ hc
      have hs0 : r.sets = [] := by
        rcases hsets with ⟨_, e⟩ | ⟨_, _, _, e, _⟩
        · exact e
        · cases e
      obtain ⟨r', h2, h5⟩ := sampleOf_spec N (str "CMP") (by decide) 4 (by omega) _ ks h3.length_eq
        (by rw [hfst]; exact ht) r h4 n m perm jitter cols h
      rw [hfst] at h5
      have hroot := created_root h4
      have hrow : ∀ l k, (l, k) ∈ rows →
          RV.mk (tag (str "CMP") l) k none ∈ r.vars.map Prod.snd := by
        intro l k hl
        obtain ⟨k', hk', hkind⟩ := zip_mem_of_forall₂ h3
          (List.mem_map.2 ⟨(l, k), hl, rfl⟩ : (l, (Marginal.dist k : Marginal F)) ∈ _)
        simp only [kindOf, Except.ok.injEq] at hkind
        subst hkind
        exact var_mem h4 hk'
      refine ⟨?_, ?_, ?_, ?_⟩
      · refine (h5.map Prod.fst).trans ?_
        rw [List.map_map]
        have : List.map (Prod.fst ∘ fun l => (l, (r'.samples.get? (tag (str "CMP") l)).getD []))
            (rows.map Prod.fst) = (rows.map Prod.fst).map id := List.map_congr_left (fun _ _ => rfl)
        rw [this, List.map_id]
      · intro hp hj c hc'
        have hlen := C14_all_sampled N r r' n m perm jitter hr (created_closed hr hroot) hp hj (by
          intro s hs; rw [hs0] at hs; simp at hs) h2
        obtain ⟨l, hl, rfl⟩ := List.mem_map.1 (h5.mem_iff.1 hc')
        obtain ⟨⟨l, k⟩, he, rfl⟩ := List.mem_map.1 hl
        obtain ⟨s, hs, hsl⟩ := hlen _ (by rw [generate_vars h2]; exact hrow l k he)
        simp only [RV.name] at hs
        simp only [hs, Option.getD_some, hsl]
      · intro l q t hl
        obtain ⟨s, hs1, hs2⟩ := generate_utility hr h2 _ (hrow _ _ hl) rfl
        simp only [RV.name, RV.kind, RVKind.generate, deterministicInverse, Except.map,
          Except.ok.injEq, List.map_replicate] at hs1 hs2
        subst hs1
        refine h5.mem_iff.2 (List.mem_map.2 ⟨l, List.mem_map.2 ⟨_, hl, rfl⟩, ?_⟩)
        rw [hs2]; rfl
      · intro l k hl hu hmul
        have hv := hrow l k hl
        have hown := own_uniform hr hroot hv hmul
        obtain ⟨u, s, _, hun, _, hi, _, hs, _⟩ := C15_same_uniform N r r' n m perm jitter hr h2
          _ _ hv hv hu hu rfl hown
        simp only [RV.name, RV.kind] at hi hs
        refine ⟨u, s, ?_, hi, ?_⟩
        · refine h5.mem_iff.2 (List.mem_map.2 ⟨l, List.mem_map.2 ⟨_, hl, rfl⟩, ?_⟩)
          rw [hs]; rfl
        · intro hn hm hd
          obtain ⟨row, g1, g2, _⟩ := C13_lhs_stratified N r r' n hn m perm jitter hm hr
            (created_closed hr hroot) hd h2 _ hv (by
              intro s hs; rw [hs0] at hs; simp at hs) hown
          rw [g1] at hun
          cases hun
          exact g2

/-- C88: without parameters, or without a number of realizations (neither given nor known from a
demand sample), no component sample is generated. -/
theorem C88_component_refused (N : Num F) (rows : Option (List (Label × RVKind F)))
    (size demand : Option Nat) (m : Method) (perm : Nat → List Nat) (jitter : Nat → List F)
    (h : rows = none ∨ size = none ∧ demand = none) :
    generateCmp N rows size demand m perm jitter = .error .valueError := by
  rcases h with rfl | ⟨rfl, rfl⟩
  · rfl
  · cases rows <;> rfl

end

/-! ### C88: saving and loading a demand model -/

section
variable {D C : Type}

/-- C88, restricted: a model with a correlation matrix that is saved under a fresh prefix and
loaded gives back its correlation and its empirical data; if it has no empirical data, the data
that was in the loading model before stays (so the model that loads has to be fresh). -/
theorem C88_save_load_partial (emp : Option D) (corr : C) :
    loadSources none (saveSources (none, none) (emp, some corr)) = .ok (emp, some corr) ∧
    ∀ (prev : Option D) (old : Option D × Option C) (data : D), loadSources prev (saveSources old (some data, some corr))
      = .ok (some data, some corr) := by
  constructor
  · cases emp <;> rfl
  · intro prev old data; rfl

/-- C88: a model loaded from tables without empirical data has no empirical data, whatever it had
before. -/
theorem C88_dictionary_without_data (prev : Option D) (corr : Option C) :
    loadSources prev (.dict none corr) = .ok (none, corr) := rfl

/-- C88 fails: empirical data given in a dictionary is never used; what the model had before
stays. -/
theorem C88_dictionary_data_ignored (prev : Option D) (data : D) (corr : Option C) :
    loadSources prev (.dict (some data) corr) = .ok (prev, corr) := rfl

/-- C88 fails: a demand model with empirical demands cannot be given as tables: generating a
sample afterwards ends in an `AttributeError`. -/
theorem C88_dictionary_model_unusable {F : Type} [Field F] [LinearOrder F] [FloorRing F]
    (N : Num F) (rows : List (Label × Marginal F)) (hnd : (rows.map Prod.fst).Nodup)
    (ht : Tidy 3 (rows.map Prod.fst)) (he : ∃ l, (l, Marginal.empirical) ∈ rows)
    (raw : Dict Label (List F)) (corr : Option (List Label × (List (List F) → List (List F))))
    (preserve : Bool) (n : Nat) (m : Method) (perm : Nat → List Nat) (jitter : Nat → List F) :
    ∃ st, loadSources none (.dict (some raw) corr) = .ok st ∧
      generateDemand N (some rows) st.1 st.2 preserve n m perm jitter = .error .attributeError :=
  ⟨(none, corr), rfl, ((C88_refused N rows none corr preserve n m perm jitter).2 hnd ht).1 rfl he⟩

/-- C88 fails: a model that was saved without correlation cannot be loaded again, unless an older
correlation file lies under the prefix; that file is then loaded as if it belonged to the model. -/
theorem C88_no_correlation (prev emp : Option D) (old : Option D) (oldCorr : C) :
    loadSources (C := C) prev (saveSources (old, none) (emp, none)) = .error .fileNotFoundError ∧
    (loadSources prev (saveSources (old, some oldCorr) (emp, none))).map Prod.snd
      = .ok (some oldCorr) := by
  constructor
  · rfl
  · cases emp <;> cases old <;> rfl

/-- C88 fails: loading a model that was saved without empirical data keeps the empirical data the
loading model had before. -/
theorem C88_old_data_kept (prev : Option D) (corr : C) :
    loadSources prev (saveSources (none, none) (none, some corr)) = .ok (prev, some corr) := rfl

end

/-! ### Concrete cases -/

section

def exA : Label := [str "PFA", str "1", str "1"]
def exB : Label := [str "PID", str "2", str "1"]
def exC : Label := [str "SA", str "0", str "1"]

def exRows : List (Label × Marginal ℚ) :=
  [(exB, .empirical), (exC, .dist (.deterministic [7])), (exA, .empirical)]

def exRaw : Dict Label (List ℚ) := [(exA, [1, 2]), (exB, [10, 20])]

/-- Replaying two raw rows in four realizations. -/
example : generateDemand ratNum (some exRows) (some exRaw) none true 4 .lhs
      (fun _ => [1, 0, 3, 2]) (fun _ => [0, 0, 0, 0]) =
    .ok [(exA, [.fin 1, .fin 2, .fin 1, .fin 2]), (exB, [.fin 10, .fin 20, .fin 10, .fin 20]),
      (exC, [.fin 7, .fin 7, .fin 7, .fin 7])] := rfl

/-- Resampling the raw rows. -/
example : generateDemand ratNum (some exRows) (some exRaw) (some ([exA], id)) false 4
      .lhsMidpoint (fun _ => [1, 0, 3, 2]) (fun _ => [0, 0, 0, 0]) =
    .ok [(exA, [.fin 1, .fin 1, .fin 2, .fin 2]), (exB, [.fin 10, .fin 10, .fin 20, .fin 20]),
      (exC, [.fin 7, .fin 7, .fin 7, .fin 7])] := by
  with_unfolding_all rfl

example : Tidy 3 (exRows.map Prod.fst) ∧ (exRows.map Prod.fst).Nodup := by
  unfold Tidy; decide

example : generateCmp (F := ℚ) ratNum
      (some [([str "B1", str "1", str "1", str "0"], .deterministic [3]),
        ([str "B1", str "1", str "2", str "0"], .uniform (some 0) (some 8) none none)]) none (some 2)
      .lhsMidpoint (fun _ => [1, 0]) (fun _ => [0, 0]) =
    .ok [([str "B1", str "1", str "1", str "0"], [.fin 3, .fin 3]),
      ([str "B1", str "1", str "2", str "0"], [.fin 6, .fin 2])] := by
  with_unfolding_all rfl

end

end Verif.DemandGen
