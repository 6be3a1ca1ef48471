import Verif.Model.DmgSample
import Verif.Props.DemandGen
import Verif.Props.DemandReq
import Verif.Props.DmgBatch
import Verif.Props.DmgEval
import Verif.Props.DmgRVs

/-! # Lemmas about the sample of damage states -/

namespace Verif.DmgSample

open Verif.UQ Verif.FileIO
open Verif.DmgRVs (LSDS LSRow lsds)
open Verif.DmgEval (BlockId LSCell evaluate)
open Verif.DemandReq (PGid)
open Verif.DemandGen (tag rvSample toColumns sampleOf Tidy)

section
variable {F : Type} [Field F] [LinearOrder F]

/-! ### Registries -/

theorem addVars_spec (vs : List (RV F)) : ∀ r r' : Registry F, RegInv r → addVars vs r = .ok r' →
    RegInv r' ∧ r'.sets = r.sets ∧ r'.samples = r.samples ∧ r'.uni = r.uni ∧
      r'.vars = r.vars ++ vs.map fun v => (v.name, v) := by
  induction vs with
  | nil =>
    intro r r' hr h
    simp only [addVars, Except.ok.injEq] at h
    subst h
    exact ⟨hr, rfl, rfl, rfl, by simp⟩
  | cons v vs ih =>
    intro r r' hr h
    simp only [addVars] at h
    cases ha : r.addRV v with
    | error e => rw [ha] at h; simp at h
    | ok r1 =>
      rw [ha] at h
      simp only at h
      obtain ⟨h1, h2⟩ := addRV_inv hr ha
      have h3 : r1.sets = r.sets ∧ r1.samples = r.samples ∧ r1.uni = r.uni := by
        unfold Registry.addRV at ha
        split at ha
        · simp at ha
        · simp only [Except.ok.injEq] at ha
          subst ha
          exact ⟨rfl, rfl, rfl⟩
      obtain ⟨h4, h5, h6, h7, h8⟩ := ih r1 r' h1 h
      exact ⟨h4, h5.trans h3.1, h6.trans h3.2.1, h7.trans h3.2.2, by rw [h8, h2]; simp⟩

theorem addVars_vars {vs : List (RV F)} {r : Registry F} (h : addVars vs {} = .ok r) :
    RegInv r ∧ r.sets = [] ∧ r.vars = vs.map fun v => (v.name, v) := by
  obtain ⟨h1, h2, _, _, h5⟩ := addVars_spec vs {} r RegInv.empty h
  exact ⟨h1, h2, by simpa using h5⟩

theorem addVars_snd {vs : List (RV F)} {r : Registry F} (h : addVars vs {} = .ok r) :
    r.vars.map Prod.snd = vs := by
  rw [(addVars_vars h).2.2, List.map_map]
  simp [Function.comp_def]

variable [FloorRing F]

theorem addVars_nodup {vs : List (RV F)} {r : Registry F} (h : addVars vs {} = .ok r) :
    (vs.map RV.name).Nodup := by
  have := DemandGen.names_nodup (addVars_vars h).1
  rwa [addVars_snd h] at this

/-- The sample of a variable with a uniform sample of its own, also for multinomial variables. -/
theorem transformAll_own (N : Num F) (n : Nat) (vs : List (RV F)) :
    ∀ st st', (vs.map RV.name).Nodup → transformAll N n vs st = .ok st' →
      ∀ v ∈ vs, v.kind.utility = false →
        (∀ w ∈ vs, w.name ≠ v.name → w.root.name ≠ v.root.name) →
        ∃ u s u', st.1.get? v.root.name = some u ∧ v.kind.inverse N u = .ok (s, u') ∧
          st'.2.get? v.name = some s := by
  induction vs with
  | nil => intro st st' _ _ v hv; simp at hv
  | cons v vs ih =>
    intro st st' hnd h w hw hk hm
    rw [List.map_cons, List.nodup_cons] at hnd
    simp only [transformAll] at h
    cases ho : transformOne N n v st with
    | error e => rw [ho] at h; simp at h
    | ok s1 =>
      rw [ho] at h
      simp only at h
      obtain ⟨_, h2, _, h4⟩ := transformOne_spec N n v st s1 ho
      rcases List.mem_cons.1 hw with rfl | hw'
      · have hk' := transformAll_other N n vs s1 st' h w.name
          (fun x hx e => hnd.1 (e ▸ List.mem_map_of_mem hx))
        rw [if_neg (by simp [hk])] at h4
        obtain ⟨u0, s, u', hg, hi, hs, _⟩ := h4
        exact ⟨u0, s, u', hg, hi, by rw [hk', hs]⟩
      · obtain ⟨u, s, u', hg, hi, hs⟩ := ih s1 st' hnd.2 h w hw' hk
          (fun x hx => hm x (List.mem_cons_of_mem _ hx))
        refine ⟨u, s, u', ?_, hi, hs⟩
        rw [← hg]
        exact (h2 _ (fun e => hm v (by simp)
          (fun e => hnd.1 (e ▸ List.mem_map_of_mem hw')) e.symm)).symm

end

/-! ### Uniform draws -/

section
variable {F : Type} [Field F] [LinearOrder F] [IsStrictOrderedRing F] [FloorRing F]

theorem drawRow_unit {m : Method} {n : Nat} {perm : Nat → List Nat} {jitter : Nat → List F}
    (hd : GoodDraws n perm jitter) (i : Nat) {row : List F}
    (h : drawRow m n (perm i) (jitter i) = .ok row) : row.length = n ∧ ∀ u ∈ row, 0 ≤ u ∧ u ≤ 1 := by
  obtain ⟨h1, h2, h3⟩ := hd i
  have hp : (perm i).length = n := by rw [h1.length_eq, List.length_range]
  have hl := drawRow_length hp h2 h
  refine ⟨hl, ?_⟩
  rcases Nat.eq_zero_or_pos n with rfl | hn
  · intro u hu
    rw [List.length_eq_zero_iff.1 hl] at hu
    simp at hu
  · cases m with
    | lhs =>
      have := (drawRow_stratified hn (.inl rfl) h1 h2 h3 h).1
      intro u hu
      have := DemandGen.stratified_nonneg hn this u hu
      exact ⟨this.1, this.2.le⟩
    | lhsMidpoint =>
      have := (drawRow_stratified hn (.inr rfl) h1 h2 h3 h).1
      intro u hu
      have := DemandGen.stratified_nonneg hn this u hu
      exact ⟨this.1, this.2.le⟩
    | monteCarlo =>
      simp only [drawRow, Except.ok.injEq] at h
      subst h
      intro u hu
      exact ⟨(h3 u hu).1, (h3 u hu).2.le⟩
    | other => simp [drawRow] at h

theorem drawUniform_unit {r : Registry F} (hr : RegInv r) (hs : r.sets = []) {n : Nat} {m : Method}
    {perm : Nat → List Nat} {jitter : Nat → List F} (hd : GoodDraws n perm jitter)
    {uni : Dict Str (List F)} (h : drawUniform r n m perm jitter = .ok uni) :
    ∀ x ∈ r.free, ∃ u, uni.get? x = some u ∧ u.length = n ∧ ∀ y ∈ u, 0 ≤ y ∧ y ≤ 1 := by
  unfold drawUniform at h
  cases ha : assignUni m n perm jitter 0 r.free r.uni with
  | error e => rw [ha] at h; simp at h
  | ok uni1 =>
    rw [ha, hs] at h
    simp only [List.map_nil, applySets, Except.ok.injEq] at h
    subst h
    intro x hx
    obtain ⟨j, hj⟩ := List.getElem?_of_mem hx
    obtain ⟨row, h1, h2⟩ := (assignUni_spec m n perm jitter r.free 0 _ _ (free_nodup hr) ha).2 j x hj
    exact ⟨row, h2, drawRow_unit hd _ h1⟩

/-- Of `n` stratified numbers about `n p` are below `p`. -/
theorem stratified_count {n : Nat} (hn : 0 < n) {u : List F} (h : Stratified n u) {p : F} (h0 : 0 ≤ p)
    (h1 : p ≤ 1) : ⌊n * p⌋₊ ≤ u.countP (fun x => decide (x < p)) ∧
      u.countP (fun x => decide (x < p)) ≤ ⌈n * p⌉₊ := by
  have hperm := DemandGen.stratified_perm hn h
  have hu := DemandGen.stratified_nonneg hn h
  have hn' : (0 : F) < n := by exact_mod_cast hn
  have hcount : ∀ m : Nat, m ≤ n →
      u.countP (fun x => decide (⌊x * (n : F)⌋₊ < m)) = m := by
    intro m hm
    have e : u.countP (fun x => decide (⌊x * (n : F)⌋₊ < m)) =
        (u.map fun x : F => ⌊x * (n : F)⌋₊).countP (fun k => decide (k < m)) := by
      rw [List.countP_map]; rfl
    rw [e, hperm.countP_eq]
    have : (List.range n).filter (fun k => decide (k < m)) = List.range m := by
      obtain ⟨k, rfl⟩ := Nat.exists_eq_add_of_le hm
      rw [List.range_add, List.filter_append, List.filter_eq_self.2, List.filter_eq_nil_iff.2]
      · simp
      · intro a ha
        obtain ⟨c, _, rfl⟩ := List.mem_map.1 ha
        simp
      · intro a ha
        simpa using ha
    rw [List.countP_eq_length_filter, this, List.length_range]
  have hnp : (n : F) * p ≤ n := by nlinarith
  have hfl : ⌊(n : F) * p⌋₊ ≤ n := by
    have := Nat.floor_mono hnp
    simpa using this
  have hce : ⌈(n : F) * p⌉₊ ≤ n := Nat.ceil_le.2 hnp
  constructor
  · conv_lhs => rw [← hcount _ hfl]
    refine List.countP_mono_left ?_
    intro x hx hlt
    simp only [decide_eq_true_eq] at hlt ⊢
    have h2 : x * n < ⌊x * (n : F)⌋₊ + 1 := Nat.lt_floor_add_one _
    have h3 : ((⌊x * (n : F)⌋₊ : F) + 1) ≤ (⌊(n : F) * p⌋₊ : F) := by exact_mod_cast hlt
    have h4 : (⌊(n : F) * p⌋₊ : F) ≤ n * p := Nat.floor_le (by positivity)
    have h5 : x * n < p * n := by linarith
    exact lt_of_mul_lt_mul_right h5 hn'.le
  · conv_rhs => rw [← hcount _ hce]
    refine List.countP_mono_left ?_
    intro x hx hlt
    simp only [decide_eq_true_eq] at hlt ⊢
    have h0x := (hu x hx).1
    have h2 : (⌊x * (n : F)⌋₊ : F) ≤ x * n := Nat.floor_le (by positivity)
    have h3 : x * n < p * n := mul_lt_mul_of_pos_right hlt hn'
    have h4 : (n : F) * p ≤ ⌈(n : F) * p⌉₊ := Nat.le_ceil _
    have : (⌊x * (n : F)⌋₊ : F) < ⌈(n : F) * p⌉₊ := by linarith
    exact_mod_cast this

end

/-! ### The variables of a batch -/

section
variable {F : Type} [Field F] [LinearOrder F]

/-- `v` are the variables of limit state `r`, one of `rows`, in block `b` of a performance group. -/
def VarOf (pg : PGid) (rows : List (LSCap F)) (r : LSCap F) (b : Nat) (v : BlockVar F) : Prop :=
  ∃ head rest d k a ds out, pySort lsLe rows = head :: rest ∧ r ∈ rows ∧ r.dist = some d ∧
    anchorOf pg head r b = .ok a ∧ kindAt d b = .ok k ∧ lsds (rows.map LSCap.toRow) = .ok out ∧
    Dict.get? out r.id = some ds ∧
    v = ⟨blockLabel pg b r.id, .mk (tag (str "FRG") (blockLabel pg b r.id)) k a, ds⟩

theorem lsVars_ok {pg : PGid} {n : Nat} {head r : LSCap F} {out : Dict Str LSDS}
    {l : List (BlockVar F)} (h : lsVars pg n head out r = .ok l) :
    (r.dist = none ∧ l = []) ∨ ∃ d ds, r.dist = some d ∧ out.get? r.id = some ds ∧
      List.Forall₂ (fun b v => blockVar pg head r d ds b = .ok v) (List.range n) l := by
  unfold lsVars at h
  split at h
  · simp only [Except.ok.injEq] at h
    exact .inl ⟨by assumption, h.symm⟩
  · split at h
    · simp at h
    · exact .inr ⟨_, _, by assumption, by assumption, mapE_ok_iff.1 h⟩

theorem blockVar_ok {pg : PGid} {head r : LSCap F} {d : CapDist F} {ds : LSDS} {b : Nat}
    {v : BlockVar F} (h : blockVar pg head r d ds b = .ok v) :
    ∃ a k, anchorOf pg head r b = .ok a ∧ kindAt d b = .ok k ∧
      v = ⟨blockLabel pg b r.id, .mk (tag (str "FRG") (blockLabel pg b r.id)) k a, ds⟩ := by
  unfold blockVar at h
  split at h
  · simp at h
  · split at h
    · simp at h
    · simp only [Except.ok.injEq] at h
      exact ⟨_, _, by assumption, by assumption, h.symm⟩

theorem pgVars_ok {pg : PGid} {n : Nat} {rows : List (LSCap F)} {l : List (BlockVar F)}
    (h : pgVars pg n rows = .ok l) :
    (∀ v ∈ l, ∃ r b, b < n ∧ VarOf pg rows r b v) ∧
    ∀ r ∈ rows, r.dist ≠ none → ∀ b < n, ∃ v ∈ l, VarOf pg rows r b v := by
  unfold pgVars at h
  split at h
  · simp at h
  · rename_i out hout
    split at h
    · rename_i hs
      have hnil : rows = [] := by
        have := (pySort_perm lsLe rows)
        rw [hs] at this
        exact List.perm_nil.1 this.symm
      simp only [Except.ok.injEq] at h
      subst h hnil
      exact ⟨by simp, by simp⟩
    · rename_i head rest hs
      split at h
      · simp at h
      · rename_i ll hll
        simp only [Except.ok.injEq] at h
        subst h
        rw [mapE_ok_iff] at hll
        have hmem : ∀ r, r ∈ head :: rest ↔ r ∈ rows := by
          intro r
          rw [← hs]
          exact mem_pySort
        constructor
        · intro v hv
          obtain ⟨x, hx, hvx⟩ := List.mem_flatten.1 hv
          obtain ⟨r, hr, hrx⟩ := forall₂_mem_right hll hx
          rcases lsVars_ok hrx with ⟨_, rfl⟩ | ⟨d, ds, h1, h2, h3⟩
          · simp at hvx
          · obtain ⟨b, hb, hbv⟩ := forall₂_mem_right h3 hvx
            obtain ⟨a, k, h4, h5, h6⟩ := blockVar_ok hbv
            exact ⟨r, b, by simpa using hb, head, rest, d, k, a, ds, out, hs, (hmem r).1 hr, h1, h4, h5,
              hout, h2, h6⟩
        · intro r hr hd b hb
          obtain ⟨x, hx, hrx⟩ := forall₂_mem_left hll ((hmem r).2 hr)
          rcases lsVars_ok hrx with ⟨h1, rfl⟩ | ⟨d, ds, h1, h2, h3⟩
          · exact absurd h1 hd
          · obtain ⟨v, hv, hbv⟩ := forall₂_mem_left h3 (List.mem_range.2 hb)
            obtain ⟨a, k, h4, h5, h6⟩ := blockVar_ok hbv
            exact ⟨v, List.mem_flatten.2 ⟨x, hx, hv⟩, head, rest, d, k, a, ds, out, hs, hr, h1, h4, h5,
              hout, h2, h6⟩

theorem batchVars_ok {caps : PGid → Option (List (LSCap F))} {pgb : List (PGid × Nat)}
    {vars : List (BlockVar F)} (h : batchVars caps pgb = .ok vars) :
    (∀ v ∈ vars, ∃ pg n rows r b, (pg, n) ∈ pgb ∧ caps pg = some rows ∧ b < n ∧ VarOf pg rows r b v) ∧
    ∀ pg n rows r b, (pg, n) ∈ pgb → caps pg = some rows → r ∈ rows → r.dist ≠ none → b < n →
      ∃ v ∈ vars, VarOf pg rows r b v := by
  unfold batchVars at h
  split at h
  · simp at h
  · rename_i ll hll
    simp only [Except.ok.injEq] at h
    subst h
    rw [mapE_ok_iff] at hll
    constructor
    · intro v hv
      obtain ⟨x, hx, hvx⟩ := List.mem_flatten.1 hv
      obtain ⟨e, he, hex⟩ := forall₂_mem_right hll hx
      cases hc : caps e.1 with
      | none => rw [hc] at hex; simp at hex; subst hex; simp at hvx
      | some rows =>
        rw [hc] at hex
        obtain ⟨r, b, h1, h2⟩ := (pgVars_ok hex).1 v hvx
        exact ⟨e.1, e.2, rows, r, b, he, hc, h1, h2⟩
    · intro pg n rows r b he hc hr hd hb
      obtain ⟨x, hx, hex⟩ := forall₂_mem_left hll he
      simp only [hc] at hex
      obtain ⟨v, hv, h2⟩ := (pgVars_ok hex).2 r hr hd b hb
      exact ⟨v, List.mem_flatten.2 ⟨x, hx, hv⟩, h2⟩

theorem VarOf.label {pg : PGid} {rows : List (LSCap F)} {r : LSCap F} {b : Nat} {v : BlockVar F}
    (h : VarOf pg rows r b v) : v.label = blockLabel pg b r.id := by
  obtain ⟨_, _, _, _, _, _, _, _, _, _, _, _, _, _, rfl⟩ := h
  rfl

theorem VarOf.name {pg : PGid} {rows : List (LSCap F)} {r : LSCap F} {b : Nat} {v : BlockVar F}
    (h : VarOf pg rows r b v) : v.cap.name = tag (str "FRG") v.label := by
  obtain ⟨_, _, _, _, _, _, _, _, _, _, _, _, _, _, rfl⟩ := h
  rfl

/-- The limit states of a component have distinct names. -/
theorem id_inj {rows : List (LSCap F)} (hnd : (rows.map (·.id)).Nodup) {r r' : LSCap F} (h : r ∈ rows)
    (h' : r' ∈ rows) (e : r.id = r'.id) : r = r' := List.inj_on_of_nodup_map hnd h h' e

/-- The variable that gives the uniform sample of the block is that of the first limit state. -/
theorem VarOf.root {pg : PGid} {rows : List (LSCap F)} (hnd : (rows.map (·.id)).Nodup) {b : Nat} :
    ∀ {r : LSCap F} {v : BlockVar F}, VarOf pg rows r b v →
    ∃ head d k, (∃ rest, pySort lsLe rows = head :: rest) ∧ head.dist = some d ∧ kindAt d b = .ok k ∧
      v.cap.root = .mk (tag (str "FRG") (blockLabel pg b head.id)) k none := by
  intro r v h
  obtain ⟨head, rest, d, k, a, ds, out, h1, h2, h3, h4, h5, h6, h7, rfl⟩ := h
  unfold anchorOf at h4
  have hh : head ∈ rows := by
    have : head ∈ pySort lsLe rows := by rw [h1]; simp
    exact mem_pySort.1 this
  split at h4
  · rename_i he
    simp only [Except.ok.injEq] at h4
    subst h4
    have := id_inj hnd h2 hh he
    subst this
    exact ⟨r, d, k, ⟨rest, h1⟩, h3, h5, rfl⟩
  · split at h4
    · simp at h4
    · split at h4
      · simp at h4
      · simp only [Except.ok.injEq] at h4
        subst h4
        exact ⟨head, _, _, ⟨rest, h1⟩, by assumption, by assumption, rfl⟩

/-! ### The columns of a batch -/

variable [FloorRing F]

theorem vars_labels_nodup {vars : List (BlockVar F)} (hname : ∀ v ∈ vars, v.cap.name = tag (str "FRG") v.label)
    {r : Registry F} (h : addVars (vars.map (·.cap)) {} = .ok r) : (vars.map (·.label)).Nodup := by
  have h1 := addVars_nodup h
  rw [List.map_map] at h1
  have h2 : vars.map (RV.name ∘ fun x => x.cap) = (vars.map (·.label)).map (tag (str "FRG")) := by
    rw [List.map_map]
    exact List.map_congr_left fun v hv => hname v hv
  rw [h2] at h1
  exact List.Nodup.of_map _ h1

theorem sampleCaps_ok {N : Num F} {vars : List (BlockVar F)} {n : Nat} {m : Method} {dc : Draws F}
    {cap : List (Label × List (Ext F))} (hname : ∀ v ∈ vars, v.cap.name = tag (str "FRG") v.label)
    (ht : Tidy 6 (vars.map (·.label))) (h : sampleCaps N vars n m dc = .ok cap) :
    ∃ r r', addVars (vars.map (·.cap)) {} = .ok r ∧
      generateSample N r n m dc.perm dc.jitter = .ok r' ∧
      cap.Perm (vars.map fun v => (v.label, (r'.samples.get? v.cap.name).getD [])) := by
  unfold sampleCaps at h
  split at h
  · simp at h
  · rename_i r hr
    unfold sampleOf at h
    split at h
    · simp at h
    · rename_i r' hg
      refine ⟨r, r', hr, hg, ?_⟩
      have hv := DemandGen.generate_vars hg
      have hrv : rvSample r' = (vars.map (·.label)).map fun l =>
          (tag (str "FRG") l, (r'.samples.get? (tag (str "FRG") l)).getD []) := by
        unfold rvSample
        rw [hv, (addVars_vars hr).2.2]
        simp only [List.map_map]
        refine List.map_congr_left fun v hv' => ?_
        simp only [Function.comp, hname v hv']
      have hcols : cap.Perm ((vars.map (·.label)).map fun l => (l, (r'.samples.get? (tag (str "FRG") l)).getD [])) := by
        rw [hrv] at h
        by_cases hne : vars.map (·.label) = []
        · rw [hne] at h
          exact absurd h (by simp [toColumns, pySort, Labels.toMulti])
        · obtain ⟨cols, h1, h2⟩ := DemandGen.toColumns_perm (str "FRG") (by decide) 6 (by omega)
            (vars.map (·.label)) hne ht (fun t => (r'.samples.get? t).getD [])
          rw [h1] at h
          simp only [Except.ok.injEq] at h
          subst h
          exact h2
      refine hcols.trans ?_
      rw [List.map_map]
      refine .of_eq (List.map_congr_left fun v hv' => ?_)
      simp only [Function.comp, hname v hv']

end

/-! ### Values of the columns -/

section
variable {F : Type} [Field F] [LinearOrder F] [FloorRing F]

theorem addVars_root_closed {vars : List (BlockVar F)} {r : Registry F}
    (h : addVars (vars.map (·.cap)) {} = .ok r)
    (hroot : ∀ v ∈ vars, ∃ w ∈ vars, w.cap = v.cap.root) : Closed r := by
  intro c hc
  rw [addVars_snd h] at hc
  obtain ⟨v, hv, rfl⟩ := List.mem_map.1 hc
  obtain ⟨w, hw, hwv⟩ := hroot v hv
  rw [← hwv]
  exact vars_get? (addVars_vars h).1 (by rw [addVars_snd h]; exact List.mem_map_of_mem hw)

/-- Every capacity is computed from the uniform sample drawn for its root variable. -/
theorem caps_values {N : Num F} {r r' : Registry F} {n : Nat} {m : Method} {perm : Nat → List Nat}
    {jitter : Nat → List F} (hr : RegInv r) (hs : r.sets = []) (hc : Closed r)
    (hmul : ∀ w ∈ r.vars.map Prod.snd, w.kind.isMultinomial = false)
    (h : generateSample N r n m perm jitter = .ok r') {v : RV F} (hv : v ∈ r.vars.map Prod.snd) :
    v.root.name ∈ r.free ∧ ∃ u s,
      drawRow m n (perm (r.free.idxOf v.root.name)) (jitter (r.free.idxOf v.root.name)) = .ok u ∧
      (v.kind.utility = false ∧ v.kind.inverse N u = .ok (s, u) ∨
        v.kind.utility = true ∧ v.kind.generate n = .ok s) ∧
      r'.samples.get? v.name = some s := by
  have hfree := root_free hr hc hv
  refine ⟨hfree, ?_⟩
  have h0 := h
  unfold generateSample at h
  split at h
  · simp at h
  · rename_i uni hu
    unfold drawUniform at hu
    split at hu
    · simp at hu
    · rename_i uni1 ha
      rw [hs] at hu
      simp only [List.map_nil, applySets, Except.ok.injEq] at hu
      subst hu
      have hidx : r.free[r.free.idxOf v.root.name]? = some v.root.name := by
        have hlt := List.idxOf_lt_length_iff.2 hfree
        rw [List.getElem?_eq_getElem hlt, List.getElem_idxOf]
      obtain ⟨row, hrow, hget⟩ := (assignUni_spec m n perm jitter r.free 0 _ _ (free_nodup hr) ha).2 _ _ hidx
      rw [Nat.zero_add] at hrow
      split at h
      · simp at h
      · rename_i st hst
        simp only [Except.ok.injEq] at h
        have hnd := DemandGen.names_nodup hr
        cases hk : v.kind.utility with
        | true =>
          obtain ⟨s, h1, h2⟩ := DemandGen.generate_utility hr h0 v hv hk
          exact ⟨row, s, hrow, .inr ⟨rfl, h1⟩, h2⟩
        | false =>
          obtain ⟨u, s, u', h1, h2, h3⟩ := transformAll_sample N n _ _ _ hnd hst v hv hk
            (fun w hw hw' => by rw [hmul w hw] at hw'; simp at hw')
          rw [hget] at h1
          obtain rfl := Option.some.inj h1
          have := inverse_pure N v.kind (hmul v hv) _ _ _ h2
          subst this
          exact ⟨_, s, hrow, .inl ⟨rfl, h2⟩, by rw [← h]; exact h3⟩

theorem sampleLsds_ok {NQ : Num F} {vars : List (BlockVar F)} {n : Nat} {m : Method} {dl : Draws F}
    {ls : List (Label × List Int)} (hnd : (vars.map (·.label)).Nodup)
    (ht : Tidy 6 (vars.map (·.label))) (h : sampleLsds NQ vars n m dl = .ok ls) :
    ∃ r r', addVars (vars.map lsdsVar) {} = .ok r ∧
      generateSample NQ r n m dl.perm dl.jitter = .ok r' ∧ (ls.map Prod.fst).Perm (vars.map (·.label)) ∧
      ∀ v ∈ vars, ∃ l, (v.label, l) ∈ ls ∧ List.Forall₂ (fun x y => toInt x = .ok y)
        (mapDs (lsdsOffset v.ds) ((r'.samples.get? (lsdsVar v).name).getD [])) l := by
  unfold sampleLsds at h
  split at h
  · simp at h
  · rename_i r hr
    split at h
    · simp at h
    · rename_i r' hg
      refine ⟨r, r', hr, hg, ?_⟩
      split at h
      · simp at h
      · rename_i cols hcols
        let f : Str → List (Ext F) := fun t =>
          match vars.find? fun v => decide (tag (str "LSDS") v.label = t) with
          | none => []
          | some v => mapDs (lsdsOffset v.ds) ((r'.samples.get? t).getD [])
        have hf : ∀ v ∈ vars, f (tag (str "LSDS") v.label) =
            mapDs (lsdsOffset v.ds) ((r'.samples.get? (tag (str "LSDS") v.label)).getD []) := by
          intro v hv
          simp only [f]
          cases hfind : vars.find? fun w => decide (tag (str "LSDS") w.label = tag (str "LSDS") v.label) with
          | none => exact absurd (List.find?_eq_none.1 hfind v hv) (by simp)
          | some w =>
            have h1 := List.find?_some hfind
            have hw := List.mem_of_find?_eq_some hfind
            simp only [decide_eq_true_eq] at h1
            have h2 := DemandGen.tag_inj (str "LSDS") (by decide)
              (ht _ (List.mem_map_of_mem hw)).2 (ht _ (List.mem_map_of_mem hv)).2 h1
            have h3 : w = v := List.inj_on_of_nodup_map hnd hw hv h2
            rw [h3]
        have hperm : cols.Perm (vars.map fun v => (v.label, f (tag (str "LSDS") v.label))) := by
          have e : (vars.map fun v => (tag (str "LSDS") v.label,
              mapDs (lsdsOffset v.ds) ((r'.samples.get? (tag (str "LSDS") v.label)).getD []))) =
              (vars.map (·.label)).map fun l => (tag (str "LSDS") l, f (tag (str "LSDS") l)) := by
            rw [List.map_map]
            refine List.map_congr_left fun v hv => ?_
            simp only [Function.comp, hf v hv]
          rw [e] at hcols
          by_cases hne : vars.map (·.label) = []
          · rw [hne] at hcols
            exact absurd hcols (by simp [toColumns, pySort, Labels.toMulti])
          · obtain ⟨cols', h1, h2⟩ := DemandGen.toColumns_perm (str "LSDS") (by decide) 6 (by omega)
              (vars.map (·.label)) hne ht f
            rw [h1] at hcols
            simp only [Except.ok.injEq] at hcols
            subst hcols
            rwa [List.map_map] at h2
        have hall := mapE_ok_iff.1 h
        have hcol : ∀ (c : Label × List (Ext F)) y, intColumn c = .ok y → y.1 = c.1 ∧
            List.Forall₂ (fun x y => toInt x = .ok y) c.2 y.2 := by
          intro c y hcy
          unfold intColumn at hcy
          split at hcy
          · simp at hcy
          · rename_i l hl
            simp only [Except.ok.injEq] at hcy
            subst hcy
            exact ⟨rfl, mapE_ok_iff.1 hl⟩
        constructor
        · have e : ls.map Prod.fst = cols.map Prod.fst := by
            clear hcols hperm h
            induction hall with
            | nil => rfl
            | cons h1 _ ih => simp only [List.map_cons, ih, (hcol _ _ h1).1]
          rw [e]
          refine (hperm.map Prod.fst).trans (.of_eq ?_)
          rw [List.map_map]
          rfl
        · intro v hv
          have hc : (v.label, f (tag (str "LSDS") v.label)) ∈ cols :=
            hperm.mem_iff.2 (List.mem_map_of_mem (f := fun v => (v.label, f (tag (str "LSDS") v.label))) hv)
          obtain ⟨y, hy, hyc⟩ := forall₂_mem_left hall hc
          obtain ⟨h1, h2⟩ := hcol _ _ hyc
          refine ⟨y.2, ?_, ?_⟩
          · simp only at h1
            rw [← h1]; exact hy
          · rw [hf v hv] at h2
            exact h2

end

section

/-- The damage states drawn for a limit state. -/
theorem lsds_values {F : Type} [Field F] [LinearOrder F] [FloorRing F] [IsStrictOrderedRing F] {NQ : Num F} {vars : List (BlockVar F)} {r r' : Registry F}
    {n : Nat} {m : Method} {dl : Draws F} (hd : GoodDraws n dl.perm dl.jitter)
    (hr : addVars (vars.map lsdsVar) {} = .ok r)
    (hg : generateSample NQ r n m dl.perm dl.jitter = .ok r') {v : BlockVar F} (hv : v ∈ vars) :
    (lsdsVar v).name ∈ r.free ∧ ∃ us : List F,
      drawRow m n (dl.perm (r.free.idxOf (lsdsVar v).name)) (dl.jitter (r.free.idxOf (lsdsVar v).name)) = .ok us ∧
      us.length = n ∧ (∀ u ∈ us, 0 ≤ u ∧ u ≤ 1) ∧
      mapDs (lsdsOffset v.ds) ((r'.samples.get? (lsdsVar v).name).getD []) =
        (DmgRVs.sampleLsds v.ds us).map Ext.fin := by
  obtain ⟨hinv, hsets, _⟩ := addVars_vars hr
  have hsnd := addVars_snd hr
  have hmem : lsdsVar v ∈ r.vars.map Prod.snd := by rw [hsnd]; exact List.mem_map_of_mem hv
  have hroot : ∀ w ∈ r.vars.map Prod.snd, w.root = w := by
    intro w hw
    rw [hsnd] at hw
    obtain ⟨a, _, rfl⟩ := List.mem_map.1 hw
    rfl
  have hc : Closed r := DemandGen.created_closed hinv hroot
  have hfree : (lsdsVar v).name ∈ r.free := by
    have := root_free hinv hc hmem
    rwa [hroot _ hmem] at this
  refine ⟨hfree, ?_⟩
  have hg0 := hg
  unfold generateSample at hg
  split at hg
  · simp at hg
  · rename_i uni hu
    unfold drawUniform at hu
    split at hu
    · simp at hu
    · rename_i uni1 ha
      rw [hsets] at hu
      simp only [List.map_nil, applySets, Except.ok.injEq] at hu
      subst hu
      have hidx : r.free[r.free.idxOf (lsdsVar v).name]? = some (lsdsVar v).name := by
        have hlt := List.idxOf_lt_length_iff.2 hfree
        rw [List.getElem?_eq_getElem hlt, List.getElem_idxOf]
      obtain ⟨row, hrow, hget⟩ := (assignUni_spec m n dl.perm dl.jitter r.free 0 _ _ (free_nodup hinv) ha).2 _ _ hidx
      rw [Nat.zero_add] at hrow
      obtain ⟨hlen, hunit⟩ := drawRow_unit hd _ hrow
      refine ⟨row, hrow, hlen, hunit, ?_⟩
      split at hg
      · simp at hg
      · rename_i st hst
        simp only [Except.ok.injEq] at hg
        cases hds : v.ds with
        | fixed ds =>
          obtain ⟨s, h1, h2⟩ := DemandGen.generate_utility hinv hg0 (lsdsVar v) hmem
            (by simp [lsdsVar, hds, lsdsKind, RV.kind, RVKind.utility])
          rw [h2]
          simp only [lsdsVar, hds, lsdsKind, RV.kind, RVKind.generate, deterministicInverse, Except.map,
            Except.ok.injEq, List.map_replicate] at h1
          subst h1
          simp [mapDs, lsdsOffset, DmgRVs.sampleLsds, Ext.addF, hlen]
        | drawn ws o =>
          have hk : (lsdsVar v).kind = .multinomial (ws.map fun w : ℚ => (w : F)) := by simp [lsdsVar, hds, lsdsKind, RV.kind]
          obtain ⟨u, s, u', h1, h2, h3⟩ := transformAll_own NQ n _ _ _ (DemandGen.names_nodup hinv) hst _ hmem
            (by rw [hk]; rfl) (fun w hw hne => by rw [hroot w hw, hroot _ hmem]; exact hne)
          rw [hroot _ hmem, hget] at h1
          obtain rfl := Option.some.inj h1
          have h3' : r'.samples.get? (lsdsVar v).name = some s := by rw [← hg]; exact h3
          rw [h3']
          rw [hk] at h2
          simp only [RVKind.inverse, Except.ok.injEq, Prod.mk.injEq] at h2
          rw [← h2.1]
          simp [mapDs, lsdsOffset, DmgRVs.sampleLsds, Ext.addF, Function.comp_def, add_comm]

end

end Verif.DmgSample
