import Verif.Model.LossLf
import Verif.Props.DemandReq
import Verif.Lemmas.Lists
import Verif.Lemmas.PySort
import Verif.Lemmas.Curve
import Mathlib.Data.List.Nodup
import Mathlib.Data.List.Dedup
import Mathlib.Tactic.Ring
import Mathlib.Tactic.FieldSimp

/-!
# Properties C55 and C79

C55: the number of blocks does not matter for losses from loss functions.  C79: loss maps of components
with loss functions.
-/

namespace Verif.LossLf

open DemandReq

/-! ## What a performance group contributes -/

structure Core where
  loss : Str
  medians : List (Option ℚ)
  q : List ℚ

def core (params : Params) (inp : Input) (edps : List (Group × (List Str × Expression)))
    (demand : Dict (List Str × Expression) (List (Option ℚ))) (g : Group) : Except PyErr Core :=
  match inp.lossMap.getE g.pg.cmp with
  | .error e => .error e
  | .ok loss =>
  match lookupEdp edps loss g.dv g.pg with
  | .error e => .error e
  | .ok edp =>
  match demand.getE edp with
  | .error e => .error e
  | .ok values =>
  match params.getE (g.pg.cmp, g.dv) with
  | .error e => .error e
  | .ok p =>
  match mapE (lossFunction p.points) values with
  | .error e => .error e
  | .ok medians =>
  match inp.qty.getE g.pg with
  | .error e => .error e
  | .ok q => .ok ⟨loss, medians, q⟩

def expand (g : Group) (c : Core) : List (BlockKey × List (Option ℚ)) :=
  (List.range g.blocks).map fun block =>
    (⟨g.dv, c.loss, g.pg, block⟩, List.zipWith (fun m q => blockMedian q g.blocks m) c.medians c.q)

def okey (k : BlockKey) : OutKey := ⟨k.dv, k.loss, k.pg⟩

theorem mapE_err {α β : Type} (e : PyErr) (l : List α) (h : l ≠ []) : mapE (fun _ : α => (Except.error e : Except PyErr β)) l = .error e := by
  cases l with
  | nil => exact absurd rfl h
  | cons a l => rfl

theorem mapE_map_ok {α β : Type} (f : α → β) (l : List α) : mapE (fun a => (Except.ok (f a) : Except PyErr β)) l = .ok (l.map f) := by
  induction l with
  | nil => rfl
  | cons a l ih => simp [mapE, ih]

def mapX {β γ : Type} (f : β → γ) : Except PyErr β → Except PyErr γ
  | .error e => .error e
  | .ok x => .ok (f x)

theorem groupMedians_eq (params : Params) (inp : Input) (edps : List (Group × (List Str × Expression)))
    (demand : Dict (List Str × Expression) (List (Option ℚ))) (g : Group) (hn : 1 ≤ g.blocks) :
    groupMedians params inp edps demand g = mapX (expand g) (core params inp edps demand g) := by
  unfold groupMedians core
  cases inp.lossMap.getE g.pg.cmp with
  | error e => rfl
  | ok loss =>
  cases h1 : lookupEdp edps loss g.dv g.pg with
  | error e => simp only [h1, mapX]
  | ok edp =>
  cases h2 : demand.getE edp with
  | error e => simp only [h1, h2, mapX]
  | ok values =>
  cases h3 : params.getE (g.pg.cmp, g.dv) with
  | error e => simp only [h1, h2, mapX]
  | ok p =>
  cases h4 : mapE (lossFunction p.points) values with
  | error e => simp only [h1, h2, h4, mapX]
  | ok medians =>
  simp only [h1, h2, h4]
  cases h5 : inp.qty.getE g.pg with
  | error e =>
    exact mapE_err e _ (by
      intro h; rw [List.range_eq_nil] at h; omega)
  | ok q => exact mapE_map_ok _ _

theorem mapE_core {α β γ : Type} {f : α → Except PyErr γ} {c : α → Except PyErr β} {h : α → β → γ} : ∀ {l : List α},
    (∀ a ∈ l, f a = mapX (h a) (c a)) →
    mapE f l = mapX (List.zipWith h l) (mapE c l) := by
  intro l
  induction l with
  | nil => intro _; rfl
  | cons a l ih =>
    intro hf
    have h1 := hf a (by simp)
    have h2 := ih fun b hb => hf b (List.mem_cons_of_mem _ hb)
    simp only [mapE]
    rw [h1]
    cases hc : c a with
    | error e => rfl
    | ok x =>
      simp only [mapX]
      rw [h2]
      cases hm : mapE c l with
      | error e => rfl
      | ok xs => rfl

theorem mapE_congr₂ {α β γ : Type} {f : α → Except PyErr γ} {f' : β → Except PyErr γ} {l : List α} {l' : List β}
    (h : List.Forall₂ (fun a b => f a = f' b) l l') : mapE f l = mapE f' l' := by
  induction h with
  | nil => rfl
  | cons h _ ih => simp only [mapE]; rw [h, ih]

section
variable {F : Type} [Field F] [LinearOrder F] [IsStrictOrderedRing F]

/-! ## Sums over blocks -/

theorem sumColumns_nil_or (c : List (Option F)) (cs : List (List (Option F))) (h : cs ≠ []) :
    sumColumns (c :: cs) = List.zipWith (fun x s => x.getD 0 + s) c (sumColumns cs) := by
  cases cs with
  | nil => exact absurd rfl h
  | cons a cs => rfl

theorem dedup_keys : ∀ {keys : List OutKey} {css : List (List (BlockKey × List (Option F)))},
    List.Forall₂ (fun k cs => cs ≠ [] ∧ ∀ c ∈ cs, okey c.1 = k) keys css → keys.Nodup →
    (css.flatten.map fun c => okey c.1).dedup = keys := by
  intro keys css h
  induction h with
  | nil => intro _; rfl
  | @cons k cs keys css hk h ih =>
    intro hnd
    rw [List.nodup_cons] at hnd
    have ih := ih hnd.2
    rw [List.flatten_cons, List.map_append]
    obtain ⟨hne, hall⟩ := hk
    have hnot : k ∉ css.flatten.map fun c => okey c.1 := by
      intro hin
      rw [← List.mem_dedup, ih] at hin
      exact hnd.1 hin
    revert hne hall
    induction cs with
    | nil => intro hne; exact absurd rfl hne
    | cons c cs ihc =>
      intro _ hall
      rw [List.map_cons, hall c (by simp), List.cons_append]
      by_cases hcs : cs = []
      · subst hcs
        rw [List.map_nil, List.nil_append, List.dedup_cons_of_notMem hnot, ih]
      · have := ihc hcs fun c hc => hall c (List.mem_cons_of_mem _ hc)
        rw [List.dedup_cons_of_mem, this]
        rw [← List.mem_dedup, this]; simp

theorem filter_keys : ∀ {keys : List OutKey} {css : List (List (BlockKey × List (Option F)))},
    List.Forall₂ (fun k cs => cs ≠ [] ∧ ∀ c ∈ cs, okey c.1 = k) keys css → keys.Nodup →
    List.Forall₂ (fun k cs => (css.flatten.filter fun c => decide (okey c.1 = k)) = cs) keys css := by
  intro keys css h
  induction h with
  | nil => intro _; exact .nil
  | @cons k cs keys css hk h ih =>
    intro hnd
    rw [List.nodup_cons] at hnd
    have hd := dedup_keys h hnd.2
    have ih := ih hnd.2
    refine .cons ?_ ?_
    · rw [List.flatten_cons, List.filter_append]
      have e1 : (cs.filter fun c => decide (okey c.1 = k)) = cs := by
        rw [List.filter_eq_self]
        intro c hc
        simpa using hk.2 c hc
      have e2 : (css.flatten.filter fun c => decide (okey c.1 = k)) = [] := by
        rw [List.filter_eq_nil_iff]
        intro c hc
        have : okey c.1 ∈ keys := by rw [← hd, List.mem_dedup]; exact List.mem_map.2 ⟨c, hc, rfl⟩
        simp only [decide_eq_true_eq]
        intro he
        rw [he] at this
        exact hnd.1 this
      rw [e1, e2, List.append_nil]
    · have hmem : ∀ k' ∈ keys, (cs.filter fun c => decide (okey c.1 = k')) = [] := by
        intro k' hk'
        rw [List.filter_eq_nil_iff]
        intro c hc
        rw [hk.2 c hc]
        simp only [decide_eq_true_eq]
        intro he
        rw [he] at hnd
        exact hnd.1 hk'
      clear h hd hk
      have : ∀ {ks : List OutKey} {ds : List (List (BlockKey × List (Option F)))} , (∀ k' ∈ ks, k' ∈ keys) →
          List.Forall₂ (fun k cs => (css.flatten.filter fun c => decide (okey c.1 = k)) = cs) ks ds →
          List.Forall₂ (fun k cs' => ((cs :: css).flatten.filter fun c => decide (okey c.1 = k)) = cs') ks ds := by
        intro ks ds hsub hf
        induction hf with
        | nil => exact .nil
        | @cons k' d ks ds hh _ ih' =>
          refine .cons ?_ (ih' fun x hx => hsub x (List.mem_cons_of_mem _ hx))
          rw [List.flatten_cons, List.filter_append, hmem k' (hsub k' (by simp)), List.nil_append]
          exact hh
      exact this (fun _ h => h) ih

theorem sumBlocks_flatten {keys : List OutKey} {css : List (List (BlockKey × List (Option F)))}
    (h : List.Forall₂ (fun k cs => cs ≠ [] ∧ ∀ c ∈ cs, okey c.1 = k) keys css) (hnd : keys.Nodup) :
    sumBlocks css.flatten = List.zipWith (fun k cs => (k, sumColumns (cs.map (·.2)))) keys css := by
  have hd := dedup_keys h hnd
  have hf := filter_keys h hnd
  unfold sumBlocks
  have e : (css.flatten.map fun c => (⟨c.1.dv, c.1.loss, c.1.pg⟩ : OutKey)).dedup = keys := hd
  rw [e]
  clear e hd h
  have : ∀ {ks : List OutKey} {ds : List (List (BlockKey × List (Option F)))},
      List.Forall₂ (fun k cs => (css.flatten.filter fun c => decide (okey c.1 = k)) = cs) ks ds →
      (ks.map fun k => (k, sumColumns ((css.flatten.filter fun c => decide (okey c.1 = k)).map (·.2)))) =
        List.zipWith (fun k cs => (k, sumColumns (cs.map (·.2)))) ks ds := by
    intro ks ds hf
    induction hf with
    | nil => rfl
    | cons hh _ ih => rw [List.map_cons, List.zipWith_cons_cons, hh, ih]
  exact this hf

/-! ## The groups -/

theorem groupsOf_nodup {params : Params} {inp : Input} {blocks : List (PGid × Nat)} (hb : (blocks.map (·.1)).Nodup) (hdv : inp.dvs.Nodup) :
    ((groupsOf params inp blocks).map fun g => (g.pg, g.dv)).Nodup := by
  unfold groupsOf
  rw [List.map_flatMap]
  have e : ∀ b : PGid × Nat, (dvGroups inp b).map (fun g => (g.pg, g.dv)) = (inp.dvs.filter fun dv => (b.1.cmp, dv) ∉ inp.missing).map fun dv => (b.1, dv) := by
    intro b
    unfold dvGroups
    rw [List.map_map]; rfl
  rw [List.nodup_flatMap]
  constructor
  · intro b _
    rw [e]
    refine (hdv.filter _).map ?_
    intro x y hxy
    injection hxy
  · have : (blocks.filter fun b => ofLf params inp b.1.cmp).Pairwise fun a b => a.1 ≠ b.1 := by
      have hp : blocks.Pairwise fun a b => a.1 ≠ b.1 := by
        unfold List.Nodup at hb
        rw [List.pairwise_map] at hb
        exact hb
      exact hp.filter _
    refine this.imp ?_
    intro a b hab
    simp only [Function.onFun]
    rw [e, e]
    intro x hx hy
    rw [List.mem_map] at hx hy
    obtain ⟨u, _, rfl⟩ := hx
    obtain ⟨v, _, hv⟩ := hy
    injection hv with hv _
    exact hab hv.symm

theorem mem_groupsOf {params : Params} {inp : Input} {blocks : List (PGid × Nat)} {g : Group} :
    g ∈ groupsOf params inp blocks ↔ (g.pg, g.blocks) ∈ blocks ∧ ofLf params inp g.pg.cmp = true ∧ g.dv ∈ inp.dvs ∧ (g.pg.cmp, g.dv) ∉ inp.missing := by
  unfold groupsOf
  simp only [List.mem_flatMap, List.mem_filter, dvGroups, List.mem_map]
  constructor
  · rintro ⟨b, ⟨hb, ho⟩, dv, ⟨hdv, hm⟩, rfl⟩
    exact ⟨hb, ho, hdv, by simpa using hm⟩
  · rintro ⟨hb, ho, hdv, hm⟩
    exact ⟨(g.pg, g.blocks), ⟨hb, ho⟩, g.dv, ⟨hdv, by simpa using hm⟩, rfl⟩

omit [LinearOrder F] [IsStrictOrderedRing F] in
/-- The calculation in one piece. -/
theorem calculate_eq (params : Params) (inp : Input) (dev : BlockKey → List F) (blocks : List (PGid × Nat)) :
    calculate params inp dev blocks = (match groupsOf params inp blocks with
      | [] => .ok none
      | g0 :: gs =>
      match mapE (withEdp params inp) (g0 :: gs) with
      | .error e => .error e
      | .ok edps =>
      match verifyEdps inp.demands (edps.map (·.2)) with
      | .error e => .error e
      | .ok _ =>
      match assembleDemands inp.eval inp.mults inp.demands (edps.map (·.2)) with
      | .error e => .error e
      | .ok demand =>
      match mapE (groupMedians params inp edps demand) (g0 :: gs) with
      | .error e => .error e
      | .ok cols => sampleOf params dev cols.flatten) := by
  unfold calculate medians
  cases groupsOf params inp blocks with
  | nil => rfl
  | cons g0 gs =>
    simp only
    cases mapE (withEdp params inp) (g0 :: gs) with
    | error e => rfl
    | ok edps =>
      simp only
      cases verifyEdps inp.demands (edps.map (·.2)) with
      | error e => rfl
      | ok _ =>
        simp only
        cases assembleDemands inp.eval inp.mults inp.demands (edps.map (·.2)) with
        | error e => rfl
        | ok demand =>
          simp only
          cases mapE (groupMedians params inp edps demand) (g0 :: gs) with
          | error e => rfl
          | ok cols => rfl

def Same (g g' : Group) : Prop := g.pg = g'.pg ∧ g.dv = g'.dv ∧ 1 ≤ g.blocks ∧ 1 ≤ g'.blocks

theorem groupsOf_same {params : Params} {inp : Input} {blocks blocks' : List (PGid × Nat)}
    (h : List.Forall₂ (fun b b' => b.1 = b'.1 ∧ 1 ≤ b.2 ∧ 1 ≤ b'.2) blocks blocks') :
    List.Forall₂ Same (groupsOf params inp blocks) (groupsOf params inp blocks') := by
  unfold groupsOf
  induction h with
  | nil => exact .nil
  | @cons b b' l l' hb _ ih =>
    obtain ⟨h1, h2, h3⟩ := hb
    by_cases ho : ofLf params inp b.1.cmp = true
    · rw [List.filter_cons_of_pos (by simpa using ho), List.filter_cons_of_pos (by rw [← h1]; simpa using ho)]
      rw [List.flatMap_cons, List.flatMap_cons]
      refine List.rel_append ?_ ih
      unfold dvGroups
      rw [← h1]
      generalize (inp.dvs.filter fun dv => (b.1.cmp, dv) ∉ inp.missing) = ds
      induction ds with
      | nil => exact .nil
      | cons d ds ihd => exact .cons ⟨rfl, rfl, h2, h3⟩ ihd
    · rw [List.filter_cons_of_neg (by simpa using ho), List.filter_cons_of_neg (by rw [← h1]; simpa using ho)]
      exact ih

/-! ## A closed form without random consequences -/

def Deterministic (params : Params) : Prop := ∀ k p, params.get? k = some p → p.family = none

def present (params : Params) (loss dv : Str) : Bool := params.contains (loss, dv)

/-- A column without deviation. -/
def castCol (c : BlockKey × List (Option ℚ)) : BlockKey × List (Option F) := (c.1, c.2.map fun m => m.map fun x : ℚ => (x : F))

theorem deviate_det {params : Params} (hdet : Deterministic params) (dev : BlockKey → List F) (c : BlockKey × List (Option ℚ)) :
    deviate params dev c = if params.get? (c.1.loss, c.1.dv) = none then .error .keyError else .ok (castCol c) := by
  unfold deviate Dict.getE
  cases h : params.get? (c.1.loss, c.1.dv) with
  | none => simp
  | some p => simp [hdet _ p h, castCol]

theorem mapE_deviate_det {params : Params} (hdet : Deterministic params) (dev : BlockKey → List F) (cols : List (BlockKey × List (Option ℚ))) :
    mapE (deviate params dev) cols = if ∃ c ∈ cols, params.get? (c.1.loss, c.1.dv) = none then .error .keyError else .ok (cols.map castCol) := by
  induction cols with
  | nil => simp [mapE]
  | cons c cols ih =>
    simp only [mapE]
    rw [deviate_det hdet]
    by_cases h : params.get? (c.1.loss, c.1.dv) = none
    · rw [if_pos h, if_pos ⟨c, by simp, h⟩]
    · rw [if_neg h]
      simp only
      rw [ih]
      by_cases h' : ∃ c ∈ cols, params.get? (c.1.loss, c.1.dv) = none
      · rw [if_pos h', if_pos]
        obtain ⟨d, hd, hd'⟩ := h'
        exact ⟨d, List.mem_cons_of_mem _ hd, hd'⟩
      · rw [if_neg h', if_neg]
        · rfl
        · rintro ⟨d, hd, hd'⟩
          rcases List.mem_cons.1 hd with rfl | hd
          · exact h hd'
          · exact h' ⟨d, hd, hd'⟩

theorem sumColumns_replicate (c : List (Option F)) (n : Nat) : sumColumns (List.replicate (n + 1) c) = c.map fun x => ((n + 1 : Nat) : F) * x.getD 0 := by
  induction n with
  | zero => simp [List.replicate, sumColumns]
  | succ n ih =>
    rw [List.replicate_succ, sumColumns_nil_or _ _ (by simp [List.replicate_succ]), ih]
    clear ih
    induction c with
    | nil => rfl
    | cons x c ihc =>
      rw [List.map_cons, List.map_cons, List.zipWith_cons_cons, ihc]
      congr 1
      push_cast; ring

theorem expand_sum (g : Group) (c : Core) (hn : 1 ≤ g.blocks) :
    sumColumns (((expand g c).map (castCol (F := F))).map (·.2)) = List.zipWith (fun m q => ((m.getD 0 * q : ℚ) : F)) c.medians c.q := by
  unfold expand
  rw [List.map_map, List.map_map]
  have : (List.range g.blocks).map (((fun x : BlockKey × List (Option F) => x.2) ∘ castCol) ∘ fun block =>
      ((⟨g.dv, c.loss, g.pg, block⟩ : BlockKey), List.zipWith (fun m q => blockMedian q g.blocks m) c.medians c.q)) =
      List.replicate g.blocks ((List.zipWith (fun m q => blockMedian q g.blocks m) c.medians c.q).map fun m => m.map fun x : ℚ => (x : F)) := by
    rw [List.eq_replicate_iff]
    constructor
    · simp
    · intro x hx
      rw [List.mem_map] at hx
      obtain ⟨_, _, rfl⟩ := hx
      rfl
  rw [this]
  obtain ⟨n, hn'⟩ : ∃ n, g.blocks = n + 1 := ⟨g.blocks - 1, by omega⟩
  rw [hn', sumColumns_replicate, List.map_zipWith, List.map_zipWith]
  congr 1
  funext m q
  cases m with
  | none => simp [blockMedian]
  | some m =>
    have : ((n + 1 : Nat) : F) ≠ 0 := by positivity
    simp only [blockMedian, Option.map_some, Option.getD_some]
    push_cast at this ⊢
    field_simp

theorem zip_keys {gs : List Group} {cores : List Core} (hlen : gs.length = cores.length)
    (hnd : (gs.map fun g => (g.pg, g.dv)).Nodup) :
    (List.zipWith (fun (g : Group) (c : Core) => (⟨g.dv, c.loss, g.pg⟩ : OutKey)) gs cores).Nodup := by
  have e : (List.zipWith (fun (g : Group) (c : Core) => (⟨g.dv, c.loss, g.pg⟩ : OutKey)) gs cores).map (fun k => (k.pg, k.dv)) =
      gs.map fun g => (g.pg, g.dv) := by
    clear hnd
    induction gs generalizing cores with
    | nil => rfl
    | cons g gs ih =>
      cases cores with
      | nil => simp at hlen
      | cons c cores =>
        rw [List.zipWith_cons_cons, List.map_cons, List.map_cons, ih (by simpa using hlen)]
  exact List.Nodup.of_map _ (by rw [e]; exact hnd)

theorem zip_expand {gs : List Group} {cores : List Core} (hlen : gs.length = cores.length) (hn : ∀ g ∈ gs, 1 ≤ g.blocks) :
    List.Forall₂ (fun k cs => cs ≠ [] ∧ ∀ c ∈ cs, okey c.1 = k)
      (List.zipWith (fun (g : Group) (c : Core) => (⟨g.dv, c.loss, g.pg⟩ : OutKey)) gs cores) (List.zipWith expand gs cores) := by
  induction gs generalizing cores with
  | nil => exact .nil
  | cons g gs ih =>
    cases cores with
    | nil => simp at hlen
    | cons c cores =>
      rw [List.zipWith_cons_cons, List.zipWith_cons_cons]
      refine .cons ⟨?_, ?_⟩ (ih (by simpa using hlen) fun g hg => hn g (List.mem_cons_of_mem _ hg))
      · unfold expand
        intro h
        rw [List.map_eq_nil_iff, List.range_eq_nil] at h
        have := hn g (by simp)
        omega
      · intro x hx
        unfold expand at hx
        rw [List.mem_map] at hx
        obtain ⟨b, _, rfl⟩ := hx
        rfl

theorem zip_map {gs : List Group} {cores : List Core} (hlen : gs.length = cores.length) (hn : ∀ g ∈ gs, 1 ≤ g.blocks)
    {f : BlockKey × List (Option ℚ) → BlockKey × List (Option F)} (hf : ∀ c, (f c).1 = c.1) :
    List.Forall₂ (fun k cs => cs ≠ [] ∧ ∀ c ∈ cs, okey c.1 = k)
      (List.zipWith (fun (g : Group) (c : Core) => (⟨g.dv, c.loss, g.pg⟩ : OutKey)) gs cores)
      ((List.zipWith expand gs cores).map (List.map f)) := by
  have h := zip_expand hlen hn
  rw [List.forall₂_map_right_iff]
  refine h.imp ?_
  rintro k cs ⟨h1, h2⟩
  refine ⟨by simpa using h1, ?_⟩
  intro c hc
  rw [List.mem_map] at hc
  obtain ⟨c, hc, rfl⟩ := hc
  rw [hf]
  exact h2 c hc

theorem zip_sums {gs : List Group} {cores : List Core} (hn : ∀ g ∈ gs, 1 ≤ g.blocks) :
    List.zipWith (fun k cs => (k, sumColumns (cs.map (·.2))))
      (List.zipWith (fun (g : Group) (c : Core) => (⟨g.dv, c.loss, g.pg⟩ : OutKey)) gs cores)
      ((List.zipWith expand gs cores).map (List.map (castCol (F := F)))) =
    List.zipWith (fun g c => ((⟨g.dv, c.loss, g.pg⟩ : OutKey), List.zipWith (fun m q => ((m.getD 0 * q : ℚ) : F)) c.medians c.q)) gs cores := by
  induction gs generalizing cores with
  | nil => rfl
  | cons g gs ih =>
    cases cores with
    | nil => rfl
    | cons c cores =>
      simp only [List.zipWith_cons_cons, List.map_cons]
      rw [expand_sum g c (hn g (by simp)), ih fun g hg => hn g (List.mem_cons_of_mem _ hg)]

/-- The result of the last steps, without the number of blocks. -/
def closed (params : Params) (gs : List Group) (cores : List Core) : Except PyErr (Option (List (OutKey × List F))) :=
  if ∃ k ∈ List.zipWith (fun (g : Group) (c : Core) => (c.loss, g.dv)) gs cores, params.get? k = none then .error .keyError
  else .ok (some (List.zipWith (fun g c => ((⟨g.dv, c.loss, g.pg⟩ : OutKey), List.zipWith (fun m q => ((m.getD 0 * q : ℚ) : F)) c.medians c.q)) gs cores))

theorem sampleOf_closed {params : Params} (hdet : Deterministic params) (dev : BlockKey → List F) {gs : List Group} {cores : List Core}
    (hne : gs ≠ []) (hlen : gs.length = cores.length) (hn : ∀ g ∈ gs, 1 ≤ g.blocks) (hnd : (gs.map fun g => (g.pg, g.dv)).Nodup) :
    sampleOf params dev (List.zipWith expand gs cores).flatten = closed params gs cores := by
  have hk := zip_keys (cores := cores) hlen hnd
  have hz := zip_expand hlen hn
  have hpres : (∃ c ∈ (List.zipWith expand gs cores).flatten, params.get? (c.1.loss, c.1.dv) = none) ↔
      ∃ k ∈ List.zipWith (fun (g : Group) (c : Core) => (c.loss, g.dv)) gs cores, params.get? k = none := by
    clear hnd hk hz hne
    induction gs generalizing cores with
    | nil => simp
    | cons g gs ih =>
      cases cores with
      | nil => simp at hlen
      | cons c cores =>
        have ih := ih (cores := cores) (by simpa using hlen) fun g hg => hn g (List.mem_cons_of_mem _ hg)
        simp only [List.zipWith_cons_cons, List.flatten_cons, List.mem_append, List.mem_cons]
        constructor
        · rintro ⟨x, hx | hx, hx'⟩
          · unfold expand at hx
            rw [List.mem_map] at hx
            obtain ⟨_, _, rfl⟩ := hx
            exact ⟨_, Or.inl rfl, hx'⟩
          · obtain ⟨k, hk, hk'⟩ := ih.1 ⟨x, hx, hx'⟩
            exact ⟨k, Or.inr hk, hk'⟩
        · rintro ⟨k, rfl | hk, hk'⟩
          · refine ⟨(⟨g.dv, c.loss, g.pg, 0⟩, List.zipWith (fun m q => blockMedian q g.blocks m) c.medians c.q), Or.inl ?_, hk'⟩
            unfold expand
            rw [List.mem_map]
            exact ⟨0, by rw [List.mem_range]; exact hn g (by simp), rfl⟩
          · obtain ⟨x, hx, hx'⟩ := ih.2 ⟨k, hk, hk'⟩
            exact ⟨x, Or.inr hx, hx'⟩
  have hnil : (List.zipWith expand gs cores).flatten ≠ [] := by
    cases gs with
    | nil => exact absurd rfl hne
    | cons g gs =>
      cases cores with
      | nil => simp at hlen
      | cons c cores =>
        rw [List.zipWith_cons_cons] at hz ⊢
        rw [List.zipWith_cons_cons] at hz
        rw [List.flatten_cons]
        cases hz with
        | cons hh _ =>
          intro h
          rw [List.append_eq_nil_iff] at h
          exact hh.1 h.1
  unfold sampleOf closed
  cases hf : (List.zipWith expand gs cores).flatten with
  | nil => exact absurd hf hnil
  | cons x xs =>
    simp only
    rw [← hf, mapE_deviate_det hdet]
    by_cases h : ∃ c ∈ (List.zipWith expand gs cores).flatten, params.get? (c.1.loss, c.1.dv) = none
    · rw [if_pos h, if_pos (hpres.1 h)]
    · rw [if_neg h, if_neg fun h' => h (hpres.2 h')]
      simp only
      rw [List.map_flatten, sumBlocks_flatten (zip_map (f := castCol (F := F)) hlen hn fun _ => rfl) hk, zip_sums hn]

/-! ## C55 -/

theorem edps_same {params : Params} {inp : Input} {gs gs' : List Group} (h : List.Forall₂ Same gs gs') :
    (∃ e, mapE (withEdp params inp) gs = .error e ∧
      mapE (withEdp params inp) gs' = .error e) ∨
    ∃ es es', mapE (withEdp params inp) gs = .ok es ∧
      mapE (withEdp params inp) gs' = .ok es' ∧
      List.Forall₂ (fun e e' => Same e.1 e'.1 ∧ e.2 = e'.2) es es' := by
  induction h with
  | nil => exact Or.inr ⟨[], [], rfl, rfl, .nil⟩
  | @cons g g' gs gs' hg _ ih =>
    have e : groupEdp params inp g' = groupEdp params inp g := by
      unfold groupEdp
      rw [hg.1, hg.2.1]
    simp only [mapE, withEdp]
    rw [e]
    cases hk : groupEdp params inp g with
    | error er => exact Or.inl ⟨er, rfl, rfl⟩
    | ok k =>
      simp only
      rcases ih with ⟨er, h1, h2⟩ | ⟨es, es', h1, h2, h3⟩
      · rw [h1, h2]; exact Or.inl ⟨er, rfl, rfl⟩
      · rw [h1, h2]; exact Or.inr ⟨(g, k) :: es, (g', k) :: es', rfl, rfl, .cons ⟨hg, rfl⟩ h3⟩

theorem lookupEdp_same {es es' : List (Group × (List Str × Expression))} (h : List.Forall₂ (fun e e' => Same e.1 e'.1 ∧ e.2 = e'.2) es es')
    (loss dv : Str) (pg : PGid) : lookupEdp es loss dv pg = lookupEdp es' loss dv pg := by
  unfold lookupEdp
  induction h with
  | nil => rfl
  | @cons e e' es es' he _ ih =>
    obtain ⟨⟨h1, h2, _⟩, h3⟩ := he
    by_cases hc : e.1.pg = { pg with cmp := loss } ∧ e.1.dv = dv
    · rw [List.find?_cons_of_pos (by simpa using hc), List.find?_cons_of_pos (by rw [← h1, ← h2]; simpa using hc)]
      exact congrArg Except.ok h3
    · rw [List.find?_cons_of_neg (by simpa using hc), List.find?_cons_of_neg (by rw [← h1, ← h2]; simpa using hc)]
      exact ih

theorem core_same {params : Params} {inp : Input} {es es' : List (Group × (List Str × Expression))}
    (h : List.Forall₂ (fun e e' => Same e.1 e'.1 ∧ e.2 = e'.2) es es') (demand : Dict (List Str × Expression) (List (Option ℚ))) {g g' : Group} (hg : Same g g') :
    core params inp es demand g = core params inp es' demand g' := by
  unfold core
  rw [hg.1, hg.2.1]
  cases inp.lossMap.getE g'.pg.cmp with
  | error e => rfl
  | ok loss => simp only; rw [lookupEdp_same h]

theorem closed_same {params : Params} {gs gs' : List Group} (h : List.Forall₂ Same gs gs') (cores : List Core) :
    closed (F := F) params gs cores = closed params gs' cores := by
  have e1 : ∀ (cores : List Core), List.zipWith (fun (g : Group) (c : Core) => (c.loss, g.dv)) gs cores =
      List.zipWith (fun (g : Group) (c : Core) => (c.loss, g.dv)) gs' cores := by
    induction h with
    | nil => intro _; rfl
    | cons hg _ ih =>
      intro cores
      cases cores with
      | nil => rfl
      | cons c cores => rw [List.zipWith_cons_cons, List.zipWith_cons_cons, ih, hg.2.1]
  have e2 : ∀ (cores : List Core), List.zipWith (fun (g : Group) (c : Core) => ((⟨g.dv, c.loss, g.pg⟩ : OutKey), List.zipWith (fun m q => ((m.getD 0 * q : ℚ) : F)) c.medians c.q)) gs cores =
      List.zipWith (fun (g : Group) (c : Core) => ((⟨g.dv, c.loss, g.pg⟩ : OutKey), List.zipWith (fun m q => ((m.getD 0 * q : ℚ) : F)) c.medians c.q)) gs' cores := by
    clear e1
    induction h with
    | nil => intro _; rfl
    | cons hg _ ih =>
      intro cores
      cases cores with
      | nil => rfl
      | cons c cores => rw [List.zipWith_cons_cons, List.zipWith_cons_cons, ih, hg.2.1, hg.1]
  unfold closed
  rw [e1, e2]

theorem same_refl_left {gs gs' : List Group} (h : List.Forall₂ Same gs gs') : (∀ g ∈ gs, 1 ≤ g.blocks) ∧ ∀ g ∈ gs', 1 ≤ g.blocks := by
  constructor
  · intro g hg
    obtain ⟨_, _, h'⟩ := forall₂_mem_left h hg
    exact h'.2.2.1
  · intro g hg
    obtain ⟨_, _, h'⟩ := forall₂_mem_right h hg
    exact h'.2.2.2

/-- C55: with deterministic loss functions, dividing the performance groups into other numbers of blocks
does not change anything. -/
theorem C55_blocks_irrelevant (params : Params) (hdet : ∀ k p, params.get? k = some p → p.family = none) (inp : Input)
    (hdv : inp.dvs.Nodup) (dev dev' : BlockKey → List F) (blocks blocks' : List (PGid × Nat)) (hnd : (blocks.map (·.1)).Nodup)
    (h : List.Forall₂ (fun b b' => b.1 = b'.1 ∧ 1 ≤ b.2 ∧ 1 ≤ b'.2) blocks blocks') :
    calculate params inp dev blocks = calculate params inp dev' blocks' := by
  have hnd' : (blocks'.map (·.1)).Nodup := by
    have : blocks.map (·.1) = blocks'.map (·.1) := by
      clear hnd
      induction h with
      | nil => rfl
      | cons hb _ ih => rw [List.map_cons, List.map_cons, hb.1, ih]
    rw [← this]; exact hnd
  have hs := groupsOf_same (params := params) (inp := inp) h
  have hg1 := groupsOf_nodup (params := params) hnd hdv
  have hg2 := groupsOf_nodup (params := params) hnd' hdv
  rw [calculate_eq, calculate_eq]
  generalize groupsOf params inp blocks = G at *
  generalize groupsOf params inp blocks' = G' at *
  cases hs with
  | nil => rfl
  | @cons g g' gs gs' hg hgs =>
    have hs : List.Forall₂ Same (g :: gs) (g' :: gs') := .cons hg hgs
    obtain ⟨hb1, hb2⟩ := same_refl_left hs
    simp only
    rcases edps_same (params := params) (inp := inp) hs with ⟨e, h1, h2⟩ | ⟨es, es', h1, h2, h3⟩
    · rw [h1, h2]
    · rw [h1, h2]
      simp only
      have hmap : es'.map (·.2) = es.map (·.2) := by
        clear h1 h2
        induction h3 with
        | nil => rfl
        | cons he _ ih => rw [List.map_cons, List.map_cons, he.2, ih]
      rw [hmap]
      cases verifyEdps inp.demands (es.map (·.2)) with
      | error e => rfl
      | ok _ =>
        simp only
        cases assembleDemands inp.eval inp.mults inp.demands (es.map (·.2)) with
        | error e => rfl
        | ok demand =>
          simp only
          rw [mapE_core (c := core params inp es demand) (h := expand) fun a ha => groupMedians_eq params inp es demand a (hb1 a ha)]
          rw [mapE_core (c := core params inp es' demand) (h := expand) fun a ha => groupMedians_eq params inp es' demand a (hb2 a ha)]
          rw [mapE_congr₂ (hs.imp fun a b hab => core_same (params := params) (inp := inp) h3 demand hab)]
          cases hc : mapE (core params inp es' demand) (g' :: gs') with
          | error e => rfl
          | ok cores =>
            simp only [mapX]
            have hl2 : (g' :: gs').length = cores.length := (mapE_length hc).symm
            have hl1 : (g :: gs).length = cores.length := by rw [hs.length_eq]; exact hl2
            rw [sampleOf_closed hdet dev (by simp) hl1 hb1 hg1, sampleOf_closed hdet dev' (by simp) hl2 hb2 hg2]
            exact closed_same hs cores

/-! ## The value of a loss -/

/-- A column with its deviation. -/
def devCol (params : Params) (dev : BlockKey → List F) (c : BlockKey × List (Option ℚ)) : BlockKey × List (Option F) :=
  match params.get? (c.1.loss, c.1.dv) with
  | none => castCol c
  | some p => match p.family with
    | none => castCol c
    | some _ => (c.1, List.zipWith (fun m d => m.map fun x : ℚ => (x : F) * d) c.2 (dev c.1))

theorem devCol_key (params : Params) (dev : BlockKey → List F) (c : BlockKey × List (Option ℚ)) : (devCol params dev c).1 = c.1 := by
  unfold devCol
  split
  · rfl
  · split <;> rfl

theorem deviate_ok {params : Params} {dev : BlockKey → List F} {c : BlockKey × List (Option ℚ)} {d : BlockKey × List (Option F)} (h : deviate params dev c = .ok d) :
    d = devCol params dev c ∧ ∃ p, params.get? (c.1.loss, c.1.dv) = some p := by
  unfold deviate Dict.getE at h
  unfold devCol
  cases hp : params.get? (c.1.loss, c.1.dv) with
  | none => rw [hp] at h; exact absurd h (by simp)
  | some p =>
    rw [hp] at h
    simp only at h ⊢
    refine ⟨?_, p, rfl⟩
    cases hf : p.family with
    | none => rw [hf] at h; injection h with h; exact h.symm
    | some f => rw [hf] at h; injection h with h; exact h.symm

theorem mapE_deviate_ok {params : Params} {dev : BlockKey → List F} {cs : List (BlockKey × List (Option ℚ))} {ds : List (BlockKey × List (Option F))}
    (h : mapE (deviate params dev) cs = .ok ds) :
    ds = cs.map (devCol params dev) ∧ ∀ c ∈ cs, ∃ p, params.get? (c.1.loss, c.1.dv) = some p := by
  rw [mapE_ok_iff] at h
  induction h with
  | nil => simp
  | @cons c d cs ds hc _ ih =>
    obtain ⟨h1, h2⟩ := deviate_ok hc
    refine ⟨by rw [List.map_cons, ← ih.1, h1], ?_⟩
    intro x hx
    rcases List.mem_cons.1 hx with rfl | hx
    · exact h2
    · exact ih.2 x hx

theorem sumColumns_get (i : Nat) : ∀ (cols : List (List (Option F))), cols ≠ [] → (∀ c ∈ cols, ∃ x, c[i]? = some x) →
    (sumColumns cols)[i]? = some ((cols.map fun c => (c[i]?.getD none).getD 0).sum) := by
  intro cols
  induction cols with
  | nil => intro h; exact absurd rfl h
  | cons c cols ih =>
    intro _ hall
    obtain ⟨x, hx⟩ := hall c (by simp)
    by_cases hc : cols = []
    · subst hc
      simp [sumColumns, hx]
    · rw [sumColumns_nil_or _ _ hc, List.getElem?_zipWith, hx, ih hc fun c hc => hall c (List.mem_cons_of_mem _ hc)]
      simp [hx]

theorem lookupEdp_ok {es : List (Group × (List Str × Expression))} {loss dv : Str} {pg : PGid} {k : List Str × Expression}
    (h : lookupEdp es loss dv pg = .ok k) : ∃ g, (g, k) ∈ es ∧ g.pg = { pg with cmp := loss } ∧ g.dv = dv := by
  unfold lookupEdp at h
  cases hf : es.find? fun e => decide (e.1.pg = { pg with cmp := loss } ∧ e.1.dv = dv) with
  | none => rw [hf] at h; exact absurd h (by simp)
  | some e =>
    rw [hf] at h
    injection h with h
    have h1 := List.find?_some hf
    have h2 := List.mem_of_find?_eq_some hf
    simp only [decide_eq_true_eq] at h1
    exact ⟨e.1, by rw [← h]; exact h2, h1⟩

/-- What a successful calculation did. -/
theorem calculate_ok {params : Params} {inp : Input} {dev : BlockKey → List F} {blocks : List (PGid × Nat)} {out : List (OutKey × List F)}
    (hdv : inp.dvs.Nodup) (hnd : (blocks.map (·.1)).Nodup) (hb : ∀ b ∈ blocks, 1 ≤ b.2)
    (h : calculate params inp dev blocks = .ok (some out)) :
    ∃ es demand cores,
      (∀ g k, (g, k) ∈ es → g ∈ groupsOf params inp blocks ∧ groupEdp params inp g = .ok k) ∧
      assembleDemands inp.eval inp.mults inp.demands (es.map (·.2)) = .ok demand ∧
      mapE (core params inp es demand) (groupsOf params inp blocks) = .ok cores ∧
      out = List.zipWith (fun k cs => (k, sumColumns (cs.map (·.2))))
        (List.zipWith (fun (g : Group) (c : Core) => (⟨g.dv, c.loss, g.pg⟩ : OutKey)) (groupsOf params inp blocks) cores)
        ((List.zipWith expand (groupsOf params inp blocks) cores).map (List.map (devCol params dev))) := by
  have hg1 := groupsOf_nodup (params := params) hnd hdv
  have hbl : ∀ g ∈ groupsOf params inp blocks, 1 ≤ g.blocks := by
    intro g hg
    exact hb _ (mem_groupsOf.1 hg).1
  rw [calculate_eq] at h
  generalize groupsOf params inp blocks = G at *
  cases G with
  | nil => exact absurd h (by simp)
  | cons g0 gs =>
    simp only at h
    cases he : mapE (withEdp params inp) (g0 :: gs) with
    | error e => rw [he] at h; exact absurd h (by simp)
    | ok es =>
    rw [he] at h
    simp only at h
    cases hv : verifyEdps inp.demands (es.map (·.2)) with
    | error e => rw [hv] at h; exact absurd h (by simp)
    | ok _ =>
    rw [hv] at h
    simp only at h
    cases ha : assembleDemands inp.eval inp.mults inp.demands (es.map (·.2)) with
    | error e => rw [ha] at h; exact absurd h (by simp)
    | ok demand =>
    rw [ha] at h
    simp only at h
    rw [mapE_core (c := core params inp es demand) (h := expand) fun a ha => groupMedians_eq params inp es demand a (hbl a ha)] at h
    cases hc : mapE (core params inp es demand) (g0 :: gs) with
    | error e => rw [hc] at h; exact absurd h (by simp [mapX])
    | ok cores =>
    rw [hc] at h
    simp only [mapX] at h
    have hl : (g0 :: gs).length = cores.length := (mapE_length hc).symm
    refine ⟨es, demand, cores, ?_, ha, hc, ?_⟩
    · intro g k hgk
      rw [mapE_ok_iff] at he
      obtain ⟨g', hg', hx⟩ := forall₂_mem_right he hgk
      unfold withEdp at hx
      cases hk : groupEdp params inp g' with
      | error e => rw [hk] at hx; exact absurd hx (by simp)
      | ok k' =>
        rw [hk] at hx
        simp only [Except.ok.injEq, Prod.mk.injEq] at hx
        obtain ⟨rfl, rfl⟩ := hx
        exact ⟨hg', hk⟩
    · unfold sampleOf at h
      cases hf : (List.zipWith expand (g0 :: gs) cores).flatten with
      | nil => rw [hf] at h; exact absurd h (by simp)
      | cons x xs =>
        rw [hf] at h
        simp only at h
        rw [← hf] at h
        cases hm : mapE (deviate params dev) (List.zipWith expand (g0 :: gs) cores).flatten with
        | error e => rw [hm] at h; exact absurd h (by simp)
        | ok cols =>
          rw [hm] at h
          simp only [Except.ok.injEq, Option.some.injEq] at h
          rw [← h, (mapE_deviate_ok hm).1, List.map_flatten]
          exact sumBlocks_flatten (zip_map hl hbl (devCol_key params dev)) (zip_keys hl hg1)

theorem core_ok {params : Params} {inp : Input} {es : List (Group × (List Str × Expression))}
    {demand : Dict (List Str × Expression) (List (Option ℚ))} {g : Group} {c : Core} (h : core params inp es demand g = .ok c) :
    inp.lossMap.get? g.pg.cmp = some c.loss ∧ ∃ k values p, lookupEdp es c.loss g.dv g.pg = .ok k ∧ demand.get? k = some values ∧
      params.get? (g.pg.cmp, g.dv) = some p ∧ mapE (lossFunction p.points) values = .ok c.medians ∧ inp.qty.get? g.pg = some c.q := by
  unfold core at h
  cases h0 : inp.lossMap.getE g.pg.cmp with
  | error e => rw [h0] at h; exact absurd h (by simp)
  | ok loss =>
  rw [h0] at h
  simp only at h
  cases h1 : lookupEdp es loss g.dv g.pg with
  | error e => rw [h1] at h; exact absurd h (by simp)
  | ok edp =>
  rw [h1] at h
  simp only at h
  cases h2 : demand.getE edp with
  | error e => rw [h2] at h; exact absurd h (by simp)
  | ok values =>
  rw [h2] at h
  simp only at h
  cases h3 : params.getE (g.pg.cmp, g.dv) with
  | error e => rw [h3] at h; exact absurd h (by simp)
  | ok p =>
  rw [h3] at h
  simp only at h
  cases h4 : mapE (lossFunction p.points) values with
  | error e => rw [h4] at h; exact absurd h (by simp)
  | ok medians =>
  rw [h4] at h
  simp only at h
  cases h5 : inp.qty.getE g.pg with
  | error e => rw [h5] at h; exact absurd h (by simp)
  | ok q =>
  rw [h5] at h
  injection h with h
  subst h
  have getE_some : ∀ {κ α : Type} [DecidableEq κ] {d : Dict κ α} {k : κ} {v : α}, d.getE k = .ok v → d.get? k = some v := by
    intro κ α _ d k v hd
    unfold Dict.getE at hd
    cases hg : d.get? k with
    | none => rw [hg] at hd; exact absurd hd (by simp)
    | some w => rw [hg] at hd; injection hd with hd; rw [hd]
  exact ⟨getE_some h0, edp, values, p, h1, getE_some h2, getE_some h3, h4, getE_some h5⟩

/-- The deviation of a performance group in a realization: the mean over its blocks. -/
def meanDev (d : BlockKey → F) (dv loss : Str) (pg : PGid) (n : Nat) : F :=
  (((List.range n).map fun b => d ⟨dv, loss, pg, b⟩).sum) / n

theorem zip3_mem {gs : List Group} {cores : List Core} {f : List (BlockKey × List (Option ℚ)) → List (BlockKey × List (Option F))} {o : OutKey × List F}
    (ho : o ∈ List.zipWith (fun k cs => (k, sumColumns (cs.map (·.2))))
        (List.zipWith (fun (g : Group) (c : Core) => (⟨g.dv, c.loss, g.pg⟩ : OutKey)) gs cores) ((List.zipWith expand gs cores).map f)) :
    ∃ g c, (g, c) ∈ gs.zip cores ∧ o = (⟨g.dv, c.loss, g.pg⟩, sumColumns ((f (expand g c)).map (·.2))) := by
  induction gs generalizing cores with
  | nil => simp at ho
  | cons g gs ih =>
    cases cores with
    | nil => simp at ho
    | cons c cores =>
      simp only [List.zipWith_cons_cons, List.map_cons, List.mem_cons] at ho
      rcases ho with ho | ho
      · exact ⟨g, c, by simp, ho⟩
      · obtain ⟨g', c', h1, h2⟩ := ih ho
        exact ⟨g', c', by rw [List.zip_cons_cons]; exact List.mem_cons_of_mem _ h1, h2⟩

theorem sum_map_mul (l : List Nat) (f : Nat → F) (a : F) : (l.map fun b => a * f b).sum = a * (l.map f).sum := by
  induction l with
  | nil => simp
  | cons b l ih => simp only [List.map_cons, List.sum_cons, ih]; ring

/-- The value as computed. -/
theorem value (params : Params) (inp : Input) (hdv : inp.dvs.Nodup) (dev : BlockKey → List F) (blocks : List (PGid × Nat))
    (hnd : (blocks.map (·.1)).Nodup) (hb : ∀ b ∈ blocks, 1 ≤ b.2) (out : List (OutKey × List F))
    (h : calculate params inp dev blocks = .ok (some out)) (o : OutKey × List F) (ho : o ∈ out) :
    ∃ n, (o.1.pg, n) ∈ blocks ∧ o.1.dv ∈ inp.dvs ∧ inp.lossMap.get? o.1.pg.cmp = some o.1.loss ∧
    ∃ p pl edp values qs, params.get? (o.1.pg.cmp, o.1.dv) = some p ∧ params.get? (o.1.loss, o.1.dv) = some pl ∧
      keyOf inp.nvars [(o.1.loss, pl.demand)] inp.offsets { o.1.pg with cmp := o.1.loss } = .ok edp ∧
      demandOf inp.eval inp.mults inp.demands edp = .ok values ∧ inp.qty.get? o.1.pg = some qs ∧
      ∀ (i : Nat), (∀ (x q : ℚ) (d : BlockKey → F), values[i]? = some (some x) → qs[i]? = some q → (∀ k, (dev k)[i]? = some (d k)) →
        inRange p.points x = true ∧
        o.2[i]? = some ((interp (sortedPoints p.points) x * q : ℚ) * if pl.family = none then 1 else meanDev d o.1.dv o.1.loss o.1.pg n)) ∧
        (∀ (q : ℚ) (d : BlockKey → F), qs[i]? = some q → (∀ k, (dev k)[i]? = some (d k)) → values[i]? = some none → o.2[i]? = some 0) := by
  obtain ⟨es, demand, cores, h1, h2, h3, rfl⟩ := calculate_ok hdv hnd hb h
  obtain ⟨g, c, hgc, rfl⟩ := zip3_mem ho
  have hg : g ∈ groupsOf params inp blocks := (List.of_mem_zip hgc).1
  have hn : 1 ≤ g.blocks := hb _ (mem_groupsOf.1 hg).1
  have hcore : core params inp es demand g = .ok c := by
    rw [mapE_ok_iff, List.forall₂_iff_zip] at h3
    exact h3.2 hgc
  obtain ⟨k1, key, values, p, k2, k3, k4, k5, k6⟩ := core_ok hcore
  obtain ⟨g', hg', hpg, hdv'⟩ := lookupEdp_ok k2
  obtain ⟨m1, m2⟩ := h1 g' key hg'
  have hpl : ∃ pl, params.get? (c.loss, g.dv) = some pl ∧ keyOf inp.nvars [(c.loss, pl.demand)] inp.offsets { g.pg with cmp := c.loss } = .ok key := by
    unfold groupEdp at m2
    rw [hpg, hdv'] at m2
    simp only at m2
    cases hp : params.get? (c.loss, g.dv) with
    | none => rw [hp] at m2; exact absurd m2 (by simp)
    | some pl => rw [hp] at m2; exact ⟨pl, rfl, m2⟩
  obtain ⟨pl, hpl1, hpl2⟩ := hpl
  have hval : demandOf inp.eval inp.mults inp.demands key = .ok values := by
    unfold assembleDemands at h2
    rw [mapE_ok_iff] at h2
    obtain ⟨key', hk', hx⟩ := forall₂_mem_right h2 (Dict.mem_of_get? k3)
    cases hd : demandOf inp.eval inp.mults inp.demands key' with
    | error e => rw [hd] at hx; exact absurd hx (by simp)
    | ok v =>
      rw [hd] at hx
      simp only [Except.ok.injEq, Prod.mk.injEq] at hx
      obtain ⟨rfl, rfl⟩ := hx
      exact hd
  refine ⟨g.blocks, (mem_groupsOf.1 hg).1, (mem_groupsOf.1 hg).2.2.1, k1, p, pl, key, values, c.q, k4, hpl1, hpl2, hval, k6, ?_⟩
  intro i
  have hnil : ((expand g c).map (devCol params dev)).map (·.2) ≠ [] := by
    intro hnil
    unfold expand at hnil
    simp only [List.map_eq_nil_iff, List.range_eq_nil] at hnil
    omega
  constructor
  swap
  · intro q d hq hd hx
    have hmed : c.medians[i]? = some none := by
      rw [mapE_ok_iff, List.forall₂_iff_get] at k5
      obtain ⟨hlen, hall⟩ := k5
      obtain ⟨hi, hx'⟩ := List.getElem?_eq_some_iff.1 hx
      have := hall i hi (by rw [← hlen]; exact hi)
      simp only [List.get_eq_getElem] at this
      rw [hx'] at this
      simp only [lossFunction] at this
      injection this with this
      rw [List.getElem?_eq_some_iff]
      exact ⟨by rw [← hlen]; exact hi, this.symm⟩
    have hcol : ∀ b, ((devCol params dev (⟨g.dv, c.loss, g.pg, b⟩, List.zipWith (fun m q => blockMedian q g.blocks m) c.medians c.q)).2)[i]? =
        some none := by
      intro b
      unfold devCol
      simp only [hpl1]
      cases hf : pl.family with
      | none => simp [castCol, List.getElem?_zipWith, hmed, hq, blockMedian]
      | some f => simp [List.getElem?_zipWith, hmed, hq, hd, blockMedian]
    simp only
    rw [sumColumns_get i _ hnil]
    · unfold expand
      rw [List.map_map, List.map_map, List.map_map]
      have : ((((fun c : List (Option F) => (c[i]?.getD none).getD 0) ∘ (fun x : BlockKey × List (Option F) => x.2)) ∘ devCol params dev) ∘ fun block =>
          ((⟨g.dv, c.loss, g.pg, block⟩ : BlockKey), List.zipWith (fun m q => blockMedian q g.blocks m) c.medians c.q)) = fun _ => 0 := by
        funext b
        simp only [Function.comp, hcol b, Option.getD_some, Option.getD_none]
      rw [this]
      simp
    · intro col hcol'
      unfold expand at hcol'
      rw [List.map_map, List.map_map, List.mem_map] at hcol'
      obtain ⟨b, _, rfl⟩ := hcol'
      exact ⟨_, hcol b⟩
  intro x q d hx hq hd
  simp only
  obtain ⟨hrange, hmed⟩ : inRange p.points x = true ∧ c.medians[i]? = some (some (interp (sortedPoints p.points) x)) := by
    rw [mapE_ok_iff, List.forall₂_iff_get] at k5
    obtain ⟨hlen, hall⟩ := k5
    obtain ⟨hi, hx'⟩ := List.getElem?_eq_some_iff.1 hx
    have := hall i hi (by rw [← hlen]; exact hi)
    simp only [List.get_eq_getElem] at this
    rw [hx'] at this
    simp only [lossFunction] at this
    split at this
    · rename_i hr
      injection this with this
      refine ⟨hr, ?_⟩
      rw [List.getElem?_eq_some_iff]
      exact ⟨by rw [← hlen]; exact hi, this.symm⟩
    · exact absurd this (by simp)
  refine ⟨hrange, ?_⟩
  have hcol : ∀ b, ((devCol params dev (⟨g.dv, c.loss, g.pg, b⟩, List.zipWith (fun m q => blockMedian q g.blocks m) c.medians c.q)).2)[i]? =
      some (some (((interp (sortedPoints p.points) x * q / g.blocks : ℚ) : F) * if pl.family = none then 1 else d ⟨g.dv, c.loss, g.pg, b⟩)) := by
    intro b
    unfold devCol
    simp only [hpl1]
    cases hf : pl.family with
    | none => simp [castCol, List.getElem?_zipWith, hmed, hq, blockMedian]
    | some f => simp [List.getElem?_zipWith, hmed, hq, hd, blockMedian]
  rw [sumColumns_get i]
  · unfold expand
    rw [List.map_map, List.map_map, List.map_map]
    have : ((((fun c : List (Option F) => (c[i]?.getD none).getD 0) ∘ (fun x : BlockKey × List (Option F) => x.2)) ∘ devCol params dev) ∘ fun block =>
        ((⟨g.dv, c.loss, g.pg, block⟩ : BlockKey), List.zipWith (fun m q => blockMedian q g.blocks m) c.medians c.q)) =
        fun b => ((interp (sortedPoints p.points) x * q / g.blocks : ℚ) : F) * if pl.family = none then 1 else d ⟨g.dv, c.loss, g.pg, b⟩ := by
      funext b
      simp only [Function.comp, hcol b, Option.getD_some]
    rw [this, sum_map_mul]
    congr 1
    have hnz : (g.blocks : F) ≠ 0 := by
      have : g.blocks ≠ 0 := by omega
      exact_mod_cast this
    push_cast
    by_cases hf : pl.family = none
    · simp only [hf, if_true]
      rw [List.map_const', List.length_range, List.sum_replicate, nsmul_eq_mul]
      field_simp
    · simp only [hf, if_false]
      unfold meanDev
      field_simp
  · exact hnil
  · intro col hcol'
    unfold expand at hcol'
    rw [List.map_map, List.map_map, List.mem_map] at hcol'
    obtain ⟨b, _, rfl⟩ := hcol'
    exact ⟨_, hcol b⟩

theorem sortedPoints_asc {pts : List (ℚ × ℚ)} (hx : (pts.map Prod.fst).Nodup) : XAsc (sortedPoints pts) := by
  unfold XAsc
  have hperm := pySort_perm (fun a b : ℚ × ℚ => decide (a.1 ≤ b.1)) pts
  have hs := pySort_sorted (le := fun a b : ℚ × ℚ => decide (a.1 ≤ b.1)) (by intro a b; simp [le_total])
    (by intro a b c h1 h2; simp only [decide_eq_true_eq] at *; exact h1.trans h2) pts
  have hn : ((sortedPoints pts).map Prod.fst).Nodup := (hperm.map Prod.fst).nodup_iff.2 hx
  rw [List.pairwise_map]
  unfold List.Nodup at hn
  rw [List.pairwise_map] at hn
  refine (List.pairwise_and_iff.2 ⟨hs, hn⟩).imp ?_
  intro a b hab
  have h1 : a.1 ≤ b.1 := by simpa using hab.1
  exact lt_of_le_of_ne h1 hab.2

theorem sortedPoints_graph {pts : List (ℚ × ℚ)} (hx : (pts.map Prod.fst).Nodup) {x : ℚ} (hr : inRange pts x = true) :
    OnGraph pts x (interp (sortedPoints pts) x) := by
  unfold inRange at hr
  simp only [Bool.and_eq_true, List.any_eq_true, decide_eq_true_eq] at hr
  obtain ⟨⟨p, hp, h0⟩, ⟨q, hq, h1⟩⟩ := hr
  have hmem : ∀ r, r ∈ sortedPoints pts ↔ r ∈ pts := fun r => mem_pySort
  refine onGraph_congr hmem (onGraph_of_clamped (interp_clamped (List.ne_nil_of_mem ((hmem p).2 hp)) (sortedPoints_asc hx) x)
    ⟨p, (hmem p).2 hp, h0⟩ ⟨q, (hmem q).2 hq, h1⟩)

/-- C55 with deviations: the loss is the loss function at the demand, times the quantity, times the mean
deviation of the blocks (1 without a family).  `x`, `q` and `d` are the demand, quantity and deviations in
realization `i`.  Without a demand there is no loss. -/
theorem C55_value (params : Params) (inp : Input) (hdv : inp.dvs.Nodup) (dev : BlockKey → List F) (blocks : List (PGid × Nat))
    (hnd : (blocks.map (·.1)).Nodup) (hb : ∀ b ∈ blocks, 1 ≤ b.2) (out : List (OutKey × List F))
    (h : calculate params inp dev blocks = .ok (some out)) (o : OutKey × List F) (ho : o ∈ out) :
    ∃ n, (o.1.pg, n) ∈ blocks ∧ o.1.dv ∈ inp.dvs ∧ inp.lossMap.get? o.1.pg.cmp = some o.1.loss ∧
    ∃ p pl edp values qs, params.get? (o.1.pg.cmp, o.1.dv) = some p ∧ params.get? (o.1.loss, o.1.dv) = some pl ∧
      keyOf inp.nvars [(o.1.loss, pl.demand)] inp.offsets { o.1.pg with cmp := o.1.loss } = .ok edp ∧
      demandOf inp.eval inp.mults inp.demands edp = .ok values ∧ inp.qty.get? o.1.pg = some qs ∧
      ∀ (i : Nat) (q : ℚ) (d : BlockKey → F), qs[i]? = some q → (∀ k, (dev k)[i]? = some (d k)) →
        (∀ x, values[i]? = some (some x) → (p.points.map Prod.fst).Nodup → ∃ m, OnGraph p.points x m ∧
          o.2[i]? = some ((m * q : ℚ) * if pl.family = none then 1 else meanDev d o.1.dv o.1.loss o.1.pg n)) ∧
        (values[i]? = some none → o.2[i]? = some 0) := by
  obtain ⟨n, h1, h2, h3, p, pl, edp, values, qs, h4, h5, h6, h7, h8, h9⟩ := value params inp hdv dev blocks hnd hb out h o ho
  refine ⟨n, h1, h2, h3, p, pl, edp, values, qs, h4, h5, h6, h7, h8, ?_⟩
  intro i q d hq hd
  refine ⟨?_, (h9 i).2 q d hq hd⟩
  intro x hx hnd
  obtain ⟨hr, hv⟩ := (h9 i).1 x q d hx hq hd
  exact ⟨_, sortedPoints_graph hnd hr, hv⟩

/-! ## C79 -/

/-- C79: a component with loss functions whose loss map entry is another consequence stops the
calculation, unless that consequence is itself a component at the same place. -/
theorem C79_other_consequence_refused (params : Params) (inp : Input) (hdv : inp.dvs.Nodup) (dev : BlockKey → List F) (blocks : List (PGid × Nat))
    (hnd : (blocks.map (·.1)).Nodup) (hb : ∀ b ∈ blocks, 1 ≤ b.2) (pg : PGid) (n : Nat) (hpg : (pg, n) ∈ blocks) (loss dv : Str)
    (hmap : inp.lossMap.get? pg.cmp = some loss) (hpar : params.contains (loss, dv) = true) (hdvm : dv ∈ inp.dvs) (hmis : (pg.cmp, dv) ∉ inp.missing)
    (hother : ∀ m, ({ pg with cmp := loss }, m) ∉ blocks) (out : List (OutKey × List F)) :
    calculate params inp dev blocks ≠ .ok (some out) := by
  intro h
  obtain ⟨es, demand, cores, h1, h2, h3, _⟩ := calculate_ok hdv hnd hb h
  have hg : (⟨pg, dv, n⟩ : Group) ∈ groupsOf params inp blocks := by
    rw [mem_groupsOf]
    refine ⟨hpg, ?_, hdvm, hmis⟩
    unfold ofLf
    simp only [hmap]
    rw [List.any_eq_true]
    rw [Dict.contains_iff] at hpar
    exact ⟨(loss, dv), hpar, by simp⟩
  rw [mapE_ok_iff] at h3
  obtain ⟨c, _, hc⟩ := forall₂_mem_left h3 hg
  obtain ⟨k1, key, values, p, k2, _⟩ := core_ok hc
  simp only at k1 k2
  rw [hmap] at k1
  injection k1 with k1
  rw [← k1] at k2
  obtain ⟨g', hg', hpg', _⟩ := lookupEdp_ok k2
  have := (mem_groupsOf.1 (h1 g' key hg').1).1
  rw [hpg'] at this
  exact hother _ this

/-- C79 when every component is mapped to itself: the result has a loss for each performance group of a
component with loss functions and each decision variable that is not missing, and no other. -/
theorem C79_same_consequence_partial (params : Params) (inp : Input) (hdv : inp.dvs.Nodup) (dev : BlockKey → List F) (blocks : List (PGid × Nat))
    (hnd : (blocks.map (·.1)).Nodup) (hb : ∀ b ∈ blocks, 1 ≤ b.2) (out : List (OutKey × List F))
    (hmap : ∀ c l, inp.lossMap.get? c = some l → l = c)
    (h : calculate params inp dev blocks = .ok (some out)) (dv loss : Str) (pg : PGid) :
    (∃ v, (⟨dv, loss, pg⟩, v) ∈ out) ↔ loss = pg.cmp ∧ inp.lossMap.get? pg.cmp = some loss ∧ (∃ n, (pg, n) ∈ blocks) ∧
      dv ∈ inp.dvs ∧ (pg.cmp, dv) ∉ inp.missing ∧ ∃ dv', params.contains (pg.cmp, dv') = true := by
  obtain ⟨es, demand, cores, h1, h2, h3, rfl⟩ := calculate_ok hdv hnd hb h
  have hlf : ∀ cmp, ofLf params inp cmp = true ↔ inp.lossMap.get? cmp = some cmp ∧ ∃ dv', params.contains (cmp, dv') = true := by
    intro cmp
    unfold ofLf
    cases hm : inp.lossMap.get? cmp with
    | none => simp
    | some l =>
      have := hmap cmp l hm
      subst this
      simp only [List.any_eq_true, decide_eq_true_eq, true_and]
      constructor
      · rintro ⟨⟨a, b⟩, hk, ha⟩
        simp only at ha
        subst ha
        exact ⟨b, by rw [Dict.contains_iff]; exact hk⟩
      · rintro ⟨dv', hd⟩
        rw [Dict.contains_iff] at hd
        exact ⟨_, hd, rfl⟩
  constructor
  · rintro ⟨v, hv⟩
    obtain ⟨g, c, hgc, he⟩ := zip3_mem hv
    have hg := mem_groupsOf.1 (List.of_mem_zip hgc).1
    have hcore : core params inp es demand g = .ok c := by
      rw [mapE_ok_iff, List.forall₂_iff_zip] at h3
      exact h3.2 hgc
    have k1 := (core_ok hcore).1
    simp only [Prod.mk.injEq, OutKey.mk.injEq] at he
    obtain ⟨⟨rfl, rfl, rfl⟩, _⟩ := he
    exact ⟨hmap _ _ k1, k1, ⟨_, hg.1⟩, hg.2.2.1, hg.2.2.2, ((hlf _).1 hg.2.1).2⟩
  · rintro ⟨rfl, hm, ⟨n, hn⟩, hd, hmis, hpar⟩
    have hg : (⟨pg, dv, n⟩ : Group) ∈ groupsOf params inp blocks := by
      rw [mem_groupsOf]
      exact ⟨hn, (hlf _).2 ⟨hm, hpar⟩, hd, hmis⟩
    have hlen := mapE_length h3
    rw [mapE_ok_iff] at h3
    obtain ⟨i, hi, hgi⟩ := List.getElem_of_mem hg
    have hic : i < cores.length := by rw [hlen]; exact hi
    have hcore := (List.forall₂_iff_get.1 h3).2 i hi hic
    simp only [List.get_eq_getElem, hgi] at hcore
    have k1 := (core_ok hcore).1
    simp only at k1
    rw [hm] at k1
    injection k1 with k1
    refine ⟨sumColumns (((expand ⟨pg, dv, n⟩ cores[i]).map (devCol params dev)).map (·.2)), ?_⟩
    rw [List.mem_iff_getElem]
    refine ⟨i, by simp [hi, hic], ?_⟩
    simp [List.getElem_zipWith, hgi, ← k1]

/-! ### When the calculation succeeds -/

/-- The losses that are calculated: a performance group of a component in the loss map whose consequence has
loss functions, and a decision variable that is not listed as missing. -/
def Calculated (params : Params) (inp : Input) (blocks : List (PGid × Nat)) (pg : PGid) (dv : Str) : Prop :=
  (∃ n, (pg, n) ∈ blocks) ∧ (∃ loss dv', inp.lossMap.get? pg.cmp = some loss ∧ params.contains (loss, dv') = true) ∧
    dv ∈ inp.dvs ∧ (pg.cmp, dv) ∉ inp.missing

theorem ofLf_iff {params : Params} {inp : Input} {cmp : Str} :
    ofLf params inp cmp = true ↔ ∃ loss dv', inp.lossMap.get? cmp = some loss ∧ params.contains (loss, dv') = true := by
  unfold ofLf
  cases hm : inp.lossMap.get? cmp with
  | none => simp
  | some l =>
    simp only [List.any_eq_true, decide_eq_true_eq, Option.some.injEq]
    constructor
    · rintro ⟨⟨a, b⟩, hk, ha⟩
      exact ⟨l, b, rfl, by rw [Dict.contains_iff, ← ha]; exact hk⟩
    · rintro ⟨loss, dv', rfl, hd⟩
      rw [Dict.contains_iff] at hd
      exact ⟨_, hd, rfl⟩

theorem calculated_iff {params : Params} {inp : Input} {blocks : List (PGid × Nat)} {pg : PGid} {dv : Str} :
    Calculated params inp blocks pg dv ↔ ∃ g ∈ groupsOf params inp blocks, g.pg = pg ∧ g.dv = dv := by
  unfold Calculated
  rw [← ofLf_iff]
  constructor
  · rintro ⟨⟨n, hn⟩, h2, h3, h4⟩
    exact ⟨⟨pg, dv, n⟩, mem_groupsOf.2 ⟨hn, h2, h3, h4⟩, rfl, rfl⟩
  · rintro ⟨g, hg, rfl, rfl⟩
    obtain ⟨h1, h2, h3, h4⟩ := mem_groupsOf.1 hg
    exact ⟨⟨_, h1⟩, h2, h3, h4⟩

/-- C55: there is no sample exactly if there is nothing to calculate. -/
theorem C55_no_sample (params : Params) (inp : Input) (dev : BlockKey → List F) (blocks : List (PGid × Nat)) :
    calculate params inp dev blocks = .ok none ↔ ∀ pg dv, ¬ Calculated params inp blocks pg dv := by
  have hiff : (∀ pg dv, ¬ Calculated params inp blocks pg dv) ↔ groupsOf params inp blocks = [] := by
    rw [List.eq_nil_iff_forall_not_mem]
    constructor
    · intro h g hg
      exact h g.pg g.dv (calculated_iff.2 ⟨g, hg, rfl, rfl⟩)
    · intro h pg dv hc
      obtain ⟨g, hg, _⟩ := calculated_iff.1 hc
      exact h g hg
  rw [hiff]
  rw [calculate_eq]
  cases groupsOf params inp blocks with
  | nil => simp
  | cons g gs =>
    simp only [reduceCtorEq, iff_false]
    cases mapE (withEdp params inp) (g :: gs) with
    | error e => simp
    | ok es =>
    simp only
    cases verifyEdps inp.demands (es.map (·.2)) with
    | error e => simp
    | ok _ =>
    simp only
    cases assembleDemands inp.eval inp.mults inp.demands (es.map (·.2)) with
    | error e => simp
    | ok demand =>
    simp only
    cases mapE (groupMedians params inp es demand) (g :: gs) with
    | error e => simp
    | ok cols =>
    simp only
    unfold sampleOf
    cases cols.flatten with
    | nil => simp
    | cons c cs =>
      simp only
      cases mapE (deviate params dev) (c :: cs) <;> simp

/-- What a performance group and decision variable need for the calculation: parameters, a demand that is in
the demand sample, a quantity, and demands in the range of the loss function. -/
def Ready (params : Params) (inp : Input) (pg : PGid) (dv : Str) : Prop :=
  ∃ p edp values qs, params.get? (pg.cmp, dv) = some p ∧ keyOf inp.nvars [(pg.cmp, p.demand)] inp.offsets pg = .ok edp ∧
    (∀ e ∈ edp.1, ∃ t l d, splitChar '-' e = [t, l, d] ∧ ∃ d' v, ((t, l, d'), v) ∈ inp.demands) ∧
    demandOf inp.eval inp.mults inp.demands edp = .ok values ∧ inp.qty.get? pg = some qs ∧
    ∀ x, some x ∈ values → (∃ a ∈ p.points, a.1 ≤ x) ∧ ∃ a ∈ p.points, x ≤ a.1

theorem lossFunction_ok {pts : List (ℚ × ℚ)} {values : List (Option ℚ)} :
    (∃ ms, mapE (lossFunction pts) values = .ok ms) ↔ ∀ x, some x ∈ values → (∃ a ∈ pts, a.1 ≤ x) ∧ ∃ a ∈ pts, x ≤ a.1 := by
  have hr : ∀ x, inRange pts x = true ↔ (∃ a ∈ pts, a.1 ≤ x) ∧ ∃ a ∈ pts, x ≤ a.1 := by
    intro x
    simp [inRange]
  constructor
  · rintro ⟨ms, h⟩ x hx
    rw [mapE_ok_iff] at h
    obtain ⟨m, _, hm⟩ := forall₂_mem_left h hx
    rw [← hr]
    by_contra hn
    simp only [lossFunction, hn] at hm
    exact absurd hm (by simp)
  · intro h
    apply mapE_ok_of_forall
    intro v hv
    cases v with
    | none => exact ⟨_, rfl⟩
    | some x =>
      have := (hr x).2 (h x hv)
      simp only [lossFunction, this, if_true]
      exact ⟨_, rfl⟩

/-- C55: if components are mapped to consequences of the same name, the calculation has a result exactly if
there is something to calculate and each has what it needs. -/
theorem C55_succeeds_iff (params : Params) (inp : Input) (hdv : inp.dvs.Nodup) (dev : BlockKey → List F) (blocks : List (PGid × Nat))
    (hnd : (blocks.map (·.1)).Nodup) (hb : ∀ b ∈ blocks, 1 ≤ b.2) (hmap : ∀ c l, inp.lossMap.get? c = some l → l = c) :
    (∃ out, calculate params inp dev blocks = .ok (some out)) ↔
      (∃ pg dv, Calculated params inp blocks pg dv) ∧ ∀ pg dv, Calculated params inp blocks pg dv → Ready params inp pg dv := by
  have hbl : ∀ g ∈ groupsOf params inp blocks, 1 ≤ g.blocks := fun g hg => hb _ (mem_groupsOf.1 hg).1
  have hgm : ∀ g ∈ groupsOf params inp blocks, inp.lossMap.get? g.pg.cmp = some g.pg.cmp := by
    intro g hg
    obtain ⟨l, _, h1, _⟩ := ofLf_iff.1 (mem_groupsOf.1 hg).2.1
    rw [hmap _ _ h1] at h1
    exact h1
  constructor
  · rintro ⟨out, h⟩
    have hne : ∃ pg dv, Calculated params inp blocks pg dv := by
      by_contra hno
      push Not at hno
      rw [(C55_no_sample params inp dev blocks).2 hno] at h
      exact absurd h (by simp)
    refine ⟨hne, ?_⟩
    intro pg dv hc
    obtain ⟨g, hg, rfl, rfl⟩ := calculated_iff.1 hc
    -- the verification
    have hver : ∃ es, mapE (withEdp params inp) (groupsOf params inp blocks) = .ok es ∧
        ∃ r, verifyEdps inp.demands (es.map (·.2)) = .ok r := by
      rw [calculate_eq] at h
      generalize groupsOf params inp blocks = G at *
      cases G with
      | nil => exact absurd h (by simp)
      | cons g0 gs =>
        simp only at h
        cases he : mapE (withEdp params inp) (g0 :: gs) with
        | error e => rw [he] at h; exact absurd h (by simp)
        | ok es =>
        rw [he] at h
        simp only at h
        cases hv : verifyEdps inp.demands (es.map (·.2)) with
        | error e => rw [hv] at h; exact absurd h (by simp)
        | ok r => exact ⟨es, rfl, r, hv⟩
    obtain ⟨es', hes', hver⟩ := hver
    obtain ⟨es, demand, cores, h1, h2, h3, _⟩ := calculate_ok hdv hnd hb h
    rw [mapE_ok_iff] at h3
    obtain ⟨c, _, hcore⟩ := forall₂_mem_left h3 hg
    obtain ⟨k1, key, values, p, k2, k3, k4, k5, k6⟩ := core_ok hcore
    rw [hgm g hg] at k1
    injection k1 with k1
    rw [← k1] at k2
    obtain ⟨g', hg', hpg, hdv'⟩ := lookupEdp_ok k2
    replace hpg : g'.pg = g.pg := hpg
    obtain ⟨m1, m2⟩ := h1 g' key hg'
    unfold groupEdp at m2
    rw [hpg, hdv', k4] at m2
    simp only at m2
    have hval : demandOf inp.eval inp.mults inp.demands key = .ok values := by
      unfold assembleDemands at h2
      rw [mapE_ok_iff] at h2
      obtain ⟨key', hk', hx⟩ := forall₂_mem_right h2 (Dict.mem_of_get? k3)
      cases hd : demandOf inp.eval inp.mults inp.demands key' with
      | error e => rw [hd] at hx; exact absurd hx (by simp)
      | ok v =>
        rw [hd] at hx
        simp only [Except.ok.injEq, Prod.mk.injEq] at hx
        obtain ⟨rfl, rfl⟩ := hx
        exact hd
    refine ⟨p, key, values, c.q, k4, m2, ?_, hval, k6, lossFunction_ok.1 ⟨_, k5⟩⟩
    rw [DemandReq.C76_types_and_locations_partial] at hver
    refine hver key ?_
    rw [mapE_ok_iff] at hes'
    obtain ⟨e, he, hx⟩ := forall₂_mem_left hes' hg
    unfold withEdp groupEdp at hx
    rw [k4] at hx
    simp only at hx
    rw [m2] at hx
    injection hx with hx
    exact List.mem_map.2 ⟨e, he, by rw [← hx]⟩
  · rintro ⟨⟨pg0, dv0, hc0⟩, hready⟩
    have hr : ∀ g ∈ groupsOf params inp blocks, Ready params inp g.pg g.dv :=
      fun g hg => hready _ _ (calculated_iff.2 ⟨g, hg, rfl, rfl⟩)
    have hne : groupsOf params inp blocks ≠ [] := by
      obtain ⟨g, hg, _⟩ := calculated_iff.1 hc0
      exact List.ne_nil_of_mem hg
    have hedp : ∀ g ∈ groupsOf params inp blocks, ∀ p edp, params.get? (g.pg.cmp, g.dv) = some p →
        keyOf inp.nvars [(g.pg.cmp, p.demand)] inp.offsets g.pg = .ok edp → withEdp params inp g = .ok (g, edp) := by
      intro g hg p edp h1 h2
      unfold withEdp groupEdp
      rw [h1]
      simp only
      rw [h2]
    obtain ⟨es, hes⟩ : ∃ es, mapE (withEdp params inp) (groupsOf params inp blocks) = .ok es := by
      apply mapE_ok_of_forall
      intro g hg
      obtain ⟨p, edp, _, _, h1, h2, _⟩ := hr g hg
      exact ⟨_, hedp g hg p edp h1 h2⟩
    have hes' := hes
    rw [mapE_ok_iff] at hes'
    have hin : ∀ g k, (g, k) ∈ es → g ∈ groupsOf params inp blocks ∧ withEdp params inp g = .ok (g, k) := by
      intro g k hgk
      obtain ⟨g', hg', hx⟩ := forall₂_mem_right hes' hgk
      obtain ⟨p, edp, _, _, h1, h2, _⟩ := hr g' hg'
      have hx' := hedp g' hg' p edp h1 h2
      rw [hx'] at hx
      simp only [Except.ok.injEq, Prod.mk.injEq] at hx
      obtain ⟨rfl, rfl⟩ := hx
      exact ⟨hg', hx'⟩
    have hkey : ∀ k ∈ es.map (·.2), ∃ g ∈ groupsOf params inp blocks, ∃ p values qs, params.get? (g.pg.cmp, g.dv) = some p ∧
        (∀ e ∈ k.1, ∃ t l d, splitChar '-' e = [t, l, d] ∧ ∃ d' v, ((t, l, d'), v) ∈ inp.demands) ∧
        demandOf inp.eval inp.mults inp.demands k = .ok values ∧ inp.qty.get? g.pg = some qs ∧
        ∀ x, some x ∈ values → (∃ a ∈ p.points, a.1 ≤ x) ∧ ∃ a ∈ p.points, x ≤ a.1 := by
      intro k hk
      rw [List.mem_map] at hk
      obtain ⟨⟨g, k'⟩, he, rfl⟩ := hk
      obtain ⟨hg, hw⟩ := hin g k' he
      obtain ⟨p, edp, values, qs, h1, h2, h3, h4, h5, h6⟩ := hr g hg
      rw [hedp g hg p edp h1 h2] at hw
      simp only [Except.ok.injEq, Prod.mk.injEq, true_and] at hw
      subst hw
      exact ⟨g, hg, p, values, qs, h1, h3, h4, h5, h6⟩
    obtain ⟨ver, hver⟩ : ∃ r, verifyEdps inp.demands (es.map (·.2)) = .ok r := by
      rw [DemandReq.C76_types_and_locations_partial]
      intro k hk
      obtain ⟨_, _, _, _, _, _, h, _⟩ := hkey k hk
      exact h
    obtain ⟨demand, hdem⟩ : ∃ demand, assembleDemands inp.eval inp.mults inp.demands (es.map (·.2)) = .ok demand := by
      apply mapE_ok_of_forall
      intro k hk
      obtain ⟨_, _, _, values, _, _, _, h, _⟩ := hkey k hk
      exact ⟨(k, values), by rw [h]⟩
    obtain ⟨hd1, hd2⟩ := DemandReq.C77_assembled _ _ _ _ _ hdem
    have hcore : ∀ g ∈ groupsOf params inp blocks, ∃ c, core params inp es demand g = .ok c ∧ c.loss = g.pg.cmp := by
      intro g hg
      obtain ⟨p, edp, values, qs, h1, h2, h3, h4, h5, h6⟩ := hr g hg
      have hgin : (g, edp) ∈ es := by
        obtain ⟨e, he, hx⟩ := forall₂_mem_left hes' hg
        rw [hedp g hg p edp h1 h2] at hx
        injection hx with hx
        rw [hx]; exact he
      have hlook : lookupEdp es g.pg.cmp g.dv g.pg = .ok edp := by
        unfold lookupEdp
        cases hf : es.find? fun e => decide (e.1.pg = { g.pg with cmp := g.pg.cmp } ∧ e.1.dv = g.dv) with
        | none =>
          rw [List.find?_eq_none] at hf
          exact absurd (by simp) (hf _ hgin)
        | some e =>
          have e1 := List.find?_some hf
          have e2 := List.mem_of_find?_eq_some hf
          simp only [decide_eq_true_eq] at e1
          obtain ⟨g', k'⟩ := e
          obtain ⟨hg', hw⟩ := hin g' k' e2
          simp only at e1
          have : withEdp params inp g' = .ok (g', edp) := hedp g' hg' p edp (by rw [e1.1, e1.2]; exact h1) (by rw [e1.1]; exact h2)
          rw [this] at hw
          simp only [Except.ok.injEq, Prod.mk.injEq, true_and] at hw
          rw [hw]
      have hdg : demand.getE edp = .ok values := by
        have hk : edp ∈ demand.keys := by
          have : edp ∈ demand.map Prod.fst := by rw [hd1]; exact List.mem_map.2 ⟨_, hgin, rfl⟩
          exact this
        cases hg? : demand.get? edp with
        | none => rw [Dict.get?_eq_none_iff] at hg?; exact absurd hk hg?
        | some v =>
          have := hd2 _ _ (Dict.mem_of_get? hg?)
          rw [h4] at this
          injection this with this
          unfold Dict.getE
          rw [hg?, this]
      obtain ⟨ms, hms⟩ := lossFunction_ok.2 h6
      refine ⟨⟨g.pg.cmp, ms, qs⟩, ?_, rfl⟩
      unfold core
      have e1 : inp.lossMap.getE g.pg.cmp = .ok g.pg.cmp := by unfold Dict.getE; rw [hgm g hg]
      have e2 : params.getE (g.pg.cmp, g.dv) = .ok p := by unfold Dict.getE; rw [h1]
      have e3 : inp.qty.getE g.pg = .ok qs := by unfold Dict.getE; rw [h5]
      rw [e1]; simp only
      rw [hlook]; simp only
      rw [hdg]; simp only
      rw [e2]; simp only
      rw [hms]; simp only
      rw [e3]
    obtain ⟨cores, hcores⟩ : ∃ cores, mapE (core params inp es demand) (groupsOf params inp blocks) = .ok cores := by
      apply mapE_ok_of_forall
      intro g hg
      obtain ⟨c, hc, _⟩ := hcore g hg
      exact ⟨c, hc⟩
    rw [calculate_eq]
    generalize groupsOf params inp blocks = G at *
    cases G with
    | nil => exact absurd rfl hne
    | cons g0 gs =>
      simp only
      rw [hes]; simp only
      rw [hver]; simp only
      rw [hdem]; simp only
      rw [mapE_core (c := core params inp es demand) (h := expand) fun a ha => groupMedians_eq params inp es demand a (hbl a ha), hcores]
      simp only [mapX]
      have hcs := hcores
      rw [mapE_ok_iff] at hcs
      unfold sampleOf
      cases hf : (List.zipWith expand (g0 :: gs) cores).flatten with
      | nil =>
        cases cores with
        | nil => simp at hcs
        | cons c cores =>
          simp only [List.zipWith_cons_cons, List.flatten_cons, List.append_eq_nil_iff] at hf
          have := hf.1
          unfold expand at this
          simp only [List.map_eq_nil_iff, List.range_eq_nil] at this
          have := hbl g0 (by simp)
          omega
      | cons x xs =>
        simp only
        rw [← hf]
        obtain ⟨cols, hcols⟩ : ∃ cols, mapE (deviate params dev) (List.zipWith expand (g0 :: gs) cores).flatten = .ok cols := by
          apply mapE_ok_of_forall
          intro b hb'
          rw [List.mem_flatten] at hb'
          obtain ⟨l, hl, hb'⟩ := hb'
          obtain ⟨g, c, hgc, rfl⟩ : ∃ g c, (g, c) ∈ (g0 :: gs).zip cores ∧ l = expand g c := by
            rw [← List.map_uncurry_zip_eq_zipWith] at hl
            rw [List.mem_map] at hl
            obtain ⟨⟨g, c⟩, h1, h2⟩ := hl
            exact ⟨g, c, h1, h2.symm⟩
          have hg := (List.of_mem_zip hgc).1
          have hcg : core params inp es demand g = .ok c := by
            have h' := hcs
            rw [List.forall₂_iff_zip] at h'
            exact h'.2 hgc
          obtain ⟨c', hc', hl'⟩ := hcore g hg
          rw [hcg] at hc'
          injection hc' with hc'
          subst hc'
          obtain ⟨p, _, _, _, h1, _⟩ := hr g hg
          unfold expand at hb'
          rw [List.mem_map] at hb'
          obtain ⟨n, _, rfl⟩ := hb'
          unfold deviate
          simp only
          have e2 : params.getE (c.loss, g.dv) = .ok p := by unfold Dict.getE; rw [hl', h1]
          rw [e2]
          simp only
          cases p.family <;> exact ⟨_, rfl⟩
        rw [hcols]
        exact ⟨_, rfl⟩

/-- C55: a demand outside of the range of the loss function stops the calculation. -/
theorem C55_out_of_range_refused (params : Params) (inp : Input) (hdv : inp.dvs.Nodup) (dev : BlockKey → List F) (blocks : List (PGid × Nat))
    (hnd : (blocks.map (·.1)).Nodup) (hb : ∀ b ∈ blocks, 1 ≤ b.2) (hmap : ∀ c l, inp.lossMap.get? c = some l → l = c)
    (pg : PGid) (dv : Str) (hc : Calculated params inp blocks pg dv) (p : LfParam) (hp : params.get? (pg.cmp, dv) = some p)
    (edp : List Str × Expression) (he : keyOf inp.nvars [(pg.cmp, p.demand)] inp.offsets pg = .ok edp) (values : List (Option ℚ))
    (hv : demandOf inp.eval inp.mults inp.demands edp = .ok values) (x : ℚ) (hx : some x ∈ values)
    (hout : (∀ a ∈ p.points, x < a.1) ∨ ∀ a ∈ p.points, a.1 < x) (out : List (OutKey × List F)) :
    calculate params inp dev blocks ≠ .ok (some out) := by
  intro h
  obtain ⟨p', edp', values', _, h1, h2, _, h4, _, h6⟩ := ((C55_succeeds_iff params inp hdv dev blocks hnd hb hmap).1 ⟨out, h⟩).2 pg dv hc
  rw [hp] at h1
  injection h1 with h1
  subst h1
  rw [he] at h2
  injection h2 with h2
  subst h2
  rw [hv] at h4
  injection h4 with h4
  subst h4
  obtain ⟨⟨a, ha, h1⟩, ⟨b, hb', h2⟩⟩ := h6 x hx
  rcases hout with ho | ho
  · exact absurd h1 (not_le.2 (ho a ha))
  · exact absurd h2 (not_le.2 (ho b hb'))

/-- C79: no label occurs twice. -/
theorem C79_distinct (params : Params) (inp : Input) (dev : BlockKey → List F) (blocks : List (PGid × Nat))
    (out : List (OutKey × List F)) (h : calculate params inp dev blocks = .ok (some out)) :
    (out.map (·.1)).Nodup := by
  rw [calculate_eq] at h
  cases hG : groupsOf params inp blocks with
  | nil => rw [hG] at h; exact absurd h (by simp)
  | cons g0 gs =>
    rw [hG] at h
    simp only at h
    cases he : mapE (withEdp params inp) (g0 :: gs) with
    | error e => rw [he] at h; exact absurd h (by simp)
    | ok es =>
    rw [he] at h
    simp only at h
    cases hv : verifyEdps inp.demands (es.map (·.2)) with
    | error e => rw [hv] at h; exact absurd h (by simp)
    | ok _ =>
    rw [hv] at h
    simp only at h
    cases ha : assembleDemands inp.eval inp.mults inp.demands (es.map (·.2)) with
    | error e => rw [ha] at h; exact absurd h (by simp)
    | ok demand =>
    rw [ha] at h
    simp only at h
    cases hc : mapE (groupMedians params inp es demand) (g0 :: gs) with
    | error e => rw [hc] at h; exact absurd h (by simp)
    | ok cols =>
    rw [hc] at h
    simp only at h
    unfold sampleOf at h
    cases hf : cols.flatten with
    | nil => rw [hf] at h; exact absurd h (by simp)
    | cons x xs =>
      rw [hf] at h
      simp only at h
      cases hm : mapE (deviate params dev) (x :: xs) with
      | error e => rw [hm] at h; exact absurd h (by simp)
      | ok cs =>
        rw [hm] at h
        simp only [Except.ok.injEq, Option.some.injEq] at h
        rw [← h]
        unfold sumBlocks
        simp only [List.map_map]
        rw [show ((fun x : OutKey × List F => x.1) ∘ fun k : OutKey =>
          (k, sumColumns ((cs.filter fun c => decide ((⟨c.1.dv, c.1.loss, c.1.pg⟩ : OutKey) = k)).map (·.2)))) = id from rfl, List.map_id]
        exact List.nodup_dedup _

end

/-! ### Examples -/

def exPg (c l : String) : PGid := ⟨str c, str l, str "1", str "0"⟩
def exDemand : CmpDemand := ⟨[⟨str "Peak Floor Acceleration", some 0, some 1⟩], .absent⟩
def exParams (family : Option Str) : Params := [((str "A", str "Cost"), ⟨exDemand, [(0, 0), (2, 10)], family⟩)]
def exInp : Input where
  nvars := fun _ => .ok 1
  eval := fun _ _ => .ok []
  offsets := []
  mults := []
  demands := [((str "PFA", str "1", str "1"), [some 1, some 2, none])]
  qty := [(exPg "A" "1", [4, 5, 6])]
  lossMap := [(str "A", str "A")]
  missing := []
  dvs := [str "Cost"]
def exDev : BlockKey → List ℚ := fun k => if k.block = 0 then [1, 3, 1] else [2, 5, 1]

/-- The numbers of a result. -/
def numbers (r : Except PyErr (Option (List (OutKey × List ℚ)))) : Option (List (Str × List ℚ)) :=
  r.toOption.bind fun o => o.map fun out => out.map fun e => (e.1.loss, e.2)

set_option synthInstance.maxSize 4000 in
example : numbers (calculate (exParams none) exInp exDev [(exPg "A" "1", 1)]) = some [(str "A", [20, 50, 0])] ∧
    numbers (calculate (exParams none) exInp exDev [(exPg "A" "1", 4)]) = some [(str "A", [20, 50, 0])] ∧
    numbers (calculate (exParams (some (str "normal"))) exInp exDev [(exPg "A" "1", 2)]) = some [(str "A", [30, 200, 0])] := by
  decide +kernel

/-- A table with zero blocks for a component stops, and one with zero blocks for one of two components
silently has no loss for it. -/
theorem C55_zero_blocks :
    (match calculate (exParams none) exInp exDev [(exPg "A" "1", 0)] with | .error .valueError => true | _ => false) = true ∧
    numbers (calculate (exParams none) { exInp with qty := [(exPg "A" "1", [4, 5, 6]), (⟨str "A", str "1", str "1", str "1"⟩, [7, 7, 7])] } exDev
      [(exPg "A" "1", 1), (⟨str "A", str "1", str "1", str "1"⟩, 0)]) = some [(str "A", [20, 50, 0])] := by
  constructor <;> decide +kernel

/-- A demand that is not available in a realization (NaN) has no loss. -/
theorem C55_missing_demand_is_no_loss : numbers (calculate (exParams none) exInp exDev [(exPg "A" "1", 1)]) = some [(str "A", [20, 50, 0])] ∧
    exInp.demands.get? (str "PFA", str "1", str "1") = some [some 1, some 2, none] := by
  constructor <;> decide +kernel

/-- A component mapped to the consequence `A`. -/
example : (match calculate (exParams none) { exInp with lossMap := [(str "B", str "A")], qty := [(exPg "B" "1", [4, 5, 6])] } exDev
    [(exPg "B" "1", 1)] with | .error .keyError => true | _ => false) = true := by
  decide +kernel

end Verif.LossLf
