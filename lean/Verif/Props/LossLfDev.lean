import Verif.Model.LossLfDev
import Verif.Props.LossDev
import Verif.Props.LossLf

/-! # Property C92: random deviations of losses from loss functions -/

namespace Verif.LossLfDev

open Verif.UQ Verif.FileIO Verif.LossLf Verif.LossDev Verif.DemandReq

/-! ### Specification -/

/-- Block `k` has a random loss: it is a block of a performance group, its decision variable is calculated,
and the parameters of the consequence have the family `f`. -/
def RandomBlock (params : LossLf.Params) (inp : Input) (blocks : List (PGid × Nat)) (k : BlockKey) (f : Str) : Prop :=
  (∃ n, (k.pg, n) ∈ blocks ∧ k.block < n) ∧ k.dv ∈ inp.dvs ∧ (k.pg.cmp, k.dv) ∉ inp.missing ∧
    inp.lossMap.get? k.pg.cmp = some k.loss ∧ ∃ p, params.get? (k.loss, k.dv) = some p ∧ p.family = some f

section
variable {F : Type} [Field F] [LinearOrder F] [IsStrictOrderedRing F] [FloorRing F]

/-- `out` is explained by deviations: `dev i k` is the deviation of block `k` in realization `i`; `d k` is the
row of random numbers drawn for it, the one with number `num k`, and `u k` is that row after the
correlation of costs and times.
* different blocks have different rows;
* a normal or lognormal deviation is not negative, and its distribution function is the random number: mean 1
  and coefficient of variation `c`, or median 1 and dispersion `c`;
* each loss is the loss function at the demand, times the quantity, times the mean of the deviations of the
  blocks (1 without a family); without a demand there is no loss. -/
def Explained (N : Num F) (params : LossLf.Params) (spread : Str × Str → List F) (inp : Input) (n : Nat)
    (m : Method) (perm : Nat → List Nat) (jitter : Nat → List F) (blocks : List (PGid × Nat))
    (out : List (LossLf.OutKey × List F)) (num : BlockKey → Nat) (d u : BlockKey → List F) (dev : Nat → BlockKey → F) : Prop :=
  (∀ k f k' f', RandomBlock params inp blocks k f → RandomBlock params inp blocks k' f' → num k = num k' → k = k') ∧
  (∀ k f, RandomBlock params inp blocks k f →
    drawRow m n (perm (num k)) (jitter (num k)) = .ok (d k) ∧
    (f = str "normal" ∨ f = str "lognormal" → ∃ c, (spread (k.loss, k.dv)).head? = some c ∧
      (0 < N.eps → 0 < c → ∀ (i : Nat) (y : F), i < n → (u k)[i]? = some y → 0 ≤ y → y < 1 →
        0 ≤ dev i k ∧ (f = str "lognormal" → 0 < dev i k) ∧ devCdf N f 1 c (dev i k) = y))) ∧
  ∀ o ∈ out, ∃ nb, (o.1.pg, nb) ∈ blocks ∧ o.1.dv ∈ inp.dvs ∧ inp.lossMap.get? o.1.pg.cmp = some o.1.loss ∧
    ∃ p pl edp values qs, params.get? (o.1.pg.cmp, o.1.dv) = some p ∧ params.get? (o.1.loss, o.1.dv) = some pl ∧
      keyOf inp.nvars [(o.1.loss, pl.demand)] inp.offsets { o.1.pg with cmp := o.1.loss } = .ok edp ∧
      demandOf inp.eval inp.mults inp.demands edp = .ok values ∧ inp.qty.get? o.1.pg = some qs ∧
      ∀ (i : Nat) (q : ℚ), i < n → qs[i]? = some q →
        (∀ x, values[i]? = some (some x) → (p.points.map Prod.fst).Nodup → ∃ m, OnGraph p.points x m ∧
          o.2[i]? = some ((m * q : ℚ) * if pl.family = none then 1 else
            (((List.range nb).map fun b => dev i ⟨o.1.dv, o.1.loss, o.1.pg, b⟩).sum) / nb)) ∧
        (values[i]? = some none → o.2[i]? = some 0)

/-! ### Lemmas -/

omit [FloorRing F] [IsStrictOrderedRing F] [LinearOrder F] [Field F] in
theorem blockLabel_inj {k k' : BlockKey} (h : blockLabel k = blockLabel k') : k = k' := by
  unfold blockLabel at h
  simp only [List.cons.injEq, and_true] at h
  obtain ⟨h1, h2, h3, h4, h5, h6, h7⟩ := h
  have h7 := decStr_inj h7
  cases k with | mk a b pg c =>
  cases k' with | mk a' b' pg' c' =>
  cases pg; cases pg'
  simp_all

/-- The blocks of a performance group in the medians. -/
theorem groupMedians_keys {params : LossLf.Params} {inp : Input} {edps : List (Group × (List Str × Expression))}
    {demand : Dict (List Str × Expression) (List (Option ℚ))} {g : Group} {cs : List (BlockKey × List (Option ℚ))}
    (h : groupMedians params inp edps demand g = .ok cs) :
    ∀ l, inp.lossMap.get? g.pg.cmp = some l → cs.map Prod.fst = (List.range g.blocks).map fun b => ⟨g.dv, l, g.pg, b⟩ := by
  unfold groupMedians at h
  cases h0 : inp.lossMap.getE g.pg.cmp with
  | error e => rw [h0] at h; exact absurd h (by simp)
  | ok loss =>
    rw [h0] at h
    simp only at h
    cases h1 : lookupEdp edps loss g.dv g.pg with
    | error e => rw [h1] at h; exact absurd h (by simp)
    | ok edp =>
    rw [h1] at h
    simp only at h
    cases h2 : demand.getE edp with
    | error e => rw [h2] at h; exact absurd h (by simp)
    | ok values =>
    rw [h2] at h
    simp only at h
    cases h3 : params.getE (g.pg.cmp, g.dv) with
    | error e => rw [h3] at h; exact absurd h (by simp)
    | ok p =>
    rw [h3] at h
    simp only at h
    cases h4 : mapE (lossFunction p.points) values with
    | error e => rw [h4] at h; exact absurd h (by simp)
    | ok medians =>
    rw [h4] at h
    simp only at h
    intro l hl
    have hll : l = loss := by
      unfold Dict.getE at h0
      rw [hl] at h0
      simpa using h0
    subst hll
    rw [mapE_ok_iff] at h
    generalize List.range g.blocks = bs at *
    induction h with
    | nil => rfl
    | @cons b c bs cs hb _ ih =>
      simp only [List.map_cons, List.cons.injEq]
      refine ⟨?_, ih⟩
      cases hq : inp.qty.getE g.pg with
      | error e => rw [hq] at hb; exact absurd hb (by simp)
      | ok q =>
        rw [hq] at hb
        simp only [Except.ok.injEq] at hb
        rw [← hb]

/-- The columns of the medians. -/
theorem medians_parts {params : LossLf.Params} {inp : Input} {blocks : List (PGid × Nat)} {cols : List (BlockKey × List (Option ℚ))}
    (h : medians params inp blocks = .ok (some cols)) :
    ∃ css : List (List (BlockKey × List (Option ℚ))), cols = css.flatten ∧
      List.Forall₂ (fun (g : Group) cs => ∃ l, inp.lossMap.get? g.pg.cmp = some l ∧ cs.map Prod.fst = (List.range g.blocks).map fun b => (⟨g.dv, l, g.pg, b⟩ : BlockKey))
        (groupsOf params inp blocks) css := by
  unfold medians at h
  cases hG : groupsOf params inp blocks with
  | nil => rw [hG] at h; exact absurd h (by simp)
  | cons g0 gs =>
    rw [hG] at h
    simp only at h
    cases he : mapE (withEdp params inp) (g0 :: gs) with
    | error e => rw [he] at h; exact absurd h (by simp)
    | ok es =>
    rw [he] at h
    simp only at h
    cases hv : verifyEdps inp.demands (es.map (·.2)) with
    | error e => rw [hv] at h; exact absurd h (by simp)
    | ok _ =>
    rw [hv] at h
    simp only at h
    cases ha : assembleDemands inp.eval inp.mults inp.demands (es.map (·.2)) with
    | error e => rw [ha] at h; exact absurd h (by simp)
    | ok demand =>
    rw [ha] at h
    simp only at h
    cases hc : mapE (groupMedians params inp es demand) (g0 :: gs) with
    | error e => rw [hc] at h; exact absurd h (by simp)
    | ok css =>
    rw [hc] at h
    simp only [Except.ok.injEq, Option.some.injEq] at h
    refine ⟨css, h.symm, ?_⟩
    rw [mapE_ok_iff] at hc
    have hof : ∀ g ∈ g0 :: gs, ∃ l, inp.lossMap.get? g.pg.cmp = some l := by
      intro g hg
      rw [← hG] at hg
      obtain ⟨l, _, hl, _⟩ := ofLf_iff.1 (mem_groupsOf.1 hg).2.1
      exact ⟨l, hl⟩
    rw [List.forall₂_iff_zip] at hc ⊢
    refine ⟨hc.1, ?_⟩
    intro g cs hm
    obtain ⟨l, hl⟩ := hof g (List.of_mem_zip hm).1
    exact ⟨l, hl, groupMedians_keys (hc.2 hm) l hl⟩

theorem medians_keys {params : LossLf.Params} {inp : Input} {blocks : List (PGid × Nat)} {cols : List (BlockKey × List (Option ℚ))}
    (h : medians params inp blocks = .ok (some cols)) (k : BlockKey) :
    k ∈ cols.map Prod.fst ↔ ∃ g ∈ groupsOf params inp blocks, inp.lossMap.get? g.pg.cmp = some k.loss ∧ k.pg = g.pg ∧ k.dv = g.dv ∧ k.block < g.blocks := by
  obtain ⟨css, rfl, hf⟩ := medians_parts h
  rw [List.map_flatten, List.mem_flatten]
  constructor
  · rintro ⟨ks, hks, hk⟩
    obtain ⟨cs, hcs, rfl⟩ := List.mem_map.1 hks
    obtain ⟨g, hg, l, hl, e⟩ := forall₂_mem_right hf hcs
    rw [e, List.mem_map] at hk
    obtain ⟨b, hb, rfl⟩ := hk
    exact ⟨g, hg, hl, rfl, rfl, List.mem_range.1 hb⟩
  · rintro ⟨g, hg, hl, h1, h2, h3⟩
    obtain ⟨cs, hcs, l, hl', e⟩ := forall₂_mem_left hf hg
    refine ⟨_, List.mem_map.2 ⟨cs, hcs, rfl⟩, ?_⟩
    rw [e, List.mem_map]
    rw [hl] at hl'
    cases hl'
    refine ⟨k.block, List.mem_range.2 h3, ?_⟩
    cases k
    simp_all

theorem medians_nodup {params : LossLf.Params} {inp : Input} {blocks : List (PGid × Nat)} {cols : List (BlockKey × List (Option ℚ))}
    (hdv : inp.dvs.Nodup) (hnd : (blocks.map (·.1)).Nodup)
    (h : medians params inp blocks = .ok (some cols)) : (cols.map Prod.fst).Nodup := by
  obtain ⟨css, rfl, hf⟩ := medians_parts h
  have hg := groupsOf_nodup (params := params) hnd hdv
  rw [List.map_flatten]
  clear h
  generalize groupsOf params inp blocks = G at *
  induction hf with
  | nil => simp
  | @cons g cs G css hgc hrest ih =>
    simp only [List.map_cons, List.nodup_cons] at hg
    simp only [List.map_cons, List.flatten_cons]
    rw [List.nodup_append]
    obtain ⟨l, hl, e⟩ := hgc
    refine ⟨?_, ih hg.2, ?_⟩
    · rw [e]
      refine List.Nodup.map ?_ List.nodup_range
      intro a b hab
      simpa using hab
    · intro a ha b hb hab
      subst hab
      rw [e, List.mem_map] at ha
      obtain ⟨i, _, rfl⟩ := ha
      rw [List.mem_flatten] at hb
      obtain ⟨ks, hks, hk⟩ := hb
      obtain ⟨cs', hcs', rfl⟩ := List.mem_map.1 hks
      obtain ⟨g', hg', l', _, e'⟩ := forall₂_mem_right hrest hcs'
      rw [e', List.mem_map] at hk
      obtain ⟨j, _, hj⟩ := hk
      injection hj with q1 q2 q3 q4
      exact hg.1 (List.mem_map.2 ⟨g', hg', by rw [q1, q3]⟩)

omit [LinearOrder F] [IsStrictOrderedRing F] [FloorRing F] in
/-- The variables of the model are the random blocks. -/
theorem mem_lfVars {params : LossLf.Params} {inp : Input} {blocks : List (PGid × Nat)} {cols : List (BlockKey × List (Option ℚ))}
    (spread : Str × Str → List F) (h : medians params inp blocks = .ok (some cols)) (v : DvVar F) :
    v ∈ lfVars params spread (cols.map Prod.fst) ↔ ∃ k f, RandomBlock params inp blocks k f ∧ v = ⟨blockLabel k, f, 1 :: spread (k.loss, k.dv)⟩ := by
  unfold lfVars
  simp only [List.mem_filterMap, mem_pySort]
  constructor
  · rintro ⟨k, hk, hv⟩
    obtain ⟨g, hg, hl, h1, h2, h3⟩ := (medians_keys h k).1 hk
    obtain ⟨g1, g2, g3, g4⟩ := mem_groupsOf.1 hg
    unfold blockVar at hv
    cases hp : params.get? (k.loss, k.dv) with
    | none => rw [hp] at hv; simp at hv
    | some p =>
      rw [hp] at hv
      simp only [Option.map_eq_some_iff] at hv
      obtain ⟨f, hf, rfl⟩ := hv
      exact ⟨k, f, ⟨⟨_, h1 ▸ g1, h3⟩, h2 ▸ g3, by rw [h1, h2]; exact g4, by rw [h1]; exact hl, p, hp, hf⟩, rfl⟩
  · rintro ⟨k, f, ⟨⟨nb, hb, hlt⟩, hd, hm, hl, p, hp, hf⟩, rfl⟩
    refine ⟨k, (medians_keys h k).2 ⟨⟨k.pg, k.dv, nb⟩, mem_groupsOf.2 ⟨hb, ?_, hd, hm⟩, hl, rfl, rfl, hlt⟩, ?_⟩
    · refine ofLf_iff.2 ⟨k.loss, k.dv, hl, ?_⟩
      rw [Dict.contains_iff]
      exact List.mem_map.2 ⟨_, Dict.mem_of_get? hp, rfl⟩
    · unfold blockVar
      rw [hp]
      simp only [hf, Option.map_some]

omit [IsStrictOrderedRing F] in
theorem calculate_parts {N : Num F} {params : LossLf.Params} {spread : Str × Str → List F} {inp : Input}
    {corr : Option (List (List F) → List (List F))} {n : Nat} {m : Method} {perm : Nat → List Nat} {jitter : Nat → List F}
    {blocks : List (PGid × Nat)} {out : List (LossLf.OutKey × List F)}
    (h : calculate N params spread inp corr n m perm jitter blocks = .ok (some out)) :
    ∃ cols std, medians params inp blocks = .ok (some cols) ∧
      devSample N 6 (lfVars params spread (cols.map Prod.fst)) corr n m perm jitter = .ok std ∧
      LossLf.calculate params inp (fun k => (List.range n).map fun i => devAt std i k) blocks = .ok (some out) := by
  unfold calculate at h
  unfold LossLf.calculate
  cases hm : medians params inp blocks with
  | error e => rw [hm] at h; simp at h
  | ok o =>
    rw [hm] at h
    cases o with
    | none => simp at h
    | some cols =>
      cases cols with
      | nil => simp at h
      | cons c cs =>
        simp only at h
        split at h
        · simp at h
        · cases hs : devSample N 6 (lfVars params spread ((c :: cs).map Prod.fst)) corr n m perm jitter with
          | error e => rw [hs] at h; simp at h
          | ok std =>
            rw [hs] at h
            exact ⟨_, std, rfl, hs, h⟩

/-- What the sample of a normal or lognormal variable is. -/
theorem kind_cdf {N : Num F} {f : Str} {t : F} {spread u : List F} {k : RVKind F} {s : List (Ext F)}
    (hk : kindOf f (t :: spread) = .ok k) (hi : k.inverse N u = .ok (s, u)) :
    (f = str "normal" ∨ f = str "lognormal") ∧ ∃ c, spread.head? = some c ∧
      (0 < N.eps → 0 < t → 0 < c → ∀ (i : Nat) (y : F), u[i]? = some y → 0 ≤ y → y < 1 →
        ∃ x, s[i]? = some (.fin x) ∧ 0 ≤ x ∧ (f = str "lognormal" → 0 < x) ∧ devCdf N f t c x = y) := by
  unfold kindOf at hk
  by_cases hf : f = str "normal"
  · subst hf
    simp only [if_true] at hk
    cases spread with
    | nil => simp at hk
    | cons c rest =>
      simp only at hk
      refine ⟨.inl rfl, c, rfl, ?_⟩
      intro he ht hc i y hy h0 h1
      unfold covStd at hk
      split at hk
      · simp [Except.map] at hk
      · simp only [Except.map, Except.ok.injEq] at hk
        subst hk
        obtain ⟨w, hw1, hw2⟩ := forall₂_get (inverse_normal hi) hy
        obtain ⟨x, rfl, hx0, hx1⟩ := normal_cut N.D he (mul_pos ht hc) h0 h1 hw2
        refine ⟨x, hw1, hx0, fun hh => absurd hh (by decide), ?_⟩
        unfold devCdf
        rw [if_pos rfl]
        exact hx1
  · rw [if_neg hf] at hk
    by_cases hf' : f = str "lognormal"
    · subst hf'
      simp only [if_true] at hk
      cases spread with
      | nil => simp at hk
      | cons c rest =>
        cases rest with
        | cons _ _ => simp at hk
        | nil =>
          simp only [Except.ok.injEq] at hk
          subst hk
          refine ⟨.inr rfl, c, rfl, ?_⟩
          intro he ht hc i y hy h0 h1
          obtain ⟨w, hw1, hw2⟩ := forall₂_get (inverse_lognormal hi) hy
          obtain ⟨x, rfl, hx0, hx1⟩ := lognormal_cut N.D N.E he ht hc h0 h1 hw2
          refine ⟨x, hw1, hx0.le, fun _ => hx0, ?_⟩
          unfold devCdf
          rw [if_neg (by decide)]
          exact hx1
    · rw [if_neg hf'] at hk
      split at hk <;> simp at hk

omit [IsStrictOrderedRing F] [FloorRing F] in
/-- The number of the row of random numbers of a block. -/
def numberOf (params : LossLf.Params) (spread : Str × Str → List F) (inp : Input) (blocks : List (PGid × Nat)) (k : BlockKey) : Nat :=
  match medians params inp blocks with
  | .ok (some cols) => ((lfVars params spread (cols.map Prod.fst)).map DvVar.label).idxOf (blockLabel k)
  | _ => 0

/-- The explanation, with the labels of the variables. -/
theorem explained_at {N : Num F} {params : LossLf.Params} {spread : Str × Str → List F} {inp : Input}
    {corr : Option (List (List F) → List (List F))} {n : Nat} {m : Method} {perm : Nat → List Nat} {jitter : Nat → List F}
    {blocks : List (PGid × Nat)} {out : List (LossLf.OutKey × List F)}
    (hdv : inp.dvs.Nodup) (hnd : (blocks.map (·.1)).Nodup) (hb : ∀ b ∈ blocks, 1 ≤ b.2)
    (h : calculate N params spread inp corr n m perm jitter blocks = .ok (some out)) :
    ∃ (d u : Label → List F) (dev : Nat → BlockKey → F) (vars : List (DvVar F)),
      (∀ v, v ∈ vars ↔ ∃ k f, RandomBlock params inp blocks k f ∧ v = ⟨blockLabel k, f, 1 :: spread (k.loss, k.dv)⟩) ∧
      LossLf.calculate params inp (fun k => (List.range n).map fun i => dev i k) blocks = .ok (some out) ∧
      Explained N params spread inp n m perm jitter blocks out (numberOf params spread inp blocks) (fun k => d (blockLabel k)) (fun k => u (blockLabel k)) dev ∧
      (corr = none → ∀ v ∈ vars, u v.label = d v.label) ∧
      (∀ P : List F → Prop, (∀ v ∈ vars, P (d v.label)) →
        (∀ C, corr = some C → ∀ rs, (∀ r ∈ rs, P r) → ∀ r ∈ C rs, P r) → ∀ v ∈ vars, P (u v.label)) ∧
      (∀ v ∈ vars, ∀ p ∈ v.label, '-' ∉ p) ∧
      (∀ k f, RandomBlock params inp blocks k f → f = str "normal" ∨ f = str "lognormal") ∧
      ∀ C, corr = some C →
        (∀ v ∈ vars,
          (∀ w ∈ vars, (str "Cost").isPrefixOf (name w.label) = true → name v.label ≠ timeName (name w.label)) →
          ((str "Cost").isPrefixOf (name v.label) = true → ∀ w ∈ vars, name w.label ≠ timeName (name v.label)) →
          u v.label = d v.label) ∧
        ((∀ v ∈ vars, Plain v.label) → ∀ rest a b, str "Cost" :: rest ∈ vars.map DvVar.label → str "Time" :: rest ∈ vars.map DvVar.label →
          C [d (str "Cost" :: rest), d (str "Time" :: rest)] = [a, b] →
          u (str "Cost" :: rest) = a ∧ u (str "Time" :: rest) = b) := by
  obtain ⟨cols, std, h1, h2, h3⟩ := calculate_parts h
  have hmem := mem_lfVars spread h1
  have hlen : ∀ v ∈ lfVars params spread (cols.map Prod.fst), v.label.length = 6 + 1 := by
    intro v hv
    obtain ⟨k, f, _, rfl⟩ := (hmem v).1 hv
    rfl
  obtain ⟨g1, g2, d, u, g3, g4, g5, g6⟩ := devSample_rows N (by omega) hlen h2
  set vars := lfVars params spread (cols.map Prod.fst) with hvars
  have hidx : ∀ k f, RandomBlock params inp blocks k f → vars[(vars.map DvVar.label).idxOf (blockLabel k)]? =
      some ⟨blockLabel k, f, 1 :: spread (k.loss, k.dv)⟩ := by
    intro k f hr
    have hv := (hmem _).2 ⟨k, f, hr, rfl⟩
    obtain ⟨j, hj⟩ := List.mem_iff_getElem?.1 hv
    have hjl : (vars.map DvVar.label)[j]? = some (blockLabel k) := by rw [List.getElem?_map, hj]; rfl
    have hlt := (List.getElem?_eq_some_iff.1 hjl).1
    have heq := (List.getElem?_eq_some_iff.1 hjl).2
    have : (vars.map DvVar.label).idxOf (blockLabel k) = j := by
      rw [← heq]
      exact List.Nodup.idxOf_getElem g1 j hlt
    rw [this]; exact hj
  have hnum : numberOf params spread inp blocks = fun k => (vars.map DvVar.label).idxOf (blockLabel k) := by
    funext k
    unfold numberOf
    rw [h1]
  rw [hnum]
  refine ⟨d, u, devAt std, vars, hmem, h3, ⟨?_, ?_, ?_⟩, g4, g5, g2, ?_, g6⟩
  · intro k f k' f' hr hr' e
    have m1 : blockLabel k ∈ vars.map DvVar.label := List.mem_map_of_mem (f := DvVar.label) ((hmem _).2 ⟨k, f, hr, rfl⟩)
    exact blockLabel_inj (List.idxOf_inj m1 |>.1 e)
  · intro k f hr
    obtain ⟨kd, s, q1, q2, q3, q4⟩ := g3 _ _ (hidx k f hr)
    simp only at q1 q2 q3 q4
    refine ⟨q2, fun _ => ?_⟩
    obtain ⟨_, c, hc, hx⟩ := kind_cdf q1 q3
    refine ⟨c, hc, ?_⟩
    intro he hc0 i y _ hy h0 h1
    obtain ⟨x, e1, e2, e3, e4⟩ := hx he one_pos hc0 i y hy h0 h1
    have hdev : devAt std i k = x := by
      unfold devAt
      rw [q4]
      simp only [e1]
    rw [hdev]
    exact ⟨e2, e3, e4⟩
  · intro o ho
    obtain ⟨nb, r1, r2, r3, p, pl, edp, values, qs, r4, r5, r6, r7, r8, r9⟩ := C55_value params inp hdv _ blocks hnd hb out h3 o ho
    refine ⟨nb, r1, r2, r3, p, pl, edp, values, qs, r4, r5, r6, r7, r8, ?_⟩
    intro i q hi hq
    obtain ⟨s1, s2⟩ := r9 i q (devAt std i) hq (by
      intro k
      simp [hi])
    exact ⟨s1, s2⟩
  · intro k f hr
    obtain ⟨kd, s, q1, q2, q3, q4⟩ := g3 _ _ (hidx k f hr)
    exact (kind_cdf q1 q3).1

/-- The same, with any numbers of the rows. -/
theorem explained {N : Num F} {params : LossLf.Params} {spread : Str × Str → List F} {inp : Input}
    {corr : Option (List (List F) → List (List F))} {n : Nat} {m : Method} {perm : Nat → List Nat} {jitter : Nat → List F}
    {blocks : List (PGid × Nat)} {out : List (LossLf.OutKey × List F)}
    (hdv : inp.dvs.Nodup) (hnd : (blocks.map (·.1)).Nodup) (hb : ∀ b ∈ blocks, 1 ≤ b.2)
    (h : calculate N params spread inp corr n m perm jitter blocks = .ok (some out)) :
    ∃ (num : BlockKey → Nat) (d u : Label → List F) (dev : Nat → BlockKey → F) (vars : List (DvVar F)),
      (∀ v, v ∈ vars ↔ ∃ k f, RandomBlock params inp blocks k f ∧ v = ⟨blockLabel k, f, 1 :: spread (k.loss, k.dv)⟩) ∧
      LossLf.calculate params inp (fun k => (List.range n).map fun i => dev i k) blocks = .ok (some out) ∧
      Explained N params spread inp n m perm jitter blocks out num (fun k => d (blockLabel k)) (fun k => u (blockLabel k)) dev ∧
      (corr = none → ∀ v ∈ vars, u v.label = d v.label) ∧
      (∀ P : List F → Prop, (∀ v ∈ vars, P (d v.label)) →
        (∀ C, corr = some C → ∀ rs, (∀ r ∈ rs, P r) → ∀ r ∈ C rs, P r) → ∀ v ∈ vars, P (u v.label)) ∧
      (∀ v ∈ vars, ∀ p ∈ v.label, '-' ∉ p) ∧
      (∀ k f, RandomBlock params inp blocks k f → f = str "normal" ∨ f = str "lognormal") ∧
      ∀ C, corr = some C →
        (∀ v ∈ vars,
          (∀ w ∈ vars, (str "Cost").isPrefixOf (name w.label) = true → name v.label ≠ timeName (name w.label)) →
          ((str "Cost").isPrefixOf (name v.label) = true → ∀ w ∈ vars, name w.label ≠ timeName (name v.label)) →
          u v.label = d v.label) ∧
        ((∀ v ∈ vars, Plain v.label) → ∀ rest a b, str "Cost" :: rest ∈ vars.map DvVar.label → str "Time" :: rest ∈ vars.map DvVar.label →
          C [d (str "Cost" :: rest), d (str "Time" :: rest)] = [a, b] →
          u (str "Cost" :: rest) = a ∧ u (str "Time" :: rest) = b) := by
  obtain ⟨d, u, dev, vars, h⟩ := explained_at hdv hnd hb h
  exact ⟨_, d, u, dev, vars, h⟩

/-! ### C92 -/

/-- C92: without a correlation of costs and times, the losses are explained by deviations of the blocks that
have their distributions, each from a row of random numbers of its own. -/
theorem C92_deviations (N : Num F) (params : LossLf.Params) (spread : Str × Str → List F) (inp : Input) (n : Nat)
    (m : Method) (perm : Nat → List Nat) (jitter : Nat → List F) (blocks : List (PGid × Nat))
    (hdv : inp.dvs.Nodup) (hnd : (blocks.map (·.1)).Nodup) (hb : ∀ b ∈ blocks, 1 ≤ b.2) (out : List (LossLf.OutKey × List F))
    (h : calculate N params spread inp none n m perm jitter blocks = .ok (some out)) :
    ∃ num d dev, Explained N params spread inp n m perm jitter blocks out num d d dev := by
  obtain ⟨num, d, u, dev, vars, h0, _, ⟨h1, h2, h3⟩, h4, _⟩ := explained hdv hnd hb h
  refine ⟨num, fun k => d (blockLabel k), dev, h1, ?_, h3⟩
  intro k f hr
  obtain ⟨g1, g2⟩ := h2 k f hr
  have := h4 rfl _ ((h0 _).2 ⟨k, f, hr, rfl⟩)
  simp only at this
  simp only [this] at g2
  exact ⟨g1, g2⟩

/-- C92, when every component is mapped to itself: there is a loss for each performance group of a component
with loss functions and each decision variable that is not missing, and no other. -/
theorem C92_labels_partial (N : Num F) (params : LossLf.Params) (spread : Str × Str → List F) (inp : Input)
    (corr : Option (List (List F) → List (List F))) (n : Nat)
    (m : Method) (perm : Nat → List Nat) (jitter : Nat → List F) (blocks : List (PGid × Nat))
    (hdv : inp.dvs.Nodup) (hnd : (blocks.map (·.1)).Nodup) (hb : ∀ b ∈ blocks, 1 ≤ b.2)
    (hmap : ∀ c l, inp.lossMap.get? c = some l → l = c) (out : List (LossLf.OutKey × List F))
    (h : calculate N params spread inp corr n m perm jitter blocks = .ok (some out)) (dv loss : Str) (pg : PGid) :
    (∃ v, (⟨dv, loss, pg⟩, v) ∈ out) ↔ loss = pg.cmp ∧ inp.lossMap.get? pg.cmp = some loss ∧ (∃ n, (pg, n) ∈ blocks) ∧
      dv ∈ inp.dvs ∧ (pg.cmp, dv) ∉ inp.missing ∧ ∃ dv', params.contains (pg.cmp, dv') = true := by
  obtain ⟨cols, std, _, _, h3⟩ := calculate_parts h
  exact C79_same_consequence_partial params inp hdv _ blocks hnd hb out hmap h3 dv loss pg

/-- The word "Cost" is not in the names of a block, and in that of a decision variable only if that is
"Cost". -/
def NoCost (k : BlockKey) : Prop :=
  (k.dv = str "Cost" ∨ ¬ str "Cost" <:+: k.dv) ∧ ∀ s ∈ [k.loss, k.pg.cmp, k.pg.loc, k.pg.dir, k.pg.uid], ¬ str "Cost" <:+: s

omit [FloorRing F] [IsStrictOrderedRing F] [LinearOrder F] [Field F] in
theorem decStr_no_cost (n : Nat) : ¬ str "Cost" <:+: decStr n := by
  intro h
  have hm : 'C' ∈ decStr n := h.subset (by decide)
  exact absurd (decStr_digits n _ hm) (by decide)

/-- C92, with a correlation of costs and times: the rows for cost and time of the same block go through the
copula together, all other rows are left alone; provided that no name contains "Cost".  Without this
condition the claim is false, see `C92_cost_in_name`. -/
theorem C92_correlated_partial (N : Num F) (params : LossLf.Params) (spread : Str × Str → List F) (inp : Input) (n : Nat)
    (C : List (List F) → List (List F)) (hC : ∀ a b, ∃ a' b', C [a, b] = [a', b'])
    (m : Method) (perm : Nat → List Nat) (jitter : Nat → List F) (blocks : List (PGid × Nat))
    (hdv : inp.dvs.Nodup) (hnd : (blocks.map (·.1)).Nodup) (hb : ∀ b ∈ blocks, 1 ≤ b.2) (out : List (LossLf.OutKey × List F))
    (hn : ∀ k f, RandomBlock params inp blocks k f → NoCost k)
    (h : calculate N params spread inp (some C) n m perm jitter blocks = .ok (some out)) :
    ∃ num d u dev, Explained N params spread inp n m perm jitter blocks out num d u dev ∧
      (∀ k f f', k.dv = str "Cost" → RandomBlock params inp blocks k f →
        RandomBlock params inp blocks { k with dv := str "Time" } f' →
        C [d k, d { k with dv := str "Time" }] = [u k, u { k with dv := str "Time" }]) ∧
      ∀ k f, RandomBlock params inp blocks k f →
        (k.dv = str "Cost" → ¬ ∃ f, RandomBlock params inp blocks { k with dv := str "Time" } f) →
        (k.dv = str "Time" → ¬ ∃ f, RandomBlock params inp blocks { k with dv := str "Cost" } f) →
        u k = d k := by
  obtain ⟨num, d, u, dev, vars, h0, _, h1, _, _, h4, _, h5⟩ := explained hdv hnd hb h
  obtain ⟨g1, g2⟩ := h5 C rfl
  have hmem : ∀ {k : BlockKey} {f : Str}, RandomBlock params inp blocks k f → ∃ v ∈ vars, v.label = blockLabel k := by
    intro k f hr
    exact ⟨_, (h0 _).2 ⟨k, f, hr, rfl⟩, rfl⟩
  have hplain : ∀ v ∈ vars, Plain v.label := by
    intro v hv
    obtain ⟨k, f, hr, rfl⟩ := (h0 v).1 hv
    obtain ⟨n1, n2⟩ := hn k f hr
    refine ⟨?_, ?_⟩
    · simp only [blockLabel, List.head?_cons, Option.some.injEq]
      rcases n1 with n1 | n1
      · exact .inl n1
      · exact .inr fun a ha => ha ▸ n1
    · intro p hp
      simp only [blockLabel, List.tail_cons] at hp
      have : p ∈ [k.loss, k.pg.cmp, k.pg.loc, k.pg.dir, k.pg.uid] ∨ p = decStr k.block := by
        simp only [List.mem_cons, List.not_mem_nil, or_false] at hp ⊢
        tauto
      rcases this with hp | rfl
      · exact n2 p hp
      · exact decStr_no_cost _
  have htime : ∀ w ∈ vars, (str "Cost").isPrefixOf (name w.label) = true →
      ∃ k f, k.dv = str "Cost" ∧ RandomBlock params inp blocks k f ∧ w.label = blockLabel k ∧
        timeName (name w.label) = name (blockLabel { k with dv := str "Time" }) := by
    intro w hw hp
    obtain ⟨k, f, hr, rfl⟩ := (h0 w).1 hw
    obtain ⟨rest, q1, _, q3⟩ := plain_cost (by simp [blockLabel]) (hplain _ hw) hp
    simp only [blockLabel, List.cons.injEq] at q1
    obtain ⟨e, q1⟩ := q1
    exact ⟨k, f, e, hr, rfl, by rw [q3, ← q1]; rfl⟩
  have hdash : ∀ k f, RandomBlock params inp blocks k f → ∀ s ∈ blockLabel { k with dv := str "Time" }, '-' ∉ s := by
    intro k f hr s hs
    obtain ⟨v, hv, hl⟩ := hmem hr
    have := h4 v hv
    rw [hl] at this
    simp only [blockLabel] at hs
    rw [List.mem_cons] at hs
    rcases hs with rfl | hs
    · decide
    · exact this s (by simp only [blockLabel]; rw [List.mem_cons]; exact .inr hs)
  refine ⟨num, _, _, dev, h1, ?_, ?_⟩
  · intro k f f' hk hc ht
    obtain ⟨v, hv, hvl⟩ := hmem hc
    obtain ⟨w, hw, hwl⟩ := hmem ht
    have e1 : blockLabel k = str "Cost" :: [k.loss, k.pg.cmp, k.pg.loc, k.pg.dir, k.pg.uid, decStr k.block] := by
      rw [← hk]; rfl
    have e2 : blockLabel { k with dv := str "Time" } = str "Time" :: [k.loss, k.pg.cmp, k.pg.loc, k.pg.dir, k.pg.uid, decStr k.block] := rfl
    simp only [e1, e2]
    rw [e1] at hvl
    rw [e2] at hwl
    obtain ⟨a, b, hab⟩ := hC (d (str "Cost" :: [k.loss, k.pg.cmp, k.pg.loc, k.pg.dir, k.pg.uid, decStr k.block]))
      (d (str "Time" :: [k.loss, k.pg.cmp, k.pg.loc, k.pg.dir, k.pg.uid, decStr k.block]))
    obtain ⟨e1, e2⟩ := g2 hplain _ a b (List.mem_map.2 ⟨v, hv, hvl⟩) (List.mem_map.2 ⟨w, hw, hwl⟩) hab
    rw [hab]
    exact congrArg₂ (fun a b => [a, b]) e1.symm e2.symm
  · intro k f hr hA hB
    obtain ⟨v, hv, hvl⟩ := hmem hr
    have := g1 v hv (by
      intro w hw hp e
      obtain ⟨k', f', hk', hr', _, e'⟩ := htime w hw hp
      rw [e', hvl] at e
      have hvd := h4 v hv
      rw [hvl] at hvd
      have := blockLabel_inj (name_inj (by simp [blockLabel]) (by simp [blockLabel]) hvd (hdash k' f' hr') e)
      subst this
      refine hB rfl ⟨f', ?_⟩
      rw [← hk']
      exact hr') (by
      intro hp w hw e
      obtain ⟨k', f', hk', hr', el, e'⟩ := htime v hv hp
      rw [hvl] at el
      have := blockLabel_inj el
      subst this
      rw [e'] at e
      obtain ⟨k2, f2, hr2, rfl⟩ := (h0 w).1 hw
      have := blockLabel_inj (name_inj (by simp [blockLabel]) (by simp [blockLabel]) (h4 _ hw) (hdash k f hr) e)
      subst this
      exact hA hk' ⟨f2, hr2⟩)
    rw [hvl] at this
    exact this

/-- Violation of C92: the time of a component whose name contains "Cost" is not correlated with its cost,
whatever correlation is asked for: its row of random numbers is left alone. -/
theorem C92_cost_in_name (N : Num F) (params : LossLf.Params) (spread : Str × Str → List F) (inp : Input) (n : Nat)
    (C : List (List F) → List (List F))
    (m : Method) (perm : Nat → List Nat) (jitter : Nat → List F) (blocks : List (PGid × Nat))
    (hdv : inp.dvs.Nodup) (hnd : (blocks.map (·.1)).Nodup) (hb : ∀ b ∈ blocks, 1 ≤ b.2) (out : List (LossLf.OutKey × List F))
    (h : calculate N params spread inp (some C) n m perm jitter blocks = .ok (some out)) :
    ∃ num d u dev, Explained N params spread inp n m perm jitter blocks out num d u dev ∧
      ∀ k f, RandomBlock params inp blocks k f → k.dv = str "Time" → str "Cost" <:+: k.pg.cmp → u k = d k := by
  obtain ⟨num, d, u, dev, vars, h0, _, h1, _, _, _, _, h5⟩ := explained hdv hnd hb h
  obtain ⟨g1, _⟩ := h5 C rfl
  refine ⟨num, _, _, dev, h1, ?_⟩
  intro k f hr hk hi
  have hin : str "Cost" <:+: name (blockLabel k) := by
    have e : name (blockLabel k) = (k.dv ++ '-' :: k.loss ++ str "-") ++ k.pg.cmp ++ ('-' :: name [k.pg.loc, k.pg.dir, k.pg.uid, decStr k.block]) := by
      show name (k.dv :: k.loss :: k.pg.cmp :: [k.pg.loc, k.pg.dir, k.pg.uid, decStr k.block]) = _
      rw [name_cons (by simp), name_cons (by simp), name_cons (by simp)]
      simp [str]
    rw [e]
    exact hi.trans ⟨_, _, rfl⟩
  exact g1 _ ((h0 _).2 ⟨k, f, hr, rfl⟩) (by
    intro w _ _ e
    simp only at e
    rw [e] at hin
    exact timeName_no_cost _ hin) (by
    intro hp
    have e : blockLabel k = str "Time" :: [k.loss, k.pg.cmp, k.pg.loc, k.pg.dir, k.pg.uid, decStr k.block] := by
      rw [← hk]; rfl
    simp only [e] at hp
    exact absurd (cost_prefix (by simp) hp) (by decide))

/-- C92, with the Gaussian copula for a correlation `r` (`r * r + s * s = 1`): the numbers for cost stay as
they were drawn, those for time become the distribution function of the correlated normal variable. -/
theorem C92_gaussian_partial (N : Num F) (params : LossLf.Params) (spread : Str × Str → List F) (inp : Input) (n : Nat) (r s : F)
    (m : Method) (perm : Nat → List Nat) (jitter : Nat → List F) (blocks : List (PGid × Nat))
    (hdv : inp.dvs.Nodup) (hnd : (blocks.map (·.1)).Nodup) (hb : ∀ b ∈ blocks, 1 ≤ b.2) (out : List (LossLf.OutKey × List F))
    (hn : ∀ k f, RandomBlock params inp blocks k f → NoCost k)
    (h : calculate N params spread inp (some (gauss2 N.D r s)) n m perm jitter blocks = .ok (some out)) :
    ∃ num d u dev, Explained N params spread inp n m perm jitter blocks out num d u dev ∧
      ∀ k f f', k.dv = str "Cost" → RandomBlock params inp blocks k f →
        RandomBlock params inp blocks { k with dv := str "Time" } f' → (∀ x ∈ d k, 0 < x ∧ x < 1) →
        u k = d k ∧
        ∀ (i : Nat) (x y : F), (d k)[i]? = some x → (d { k with dv := str "Time" })[i]? = some y →
          (u { k with dv := str "Time" })[i]? = some (N.D.cdf (r * N.D.ppf x + s * N.D.ppf y)) := by
  obtain ⟨num, d, u, dev, h1, h2, _⟩ := C92_correlated_partial N params spread inp n (gauss2 N.D r s)
    (fun a b => ⟨_, _, rfl⟩) m perm jitter blocks hdv hnd hb out hn h
  refine ⟨num, d, u, dev, h1, ?_⟩
  intro k f f' hk hc ht hx
  have := h2 k f f' hk hc ht
  simp only [gauss2, List.cons.injEq, and_true] at this
  obtain ⟨e1, e2⟩ := this
  constructor
  · rw [← e1]
    conv_rhs => rw [← List.map_id (d k)]
    refine List.map_congr_left ?_
    intro x hxm
    rw [one_mul, N.D.cdf_ppf (hx x hxm).1 (hx x hxm).2]
    rfl
  · intro i x y h1 h2
    rw [← e2, List.getElem?_zipWith, h1, h2]

/-- C92: with Latin hypercube sampling the share of realizations in which the deviation of a block is below
a value is its distribution function at that value, up to one realization. -/
theorem C92_share (N : Num F) (he : 0 < N.eps) (params : LossLf.Params) (spread : Str × Str → List F) (inp : Input) (n : Nat)
    (m : Method) (hm : m = .lhs ∨ m = .lhsMidpoint) (perm : Nat → List Nat) (jitter : Nat → List F) (hne : 0 < n) (hd : GoodDraws n perm jitter)
    (blocks : List (PGid × Nat))
    (hdv : inp.dvs.Nodup) (hnd : (blocks.map (·.1)).Nodup) (hb : ∀ b ∈ blocks, 1 ≤ b.2) (out : List (LossLf.OutKey × List F))
    (h : calculate N params spread inp none n m perm jitter blocks = .ok (some out)) :
    ∃ num d dev, Explained N params spread inp n m perm jitter blocks out num d d dev ∧
      ∀ k f c, RandomBlock params inp blocks k f → (f = str "normal" ∨ f = str "lognormal") →
        (spread (k.loss, k.dv)).head? = some c → 0 < c → ∀ y, N.eps ≤ y →
        ⌊(n : F) * devCdf N f 1 c y⌋₊ ≤ (List.range n).countP (fun i => decide (dev i k < y)) ∧
        (List.range n).countP (fun i => decide (dev i k < y)) ≤ ⌈(n : F) * devCdf N f 1 c y⌉₊ := by
  obtain ⟨num, d, dev, hE⟩ := C92_deviations N params spread inp n m perm jitter blocks hdv hnd hb out h
  refine ⟨num, d, dev, hE, ?_⟩
  intro k f c hr hf hsp hc y hy
  obtain ⟨g1, g2⟩ := hE.2.1 k f hr
  obtain ⟨c', g3, g4⟩ := g2 hf
  rw [hsp] at g3
  cases g3
  obtain ⟨d1, d2, d3⟩ := hd (num k)
  have hs := (drawRow_stratified hne hm d1 d2 d3 g1).1
  have hlt := drawRow_lt hne hd (num k) g1
  have hy0 : 0 < y := lt_of_lt_of_le he hy
  obtain ⟨r1, r2⟩ := devCdf_range N he (f := f) one_pos hc hy
  have hcount : (List.range n).countP (fun i => decide (dev i k < y)) =
      (d k).countP (fun x => decide (x < devCdf N f 1 c y)) := by
    have e : d k = (List.range n).map fun i => (d k).getD i 0 := by
      refine List.ext_getElem (by simp [hlt.1]) ?_
      intro i h1 h2
      simp [List.getD_eq_getElem?_getD, h1]
    rw [e, List.countP_map]
    refine List.countP_congr ?_
    intro i hi
    have hi' : i < (d k).length := by rw [hlt.1]; exact List.mem_range.1 hi
    have hg : (d k)[i]? = some (d k)[i] := List.getElem?_eq_getElem hi'
    obtain ⟨x0, x1⟩ := hlt.2 _ (List.getElem_mem hi')
    obtain ⟨q1, q2, q3⟩ := g4 he hc i _ (List.mem_range.1 hi) hg x0 x1
    have hx : (d k).getD i 0 = (d k)[i] := by rw [List.getD_eq_getElem?_getD, hg]; rfl
    simp only [Function.comp, hx, decide_eq_true_eq]
    rw [← q3]
    refine (devCdf_lt N one_pos hc hy0 ?_).symm
    rcases hf with hf | hf
    · exact .inl hf
    · exact .inr (q2 hf)
  rw [hcount]
  exact DmgSample.stratified_count hne hs r1 r2

/-- C92: a dash in a name of a random block stops the calculation. -/
theorem C92_dashes_refused (N : Num F) (params : LossLf.Params) (spread : Str × Str → List F) (inp : Input)
    (corr : Option (List (List F) → List (List F))) (n : Nat)
    (m : Method) (perm : Nat → List Nat) (jitter : Nat → List F) (blocks : List (PGid × Nat))
    (hdv : inp.dvs.Nodup) (hnd : (blocks.map (·.1)).Nodup) (hb : ∀ b ∈ blocks, 1 ≤ b.2) (out : List (LossLf.OutKey × List F))
    (k : BlockKey) (f : Str) (hr : RandomBlock params inp blocks k f)
    (hd : ∃ s ∈ [k.dv, k.loss, k.pg.cmp, k.pg.loc, k.pg.dir, k.pg.uid], '-' ∈ s) :
    calculate N params spread inp corr n m perm jitter blocks ≠ .ok (some out) := by
  intro h
  obtain ⟨num, d, u, dev, vars, h0, _, _, _, _, h4, _⟩ := explained hdv hnd hb h
  obtain ⟨s, hs, hs'⟩ := hd
  refine h4 _ ((h0 _).2 ⟨k, f, hr, rfl⟩) s ?_ hs'
  simp only [blockLabel, List.mem_cons] at hs ⊢
  tauto

omit [FloorRing F] in
theorem sumColumns_nonneg : ∀ (cols : List (List (Option F))), (∀ c ∈ cols, ∀ x ∈ c, 0 ≤ x.getD 0) → ∀ y ∈ sumColumns cols, 0 ≤ y
  | [], _, y, hy => by simp [sumColumns] at hy
  | [c], h, y, hy => by
    simp only [sumColumns, List.mem_map] at hy
    obtain ⟨x, hx, rfl⟩ := hy
    exact h c (by simp) x hx
  | c :: c' :: cs, h, y, hy => by
    rw [sumColumns_nil_or _ _ (by simp)] at hy
    obtain ⟨i, hi⟩ := List.mem_iff_getElem?.1 hy
    rw [List.getElem?_zipWith] at hi
    split at hi
    · rename_i a b ha hb
      injection hi with hi
      rw [← hi]
      exact add_nonneg (h c (by simp) a (List.mem_of_getElem? ha))
        (sumColumns_nonneg (c' :: cs) (fun c hc => h c (by simp [hc])) b (List.mem_of_getElem? hb))
    · simp at hi

/-- C92: losses are never negative, because the deviations are cut at zero. -/
theorem C92_nonneg (N : Num F) (he : 0 < N.eps) (params : LossLf.Params) (spread : Str × Str → List F) (inp : Input)
    (corr : Option (List (List F) → List (List F))) (n : Nat)
    (m : Method) (perm : Nat → List Nat) (jitter : Nat → List F) (hd : GoodDraws n perm jitter) (blocks : List (PGid × Nat))
    (hdv : inp.dvs.Nodup) (hnd : (blocks.map (·.1)).Nodup) (hb : ∀ b ∈ blocks, 1 ≤ b.2)
    (hcorr : ∀ C, corr = some C → ∀ rs, (∀ r ∈ rs, r.length = n ∧ ∀ x ∈ r, 0 ≤ x ∧ x < 1) →
      ∀ r ∈ C rs, r.length = n ∧ ∀ x ∈ r, 0 ≤ x ∧ x < 1)
    (hpar : ∀ key p, params.get? key = some p → (p.points.map Prod.fst).Nodup ∧ ∀ q ∈ p.points, 0 ≤ q.2)
    (hspread : ∀ key, ∀ c ∈ spread key, 0 < c)
    (hqty : ∀ pg qs, inp.qty.get? pg = some qs → ∀ q ∈ qs, 0 ≤ q) (out : List (LossLf.OutKey × List F))
    (h : calculate N params spread inp corr n m perm jitter blocks = .ok (some out)) :
    ∀ o ∈ out, ∀ x ∈ o.2, 0 ≤ x := by
  intro o ho x hx
  obtain ⟨num, d, u, dev, vars, h0, hcalc, ⟨_, h2, _⟩, _, h5, _, hfam, _⟩ := explained hdv hnd hb h
  have hdevs : ∀ k f, RandomBlock params inp blocks k f → ∀ i, i < n → 0 ≤ dev i k := by
    intro k f hr i hi
    obtain ⟨_, g2⟩ := h2 k f hr
    obtain ⟨c, g3, g4⟩ := g2 (hfam k f hr)
    have hn : 0 < n := by omega
    have hu := h5 (fun r => r.length = n ∧ ∀ x ∈ r, 0 ≤ x ∧ x < 1) (by
      intro v hv
      obtain ⟨k', f', hr', rfl⟩ := (h0 v).1 hv
      exact drawRow_lt hn hd _ (h2 k' f' hr').1) hcorr _ ((h0 _).2 ⟨k, f, hr, rfl⟩)
    simp only at hu
    have hiu : i < (u (blockLabel k)).length := by rw [hu.1]; exact hi
    obtain ⟨x0, x1⟩ := hu.2 _ (List.getElem_mem hiu)
    exact (g4 he (hspread _ c (List.mem_of_mem_head? g3)) i _ hi (List.getElem?_eq_getElem hiu) x0 x1).1
  obtain ⟨es, demand, cores, r1, r2, r3, rfl⟩ := calculate_ok hdv hnd hb hcalc
  obtain ⟨g, c, hgc, rfl⟩ := zip3_mem ho
  have hcore : core params inp es demand g = .ok c := by
    rw [mapE_ok_iff, List.forall₂_iff_zip] at r3
    exact r3.2 hgc
  have hg := mem_groupsOf.1 (List.of_mem_zip hgc).1
  obtain ⟨k1, kk, values, p, _, _, k4, k5, k6⟩ := core_ok hcore
  obtain ⟨p1, p2⟩ := hpar _ p k4
  have hmed : ∀ y, some y ∈ c.medians → 0 ≤ y := by
    intro y hy
    rw [mapE_ok_iff] at k5
    obtain ⟨v, _, hv⟩ := forall₂_mem_right k5 hy
    cases v with
    | none => simp [lossFunction] at hv
    | some v =>
      simp only [lossFunction] at hv
      split at hv
      · rename_i hr
        simp only [Except.ok.injEq, Option.some.injEq] at hv
        rw [← hv]
        have hmem : ∀ r, r ∈ sortedPoints p.points ↔ r ∈ p.points := fun r => mem_pySort
        have hne : sortedPoints p.points ≠ [] := by
          unfold inRange at hr
          simp only [Bool.and_eq_true, List.any_eq_true, decide_eq_true_eq] at hr
          obtain ⟨⟨q, hq, _⟩, _⟩ := hr
          exact List.ne_nil_of_mem ((hmem q).2 hq)
        refine (interp_range hne (sortedPoints_asc p1) 0 (((sortedPoints p.points).map Prod.snd).sum) _ ?_).1
        intro s hs
        refine ⟨p2 s ((hmem s).1 hs), ?_⟩
        refine List.single_le_sum ?_ _ (List.mem_map.2 ⟨s, hs, rfl⟩)
        intro y hy
        obtain ⟨t, ht, rfl⟩ := List.mem_map.1 hy
        exact p2 t ((hmem t).1 ht)
      · simp at hv
  simp only at hx
  refine sumColumns_nonneg _ ?_ x hx
  intro col hcol y hy
  obtain ⟨e, he', rfl⟩ := List.mem_map.1 hcol
  obtain ⟨e', he'', rfl⟩ := List.mem_map.1 he'
  unfold expand at he''
  obtain ⟨b, hbm, rfl⟩ := List.mem_map.1 he''
  have hentry : ∀ z, some z ∈ List.zipWith (fun m q => blockMedian q g.blocks m) c.medians c.q → 0 ≤ z := by
    intro z hz
    obtain ⟨i, hi⟩ := List.mem_iff_getElem?.1 hz
    rw [List.getElem?_zipWith] at hi
    split at hi
    · rename_i a q ha hq
      simp only [Option.some.injEq] at hi
      cases a with
      | none => simp [blockMedian] at hi
      | some a =>
        simp only [blockMedian, Option.map_some, Option.some.injEq] at hi
        rw [← hi]
        exact div_nonneg (mul_nonneg (hmed a (List.mem_of_getElem? ha)) (hqty _ _ k6 q (List.mem_of_getElem? hq))) (Nat.cast_nonneg _)
    · simp at hi
  have hcast : ∀ y ∈ (castCol (F := F) ((⟨g.dv, c.loss, g.pg, b⟩ : BlockKey), List.zipWith (fun m q => blockMedian q g.blocks m) c.medians c.q)).2, 0 ≤ y.getD 0 := by
    intro y hy
    simp only [castCol] at hy
    obtain ⟨z, hz, rfl⟩ := List.mem_map.1 hy
    cases z with
    | none => simp
    | some z =>
      simp only [Option.map_some, Option.getD_some]
      exact Rat.cast_nonneg.2 (hentry z hz)
  unfold devCol at hy
  cases hp : params.get? (c.loss, g.dv) with
  | none => simp only [hp] at hy; exact hcast y hy
  | some pl =>
    simp only [hp] at hy
    cases hf : pl.family with
    | none => simp only [hf] at hy; exact hcast y hy
    | some f =>
      simp only [hf] at hy
      obtain ⟨i, hi⟩ := List.mem_iff_getElem?.1 hy
      rw [List.getElem?_zipWith] at hi
      split at hi
      · rename_i a q ha hq
        simp only [Option.some.injEq] at hi
        cases a with
        | none => rw [← hi]; simp
        | some a =>
          rw [← hi]
          simp only [Option.map_some, Option.getD_some]
          refine mul_nonneg (Rat.cast_nonneg.2 (hentry a (List.mem_of_getElem? ha))) ?_
          have hin : i < n := by
            have := (List.getElem?_eq_some_iff.1 hq).1
            simpa using this
          rw [List.getElem?_map, List.getElem?_range hin] at hq
          simp only [Option.map_some, Option.some.injEq] at hq
          rw [← hq]
          exact hdevs _ f ⟨⟨_, hg.1, List.mem_range.1 hbm⟩, hg.2.2.1, hg.2.2.2, k1, pl, hp, hf⟩ i hin
      · simp at hi

/-- C92: if components are mapped to consequences of the same name, there is something to calculate, each has
what it needs, and random deviations have usable parameters and no dashes in their names, then there is a
result. -/
theorem C92_succeeds (N : Num F) (he : 0 < N.eps) (params : LossLf.Params) (spread : Str × Str → List F) (inp : Input)
    (corr : Option (List (List F) → List (List F))) (n : Nat)
    (m : Method) (hm : m ≠ .other) (perm : Nat → List Nat) (jitter : Nat → List F) (blocks : List (PGid × Nat))
    (hdv : inp.dvs.Nodup) (hnd : (blocks.map (·.1)).Nodup) (hb : ∀ b ∈ blocks, 1 ≤ b.2)
    (hmap : ∀ c l, inp.lossMap.get? c = some l → l = c)
    (hsome : ∃ pg dv, Calculated params inp blocks pg dv)
    (hready : ∀ pg dv, Calculated params inp blocks pg dv → Ready params inp pg dv)
    (hrand : ∀ k f, RandomBlock params inp blocks k f → Usable N f 1 (spread (k.loss, k.dv)) ∧
      ∀ s ∈ [k.dv, k.loss, k.pg.cmp, k.pg.loc, k.pg.dir, k.pg.uid], '-' ∉ s) :
    ∃ out, calculate N params spread inp corr n m perm jitter blocks = .ok (some out) := by
  have hall := fun dev : BlockKey → List F => (C55_succeeds_iff params inp hdv dev blocks hnd hb hmap).2 ⟨hsome, hready⟩
  have hmeds : ∃ c cs, medians params inp blocks = .ok (some (c :: cs)) ∧ ∀ x ∈ c :: cs, ∃ p, params.get? (x.1.loss, x.1.dv) = some p := by
    obtain ⟨out, ho⟩ := hall fun _ => []
    unfold LossLf.calculate at ho
    cases h1 : medians params inp blocks with
    | error e => rw [h1] at ho; simp at ho
    | ok o =>
      rw [h1] at ho
      cases o with
      | none => simp at ho
      | some cols =>
        cases cols with
        | nil => simp [sampleOf] at ho
        | cons c cs =>
          refine ⟨c, cs, rfl, ?_⟩
          simp only [sampleOf] at ho
          cases h2 : mapE (deviate params fun _ => ([] : List F)) (c :: cs) with
          | error e => rw [h2] at ho; simp at ho
          | ok ds => exact (mapE_deviate_ok h2).2
  obtain ⟨c, cs, h1, h2⟩ := hmeds
  have hmem := mem_lfVars spread h1
  obtain ⟨std, hs⟩ := devSample_runs N (levels := 6) (by omega) (lfVars params spread ((c :: cs).map Prod.fst)) corr n m hm perm jitter
    (by
      intro v hv
      obtain ⟨k, f, hr, rfl⟩ := (hmem v).1 hv
      rfl)
    (by
      intro v hv s hs
      obtain ⟨k, f, hr, rfl⟩ := (hmem v).1 hv
      have : s ∈ [k.dv, k.loss, k.pg.cmp, k.pg.loc, k.pg.dir, k.pg.uid] ∨ s = decStr k.block := by
        simp only [blockLabel, List.mem_cons, List.not_mem_nil, or_false] at hs ⊢
        tauto
      rcases this with hs | rfl
      · exact (hrand k f hr).2 s hs
      · exact fun hd => absurd (decStr_digits _ _ hd) (by decide))
    (by
      unfold lfVars
      have hnd' := medians_nodup hdv hnd h1
      have hp : (pySort (fun a b => labelLe (blockLabel a) (blockLabel b)) ((c :: cs).map Prod.fst)).Nodup :=
        (pySort_perm _ _).nodup_iff.2 hnd'
      generalize pySort (fun a b => labelLe (blockLabel a) (blockLabel b)) ((c :: cs).map Prod.fst) = l at hp
      have hl : ∀ v ∈ l.filterMap (blockVar params spread), ∃ k ∈ l, v.label = blockLabel k := by
        intro v hv
        obtain ⟨k, hk, hv⟩ := List.mem_filterMap.1 hv
        refine ⟨k, hk, ?_⟩
        unfold blockVar at hv
        cases hpk : params.get? (k.loss, k.dv) with
        | none => rw [hpk] at hv; simp at hv
        | some p =>
          rw [hpk] at hv
          simp only [Option.map_eq_some_iff] at hv
          obtain ⟨f, _, rfl⟩ := hv
          rfl
      induction l with
      | nil => simp
      | cons k l ih =>
        rw [List.nodup_cons] at hp
        have hl' : ∀ v ∈ l.filterMap (blockVar params spread), ∃ k ∈ l, v.label = blockLabel k := by
          intro v hv
          obtain ⟨k', hk', hv'⟩ := List.mem_filterMap.1 hv
          refine ⟨k', hk', ?_⟩
          unfold blockVar at hv'
          cases hpk : params.get? (k'.loss, k'.dv) with
          | none => rw [hpk] at hv'; simp at hv'
          | some p =>
            rw [hpk] at hv'
            simp only [Option.map_eq_some_iff] at hv'
            obtain ⟨f, _, rfl⟩ := hv'
            rfl
        rw [List.filterMap_cons]
        cases hv : blockVar params spread k with
        | none => simp only; exact ih hp.2 hl'
        | some v =>
          simp only [List.map_cons, List.nodup_cons]
          refine ⟨?_, ih hp.2 hl'⟩
          intro hm
          obtain ⟨w, hw, e⟩ := List.mem_map.1 hm
          obtain ⟨k', hk', e'⟩ := hl' w hw
          have hvk : v.label = blockLabel k := by
            unfold blockVar at hv
            cases hpk : params.get? (k.loss, k.dv) with
            | none => rw [hpk] at hv; simp at hv
            | some p =>
              rw [hpk] at hv
              simp only [Option.map_eq_some_iff] at hv
              obtain ⟨f, _, rfl⟩ := hv
              rfl
          rw [e', hvk] at e
          exact hp.1 (blockLabel_inj e ▸ hk'))
    (by
      intro v hv
      obtain ⟨k, f, hr, rfl⟩ := (hmem v).1 hv
      exact usable_kind he (hrand k f hr).1)
  obtain ⟨out, ho⟩ := hall fun k => (List.range n).map fun i => devAt std i k
  refine ⟨out, ?_⟩
  unfold LossLf.calculate at ho
  unfold calculate
  rw [h1] at ho ⊢
  simp only at ho ⊢
  rw [if_neg, hs]
  · exact ho
  · rw [List.any_eq_true]
    rintro ⟨x, hx, hx'⟩
    obtain ⟨p, hp⟩ := h2 x hx
    have hin : (x.1.loss, x.1.dv) ∈ params.keys := List.mem_map.2 ⟨_, Dict.mem_of_get? hp, rfl⟩
    exact absurd hin (by simpa using hx')

/-! ### Examples -/

end

/-- A component with random costs and times. -/
def lfParams : LossLf.Params := [((str "A", str "Cost"), ⟨exDemand, [(0, 0), (2, 10)], some (str "normal")⟩),
  ((str "A", str "Time"), ⟨exDemand, [(0, 1), (2, 2)], some (str "lognormal")⟩)]

def lfInp : Input := { exInp with dvs := [str "Cost", str "Time"] }

def lfSpread : Str × Str → List ℚ := fun _ => [1 / 2]

def lfRun (corr : Option (List (List ℚ) → List (List ℚ))) : Except PyErr (Option (List (LossLf.OutKey × List ℚ))) :=
  calculate (ratNum (F := ℚ)) lfParams lfSpread lfInp corr 3 .lhsMidpoint (fun j => if j % 2 = 0 then [0, 1, 2] else [2, 0, 1]) (fun _ => [0, 0, 0])
    [(exPg "A" "1", 2)]

/-- The result in thousandths, rounded down. -/
def shown (r : Except PyErr (Option (List (LossLf.OutKey × List ℚ)))) : Option (List (Str × List ℤ)) :=
  r.toOption.bind fun o => o.map fun out => out.map fun e => (e.1.dv, e.2.map fun x => (x * 1000).floor)

set_option synthInstance.maxSize 4000 in
/-- Two blocks: the loss functions give 5 and 10 per unit for the cost, 1.5 and 2 for the time; there are 4 and 5 units.  In the last
realization there is no demand. -/
example : shown (lfRun none) = some [(str "Cost", [29818, 44545, 0]), (str "Time", [7500, 7500, 0])] := by decide +kernel

set_option synthInstance.maxSize 4000 in
/-- With a correlation the costs are the same, the times are not. -/
example : shown (lfRun (some (gauss2 ratNum.D (3 / 5) (4 / 5)))) = some [(str "Cost", [29818, 44545, 0]), (str "Time", [8450, 7083, 0])] := by
  decide +kernel

/-- The premises of the theorems for this case. -/
example : lfInp.dvs.Nodup ∧ GoodDraws (F := ℚ) 3 (fun j => if j % 2 = 0 then [0, 1, 2] else [2, 0, 1]) (fun _ => [0, 0, 0]) := by
  refine ⟨by decide +kernel, fun i => ⟨?_, rfl, show ∀ u ∈ ([0, 0, 0] : List ℚ), 0 ≤ u ∧ u < 1 by decide +kernel⟩⟩
  simp only
  split
  · decide
  · decide

def lfKey (dv : String) (b : Nat) : BlockKey := ⟨str dv, str "A", exPg "A" "1", b⟩

example : RandomBlock lfParams lfInp [(exPg "A" "1", 2)] (lfKey "Cost" 1) (str "normal") ∧
    RandomBlock lfParams lfInp [(exPg "A" "1", 2)] (lfKey "Time" 0) (str "lognormal") :=
  ⟨⟨⟨2, by decide, by decide⟩, by decide, by decide, by decide, _, rfl, rfl⟩, ⟨⟨2, by decide, by decide⟩, by decide, by decide, by decide, _, rfl, rfl⟩⟩

example : ∀ dv ∈ ["Cost", "Time"], ∀ b ∈ [0, 1], NoCost (lfKey dv b) ∧
    ∀ s ∈ [(lfKey dv b).dv, (lfKey dv b).loss, (lfKey dv b).pg.cmp, (lfKey dv b).pg.loc, (lfKey dv b).pg.dir, (lfKey dv b).pg.uid], '-' ∉ s := by
  unfold NoCost
  decide +kernel

example : (∀ p ∈ lfParams, (p.2.points.map Prod.fst).Nodup ∧ ∀ q ∈ p.2.points, 0 ≤ q.2) ∧
    Usable (ratNum (F := ℚ)) (str "normal") 1 [1 / 2] ∧ Usable (ratNum (F := ℚ)) (str "lognormal") 1 [1 / 2] :=
  ⟨by decide +kernel, ⟨1 / 2, rfl, by decide +kernel, .inl (by decide +kernel)⟩, ⟨1 / 2, rfl, by decide +kernel, .inr (by decide +kernel)⟩⟩

example : Ready lfParams lfInp (exPg "A" "1") (str "Cost") ∧ Calculated lfParams lfInp [(exPg "A" "1", 2)] (exPg "A" "1") (str "Cost") := by
  constructor
  · refine ⟨⟨exDemand, [(0, 0), (2, 10)], some (str "normal")⟩, ([str "PFA-1-1"], .absent), [some 1, some 2, none], [4, 5, 6], rfl, rfl, ?_, by decide +kernel, by decide +kernel, ?_⟩
    · intro e he
      simp only [List.mem_singleton] at he
      subst he
      exact ⟨str "PFA", str "1", str "1", by decide +kernel, str "1", _, List.mem_singleton.2 rfl⟩
    · intro x hx
      refine ⟨⟨(0, 0), by simp, ?_⟩, ⟨(2, 10), by simp, ?_⟩⟩ <;> simp at hx <;> rcases hx with rfl | rfl <;> norm_num
  · exact ⟨⟨2, by decide⟩, ⟨str "A", str "Cost", by decide, by decide⟩, by decide, by decide⟩

def otherRun (cmp : Str) (corr : Option (List (List ℚ) → List (List ℚ))) : Except PyErr (Option (List (LossLf.OutKey × List ℚ))) :=
  calculate (ratNum (F := ℚ)) [((cmp, str "Cost"), ⟨exDemand, [(0, 0), (2, 10)], some (str "normal")⟩),
    ((cmp, str "Time"), ⟨exDemand, [(0, 1), (2, 2)], some (str "normal")⟩)] lfSpread
    { lfInp with lossMap := [(cmp, cmp)], qty := [(⟨cmp, str "1", str "1", str "0"⟩, [4, 5, 6])] }
    corr 3 .lhsMidpoint (fun j => if j % 2 = 0 then [0, 1, 2] else [2, 0, 1]) (fun _ => [0, 0, 0]) [(⟨cmp, str "1", str "1", str "0"⟩, 1)]

/-- A component with "Cost" in its name gets times without correlation. -/
example : shown (otherRun (str "Costly") (some (gauss2 ratNum.D (3 / 5) (4 / 5)))) = shown (otherRun (str "Costly") none) ∧
    shown (otherRun (str "Dear") (some (gauss2 ratNum.D (3 / 5) (4 / 5)))) ≠ shown (otherRun (str "Dear") none) := by decide +kernel

/-- A name with a dash. -/
example : LossDs.errorOf (otherRun (str "A-1") none) = some .valueError ∧ LossDs.errorOf (otherRun (str "A.1") none) = none := by decide +kernel

end Verif.LossLfDev
