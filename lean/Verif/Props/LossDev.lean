import Verif.Lemmas.LossDev
import Verif.Lemmas.DmgSample
import Verif.Props.LossDs

/-! # Property C91: random deviations of repair consequences -/

namespace Verif.LossDev

open Verif.UQ Verif.FileIO Verif.LossDs

section
variable {F : Type} [Field F] [LinearOrder F]

/-! ### Specification -/

/-- The decision variable `dv` of the damaged quantity in column `k` has a random consequence: its
parameters are `p`, with the family `f`. -/
def Random (params : Params) (missing : List (Str × Str)) (cols : List DKey) (lossMap : List (Str × Str))
    (dvs : List Str) (dv : Str) (k : DKey) (loss : Str) (p : DsParam) (f : Str) : Prop :=
  dv ∈ dvs ∧ k ∈ cols ∧ Defined params missing lossMap dv loss k p ∧ p.family = some f

/-- The center of the distribution: the median, or one if that is a function of the quantity. -/
def center (p : DsParam) : F :=
  match p.theta with
  | .const x => (x : F)
  | .curve _ => 1

/-- The distribution function at `z` of a standard variable that is cut at `low`. -/
def cutCdf (D : StdDist F) (low z : F) : F := (D.cdf z - D.cdf low) / (1 - D.cdf low)

/-- The distribution function of a consequence that is not negative: normal with mean `t` and coefficient
of variation `c`, or lognormal with median `t` and dispersion `c` (`N.eps` is the smallest positive
number). -/
def devCdf (N : Num F) (f : Str) (t c y : F) : F :=
  if f = str "normal" then cutCdf N.D ((0 - t) / (t * c)) ((y - t) / (t * c))
  else cutCdf N.D ((N.E.log N.eps - N.E.log t) / c) ((N.E.log y - N.E.log t) / c)

variable [IsStrictOrderedRing F] [FloorRing F]

/-- `out` is explained by deviations: `dev i dv k` is the deviation of decision variable `dv` of column `k`
in realization `i`; `d dv k` is the row of random numbers drawn for it, the one with number `num dv k`, and
`u dv k` is that row after the correlation of costs and times.
* different consequences have different rows;
* a deviation is not negative and has the distribution of the consequence: its distribution function is
  the random number;
* each loss is the damaged quantity times the unit consequence times the deviation. -/
def Explained (N : Num F) (eco : Eco) (params : Params) (spread : Str × Str → Str → List F) (missing : List (Str × Str))
    (cols : List DKey) (lossMap : List (Str × Str)) (dvs : List Str)
    (m : Method) (perm : Nat → List Nat) (jitter : Nat → List F) (rows : List (DKey → Option ℚ))
    (out : List (OutKey × List F)) (num : Str → DKey → Nat) (d u : Str → DKey → List F) (dev : Nat → Str → DKey → F) : Prop :=
  (∀ dv k loss p f dv' k' loss' p' f', Random params missing cols lossMap dvs dv k loss p f →
    Random params missing cols lossMap dvs dv' k' loss' p' f' → num dv k = num dv' k' → dv = dv' ∧ k = k') ∧
  (∀ dv k loss p f, Random params missing cols lossMap dvs dv k loss p f →
    drawRow m rows.length (perm (num dv k)) (jitter (num dv k)) = .ok (d dv k) ∧
    (f = str "normal" ∨ f = str "lognormal") ∧
    ∃ c, (spread (loss, dv) k.ds).head? = some c ∧
      (0 < N.eps → 0 < center (F := F) p → 0 < c → ∀ (i : Nat) (y : F), (u dv k)[i]? = some y → 0 ≤ y → y < 1 →
        0 ≤ dev i dv k ∧ (f = str "lognormal" → 0 < dev i dv k) ∧ devCdf N f (center p) c (dev i dv k) = y)) ∧
  ∀ e ∈ out, ∃ dv ∈ dvs, ∃ k ∈ cols, ∃ loss p, Defined params missing lossMap dv loss k p ∧ e.1 = outKey dv loss k ∧
    e.2.length = rows.length ∧
    ∀ (i : Nat) (row : DKey → Option ℚ) (x : F), rows[i]? = some row → e.2[i]? = some x → IsLoss eco cols dv p k ⟨row, dev i⟩ x

/-! ### Lemmas -/

omit [FloorRing F] in
theorem normal_cut (D : StdDist F) {eps mu sig u : F} (he : 0 < eps) (hs : 0 < sig) (h0 : 0 ≤ u) (h1 : u < 1) {v : Ext F}
    (h : normalInverse D eps mu sig (some 0) none u = .ok v) :
    ∃ y, v = .fin y ∧ 0 ≤ y ∧ cutCdf D ((0 - mu) / sig) ((y - mu) / sig) = u := by
  have hw := C17_normal_within D he hs h0 h1.le h
  rw [normalInverse_eq D hs] at h
  simp only [truncated, Option.isSome_some, Bool.true_or, if_true] at h
  split at h
  · simp at h
  · simp only [Except.ok.injEq, pHigh, pLow] at h
    have hp := D.cdf_pos ((0 - mu) / sig)
    have hl := D.cdf_lt_one ((0 - mu) / sig)
    set P := D.cdf ((0 - mu) / sig) with hP
    have hq0 : 0 < u * (1 - P) + P := by nlinarith
    have hq1 : u * (1 - P) + P < 1 := by nlinarith
    rw [normPpf_eq D hs hq0.le hq1.le, if_neg hq0.ne', if_pos hq1] at h
    refine ⟨_, h.symm, ?_, ?_⟩
    · rw [← h] at hw
      exact Ext.Le.fin_iff.1 (hw.2.1 0 rfl)
    · unfold cutCdf
      have : (mu + sig * D.ppf (u * (1 - P) + P) - mu) / sig = D.ppf (u * (1 - P) + P) := by field_simp; ring
      rw [this, D.cdf_ppf hq0 hq1, ← hP]
      have : 1 - P ≠ 0 := by linarith
      field_simp
      ring

omit [FloorRing F] in
theorem lognormal_cut (D : StdDist F) (E : ExpLog F) {eps theta beta u : F} (he : 0 < eps) (ht : 0 < theta) (hb : 0 < beta)
    (h0 : 0 ≤ u) (h1 : u < 1) {v : Ext F}
    (h : lognormalInverse D E eps theta beta (some 0) none u = .ok v) :
    ∃ y, v = .fin y ∧ 0 < y ∧ cutCdf D ((E.log eps - E.log theta) / beta) ((E.log y - E.log theta) / beta) = u := by
  rw [lognormalInverse_eq D E he ht hb _ _ (by simp)] at h
  simp only [truncated, Option.isSome_some, Bool.true_or, if_true] at h
  split at h
  · simp at h
  · simp only [Except.ok.injEq, pHighL, lowerPos, le_refl, if_true] at h
    have hp := D.cdf_pos ((E.log eps - E.log theta) / beta)
    have hl := D.cdf_lt_one ((E.log eps - E.log theta) / beta)
    set P := D.cdf ((E.log eps - E.log theta) / beta) with hP
    have hq0 : 0 < u * (1 - P) + P := by nlinarith
    have hq1 : u * (1 - P) + P < 1 := by nlinarith
    rw [normPpf_eq D hb hq0.le hq1.le, if_neg hq0.ne', if_pos hq1] at h
    refine ⟨_, h.symm, E.exp_pos _, ?_⟩
    unfold cutCdf
    rw [E.log_exp]
    have : (E.log theta + beta * D.ppf (u * (1 - P) + P) - E.log theta) / beta = D.ppf (u * (1 - P) + P) := by field_simp; ring
    rw [this, D.cdf_ppf hq0 hq1, ← hP]
    have : 1 - P ≠ 0 := by linarith
    field_simp
    ring

omit [LinearOrder F] [IsStrictOrderedRing F] [FloorRing F] in
/-- The variables of the model are the random consequences. -/
theorem mem_dsVars (params : Params) (spread : Str × Str → Str → List F) (missing : List (Str × Str)) (cols : List DKey)
    (lossMap : List (Str × Str)) (dvs : List Str) (v : DvVar F) :
    v ∈ dsVars params spread missing cols lossMap dvs ↔ ∃ dv k loss p f, Random params missing cols lossMap dvs dv k loss p f ∧
      v = ⟨devLabel dv k, f, thetaOf p (spread (loss, dv) k.ds)⟩ := by
  unfold dsVars
  simp only [List.mem_flatMap, List.mem_filter, List.any_eq_true, decide_eq_true_eq]
  constructor
  · rintro ⟨⟨cmp, loss⟩, ⟨hmap, k0, hk0, hcmp⟩, dv, ⟨hdv, hmis⟩, hv⟩
    cases hrow : params.rows.get? (loss, dv) with
    | none => rw [hrow] at hv; simp at hv
    | some row =>
      rw [hrow] at hv
      simp only [List.mem_flatMap, List.mem_filter, decide_eq_true_eq] at hv
      obtain ⟨ds, ⟨_, hds⟩, hv⟩ := hv
      unfold stateVars at hv
      cases hp : row ds with
      | none => rw [hp] at hv; simp at hv
      | some p =>
        rw [hp] at hv
        simp only at hv
        cases hf : p.family with
        | none => rw [hf] at hv; simp at hv
        | some f =>
          rw [hf] at hv
          simp only [List.mem_map, List.mem_filter, decide_eq_true_eq] at hv
          obtain ⟨k, ⟨hk, hkc, hkd⟩, rfl⟩ := hv
          subst hkc; subst hkd
          exact ⟨dv, k, loss, p, f, ⟨hdv, hk, ⟨hmap, hmis, hds, row, hrow, hp⟩, hf⟩, rfl⟩
  · rintro ⟨dv, k, loss, p, f, ⟨hdv, hk, ⟨hmap, hmis, hds, row, hrow, hp⟩, hf⟩, rfl⟩
    refine ⟨(k.cmp, loss), ⟨hmap, k, hk, rfl⟩, dv, ⟨hdv, hmis⟩, ?_⟩
    rw [hrow]
    simp only [List.mem_flatMap, List.mem_filter, decide_eq_true_eq]
    refine ⟨k.ds, ⟨?_, hds⟩, ?_⟩
    · rw [uniqueVals_mem]
      refine ⟨List.mem_map.2 ⟨k, List.mem_filter.2 ⟨hk, by simp⟩, rfl⟩, by simp⟩
    · unfold stateVars
      rw [hp]
      simp only [hf]
      exact List.mem_map.2 ⟨k, List.mem_filter.2 ⟨hk, by simp⟩, rfl⟩

omit [IsStrictOrderedRing F] in
/-- What a result is made of. -/
theorem calculate_parts {N : Num F} {eco : Eco} {params : Params} {spread : Str × Str → Str → List F} {missing : List (Str × Str)}
    {cols : List DKey} {lossMap : List (Str × Str)} {dvs : List Str} {corr : Option (List (List F) → List (List F))}
    {m : Method} {perm : Nat → List Nat} {jitter : Nat → List F} {rows : List (DKey → Option ℚ)} {out : List (OutKey × List F)}
    (h : calculate N eco params spread missing cols lossMap dvs corr m perm jitter rows = .ok (some out)) :
    ∃ (out' : Result F) (std : List (Label × List (Ext F))), LossDs.calculate eco params missing cols lossMap dvs = .ok (some out') ∧
      devSample N 5 (dsVars params spread missing cols lossMap dvs) corr rows.length m perm jitter = .ok std ∧
      out = out'.map fun e => (e.1, rows.mapIdx fun i row => e.2 ⟨row, devAt std i⟩) := by
  unfold calculate at h
  unfold LossDs.calculate
  split at h
  · simp at h
  · rename_i hc
    rw [if_neg hc]
    cases hm : allMedians eco params missing cols lossMap dvs with
    | error e => rw [hm] at h; simp at h
    | ok meds =>
      rw [hm] at h
      simp only at h ⊢
      cases hs : devSample N 5 (dsVars params spread missing cols lossMap dvs) corr rows.length m perm jitter with
      | error e => rw [hs] at h; simp at h
      | ok std =>
        rw [hs] at h
        simp only at h
        cases hl : allLosses (F := F) eco params missing cols meds with
        | error e => rw [hl] at h; simp at h
        | ok rs =>
          rw [hl] at h
          cases rs with
          | nil => simp at h
          | cons a rs =>
            simp only [Except.ok.injEq, Option.some.injEq] at h
            exact ⟨_, std, rfl, rfl, h.symm⟩

omit [Field F] [LinearOrder F] [IsStrictOrderedRing F] [FloorRing F] in
theorem devLabel_inj {dv dv' : Str} {k k' : DKey} (h : devLabel dv k = devLabel dv' k') : dv = dv' ∧ k = k' := by
  unfold devLabel at h
  simp only [List.cons.injEq, and_true] at h
  obtain ⟨h1, h2, h3, h4, h5, h6⟩ := h
  refine ⟨h1, ?_⟩
  cases k; cases k'
  simp_all

omit [IsStrictOrderedRing F] in
theorem inverse_normal {N : Num F} {m s : F} {u : List F} {v : List (Ext F)} {u' : List F}
    (h : (RVKind.normal (.const m s) (some 0) none).inverse N u = .ok (v, u')) :
    List.Forall₂ (fun x y => normalInverse N.D N.eps m s (some 0) none x = .ok y) u v := by
  simp only [RVKind.inverse, transformRows, Par.expand] at h
  cases he : mapE (fun x : (F × F) × F => normalInverse N.D N.eps x.1.1 x.1.2 (some 0) none x.2) ((List.replicate u.length (m, s)).zip u) with
  | error e => rw [he] at h; simp [Except.map] at h
  | ok r =>
    rw [he] at h
    simp only [Except.map, Except.ok.injEq, Prod.mk.injEq] at h
    obtain ⟨rfl, hx⟩ := h
    clear hx
    rw [mapE_ok_iff] at he
    induction u generalizing r with
    | nil => simp at he; subst he; exact .nil
    | cons x u ih =>
      simp only [List.length_cons, List.replicate_succ, List.zip_cons_cons] at he
      cases he with
      | cons h1 h2 => exact .cons h1 (ih _ h2)

omit [IsStrictOrderedRing F] in
theorem inverse_lognormal {N : Num F} {m s : F} {u : List F} {v : List (Ext F)} {u' : List F}
    (h : (RVKind.lognormal (.const m s) (some 0) none).inverse N u = .ok (v, u')) :
    List.Forall₂ (fun x y => lognormalInverse N.D N.E N.eps m s (some 0) none x = .ok y) u v := by
  simp only [RVKind.inverse, transformRows, Par.expand] at h
  cases he : mapE (fun x : (F × F) × F => lognormalInverse N.D N.E N.eps x.1.1 x.1.2 (some 0) none x.2) ((List.replicate u.length (m, s)).zip u) with
  | error e => rw [he] at h; simp [Except.map] at h
  | ok r =>
    rw [he] at h
    simp only [Except.map, Except.ok.injEq, Prod.mk.injEq] at h
    obtain ⟨rfl, hx⟩ := h
    clear hx
    rw [mapE_ok_iff] at he
    induction u generalizing r with
    | nil => simp at he; subst he; exact .nil
    | cons x u ih =>
      simp only [List.length_cons, List.replicate_succ, List.zip_cons_cons] at he
      cases he with
      | cons h1 h2 => exact .cons h1 (ih _ h2)

theorem forall₂_get {α β : Type} {R : α → β → Prop} {l : List α} {l' : List β} (h : List.Forall₂ R l l') {i : Nat} {a : α}
    (ha : l[i]? = some a) : ∃ b, l'[i]? = some b ∧ R a b := by
  induction h generalizing i with
  | nil => simp at ha
  | cons hr _ ih =>
    cases i with
    | zero =>
      simp only [List.getElem?_cons_zero, Option.some.injEq] at ha
      subst ha
      exact ⟨_, rfl, hr⟩
    | succ i =>
      simp only [List.getElem?_cons_succ] at ha ⊢
      exact ih ha

omit [IsStrictOrderedRing F] [FloorRing F] in
/-- The number of the row of random numbers of a consequence. -/
def numberOf (params : Params) (spread : Str × Str → Str → List F) (missing : List (Str × Str)) (cols : List DKey)
    (lossMap : List (Str × Str)) (dvs : List Str) (dv : Str) (k : DKey) : Nat :=
  ((dsVars params spread missing cols lossMap dvs).map DvVar.label).idxOf (devLabel dv k)

/-- The explanation, with the labels of the variables. -/
theorem explained_at {N : Num F} {eco : Eco} {params : Params} {spread : Str × Str → Str → List F} {missing : List (Str × Str)}
    {cols : List DKey} {lossMap : List (Str × Str)} {dvs : List Str} {corr : Option (List (List F) → List (List F))}
    {m : Method} {perm : Nat → List Nat} {jitter : Nat → List F} {rows : List (DKey → Option ℚ)} {out : List (OutKey × List F)}
    (h : calculate N eco params spread missing cols lossMap dvs corr m perm jitter rows = .ok (some out)) :
    ∃ (d u : Label → List F) (dev : Nat → Str → DKey → F),
      Explained N eco params spread missing cols lossMap dvs m perm jitter rows out (numberOf params spread missing cols lossMap dvs)
        (fun dv k => d (devLabel dv k)) (fun dv k => u (devLabel dv k)) dev ∧
      (corr = none → ∀ v ∈ dsVars params spread missing cols lossMap dvs, u v.label = d v.label) ∧
      (∀ P : List F → Prop, (∀ v ∈ dsVars params spread missing cols lossMap dvs, P (d v.label)) →
        (∀ C, corr = some C → ∀ rs, (∀ r ∈ rs, P r) → ∀ r ∈ C rs, P r) →
        ∀ v ∈ dsVars params spread missing cols lossMap dvs, P (u v.label)) ∧
      (∀ v ∈ dsVars params spread missing cols lossMap dvs, ∀ p ∈ v.label, '-' ∉ p) ∧
      ∀ C, corr = some C →
        (∀ v ∈ dsVars params spread missing cols lossMap dvs,
          (∀ w ∈ dsVars params spread missing cols lossMap dvs, (str "Cost").isPrefixOf (name w.label) = true → name v.label ≠ timeName (name w.label)) →
          ((str "Cost").isPrefixOf (name v.label) = true → ∀ w ∈ dsVars params spread missing cols lossMap dvs, name w.label ≠ timeName (name v.label)) →
          u v.label = d v.label) ∧
        ((∀ v ∈ dsVars params spread missing cols lossMap dvs, Plain v.label) → ∀ rest a b,
          str "Cost" :: rest ∈ (dsVars params spread missing cols lossMap dvs).map DvVar.label →
          str "Time" :: rest ∈ (dsVars params spread missing cols lossMap dvs).map DvVar.label →
          C [d (str "Cost" :: rest), d (str "Time" :: rest)] = [a, b] →
          u (str "Cost" :: rest) = a ∧ u (str "Time" :: rest) = b) := by
  obtain ⟨out', std, h1, h2, rfl⟩ := calculate_parts h
  have hlen : ∀ v ∈ dsVars params spread missing cols lossMap dvs, v.label.length = 5 + 1 := by
    intro v hv
    obtain ⟨dv, k, loss, p, f, _, rfl⟩ := (mem_dsVars ..).1 hv
    rfl
  obtain ⟨g1, g2, d, u, g3, g4, g5, g6⟩ := devSample_rows N (by omega) hlen h2
  set vars := dsVars params spread missing cols lossMap dvs with hvars
  refine ⟨d, u, devAt std, ⟨?_, ?_, ?_⟩, g4, g5, g2, g6⟩
  · intro dv k loss p f dv' k' loss' p' f' hr hr' e
    have m1 : devLabel dv k ∈ vars.map DvVar.label :=
      List.mem_map_of_mem (f := DvVar.label) ((mem_dsVars params spread missing cols lossMap dvs _).2 ⟨dv, k, loss, p, f, hr, rfl⟩)
    have m2 : devLabel dv' k' ∈ vars.map DvVar.label :=
      List.mem_map_of_mem (f := DvVar.label) ((mem_dsVars params spread missing cols lossMap dvs _).2 ⟨dv', k', loss', p', f', hr', rfl⟩)
    have := List.idxOf_inj m1 |>.1 e
    exact devLabel_inj this
  · intro dv k loss p f hr
    have hv := (mem_dsVars params spread missing cols lossMap dvs _).2 ⟨dv, k, loss, p, f, hr, rfl⟩
    rw [← hvars] at hv
    have hi : vars[(vars.map DvVar.label).idxOf (devLabel dv k)]? = some ⟨devLabel dv k, f, thetaOf p (spread (loss, dv) k.ds)⟩ := by
      obtain ⟨j, hj⟩ := List.mem_iff_getElem?.1 hv
      have hjl : (vars.map DvVar.label)[j]? = some (devLabel dv k) := by rw [List.getElem?_map, hj]; rfl
      have hlt := (List.getElem?_eq_some_iff.1 hjl).1
      have heq := (List.getElem?_eq_some_iff.1 hjl).2
      have : (vars.map DvVar.label).idxOf (devLabel dv k) = j := by
        rw [← heq]
        exact List.Nodup.idxOf_getElem g1 j hlt
      rw [this]; exact hj
    obtain ⟨kd, s, q1, q2, q3, q4⟩ := g3 _ _ hi
    simp only at q1 q2 q3 q4
    refine ⟨q2, ?_⟩
    have hth : thetaOf p (spread (loss, dv) k.ds) = center p :: spread (loss, dv) k.ds := by
      unfold thetaOf center
      cases p.theta <;> rfl
    rw [hth] at q1
    unfold kindOf at q1
    by_cases hf : f = str "normal"
    · subst hf
      simp only [if_true] at q1
      cases hsp : spread (loss, dv) k.ds with
      | nil => rw [hsp] at q1; simp at q1
      | cons c rest =>
        rw [hsp] at q1
        simp only at q1
        refine ⟨.inl rfl, c, rfl, ?_⟩
        intro he ht hc i y hy h0 h1
        unfold covStd at q1
        split at q1
        · simp [Except.map] at q1
        · simp only [Except.map, Except.ok.injEq] at q1
          subst q1
          obtain ⟨w, hw1, hw2⟩ := forall₂_get (inverse_normal q3) hy
          obtain ⟨x, rfl, hx0, hx1⟩ := normal_cut N.D he (mul_pos ht hc) h0 h1 hw2
          have hdev : devAt std i dv k = x := by
            unfold devAt
            rw [q4]
            simp only [hw1]
          rw [hdev]
          refine ⟨hx0, fun hh => absurd hh (by decide), ?_⟩
          unfold devCdf
          rw [if_pos rfl]
          exact hx1
    · rw [if_neg hf] at q1
      by_cases hf' : f = str "lognormal"
      · subst hf'
        simp only [if_true] at q1
        cases hsp : spread (loss, dv) k.ds with
        | nil => rw [hsp] at q1; simp at q1
        | cons c rest =>
          rw [hsp] at q1
          cases rest with
          | cons _ _ => simp at q1
          | nil =>
            simp only [Except.ok.injEq] at q1
            subst q1
            refine ⟨.inr rfl, c, rfl, ?_⟩
            intro he ht hc i y hy h0 h1
            obtain ⟨w, hw1, hw2⟩ := forall₂_get (inverse_lognormal q3) hy
            obtain ⟨x, rfl, hx0, hx1⟩ := lognormal_cut N.D N.E he ht hc h0 h1 hw2
            have hdev : devAt std i dv k = x := by
              unfold devAt
              rw [q4]
              simp only [hw1]
            rw [hdev]
            refine ⟨hx0.le, fun _ => hx0, ?_⟩
            unfold devCdf
            rw [if_neg (by decide)]
            exact hx1
      · rw [if_neg hf'] at q1
        split at q1 <;> simp at q1
  · intro e he
    obtain ⟨e', he', rfl⟩ := List.mem_map.1 he
    obtain ⟨dv, hdv, k, hk, loss, p, r1, r2, r3⟩ := C80_formula_partial eco params missing cols lossMap dvs out' h1 e' he'
    refine ⟨dv, hdv, k, hk, loss, p, r1, r2, by simp, ?_⟩
    intro i row x hrow hx
    simp only [List.getElem?_mapIdx, hrow, Option.map_some, Option.some.injEq] at hx
    rw [← hx]
    exact r3 _

theorem explained {N : Num F} {eco : Eco} {params : Params} {spread : Str × Str → Str → List F} {missing : List (Str × Str)}
    {cols : List DKey} {lossMap : List (Str × Str)} {dvs : List Str} {corr : Option (List (List F) → List (List F))}
    {m : Method} {perm : Nat → List Nat} {jitter : Nat → List F} {rows : List (DKey → Option ℚ)} {out : List (OutKey × List F)}
    (h : calculate N eco params spread missing cols lossMap dvs corr m perm jitter rows = .ok (some out)) :
    ∃ (num : Str → DKey → Nat) (d u : Label → List F) (dev : Nat → Str → DKey → F),
      Explained N eco params spread missing cols lossMap dvs m perm jitter rows out num
        (fun dv k => d (devLabel dv k)) (fun dv k => u (devLabel dv k)) dev ∧
      (corr = none → ∀ v ∈ dsVars params spread missing cols lossMap dvs, u v.label = d v.label) ∧
      (∀ P : List F → Prop, (∀ v ∈ dsVars params spread missing cols lossMap dvs, P (d v.label)) →
        (∀ C, corr = some C → ∀ rs, (∀ r ∈ rs, P r) → ∀ r ∈ C rs, P r) →
        ∀ v ∈ dsVars params spread missing cols lossMap dvs, P (u v.label)) ∧
      (∀ v ∈ dsVars params spread missing cols lossMap dvs, ∀ p ∈ v.label, '-' ∉ p) ∧
      ∀ C, corr = some C →
        (∀ v ∈ dsVars params spread missing cols lossMap dvs,
          (∀ w ∈ dsVars params spread missing cols lossMap dvs, (str "Cost").isPrefixOf (name w.label) = true → name v.label ≠ timeName (name w.label)) →
          ((str "Cost").isPrefixOf (name v.label) = true → ∀ w ∈ dsVars params spread missing cols lossMap dvs, name w.label ≠ timeName (name v.label)) →
          u v.label = d v.label) ∧
        ((∀ v ∈ dsVars params spread missing cols lossMap dvs, Plain v.label) → ∀ rest a b,
          str "Cost" :: rest ∈ (dsVars params spread missing cols lossMap dvs).map DvVar.label →
          str "Time" :: rest ∈ (dsVars params spread missing cols lossMap dvs).map DvVar.label →
          C [d (str "Cost" :: rest), d (str "Time" :: rest)] = [a, b] →
          u (str "Cost" :: rest) = a ∧ u (str "Time" :: rest) = b) := by
  obtain ⟨d, u, dev, h⟩ := explained_at h
  exact ⟨_, d, u, dev, h⟩

/-! ### C91 -/

/-- C91: without a correlation of costs and times, the losses are explained by deviations that have the
distributions of the consequences, each from a row of random numbers of its own. -/
theorem C91_deviations (N : Num F) (eco : Eco) (params : Params) (spread : Str × Str → Str → List F) (missing : List (Str × Str))
    (cols : List DKey) (lossMap : List (Str × Str)) (dvs : List Str)
    (m : Method) (perm : Nat → List Nat) (jitter : Nat → List F) (rows : List (DKey → Option ℚ)) (out : List (OutKey × List F))
    (h : calculate N eco params spread missing cols lossMap dvs none m perm jitter rows = .ok (some out)) :
    ∃ num d dev, Explained N eco params spread missing cols lossMap dvs m perm jitter rows out num d d dev := by
  obtain ⟨num, d, u, dev, ⟨h1, h2, h3⟩, h4, _⟩ := explained h
  refine ⟨num, fun dv k => d (devLabel dv k), dev, h1, ?_, h3⟩
  intro dv k loss p f hr
  obtain ⟨g1, g2, c, g3, g4⟩ := h2 dv k loss p f hr
  refine ⟨g1, g2, c, g3, ?_⟩
  have := h4 rfl _ ((mem_dsVars params spread missing cols lossMap dvs _).2 ⟨dv, k, loss, p, f, hr, rfl⟩)
  simp only at this
  simp only [this] at g4
  exact g4

/-- C91: every damaged quantity with a consequence has its losses in the result. -/
theorem C91_complete (N : Num F) (eco : Eco) (params : Params) (hwf : ∀ key row, params.rows.get? key = some row → ∀ ds, row ds ≠ none → ds ∈ params.states)
    (spread : Str × Str → Str → List F) (missing : List (Str × Str))
    (cols : List DKey) (lossMap : List (Str × Str)) (dvs : List Str) (corr : Option (List (List F) → List (List F)))
    (m : Method) (perm : Nat → List Nat) (jitter : Nat → List F) (rows : List (DKey → Option ℚ)) (out : List (OutKey × List F))
    (h : calculate N eco params spread missing cols lossMap dvs corr m perm jitter rows = .ok (some out))
    (dv : Str) (hdv : dv ∈ dvs) (k : DKey) (hk : k ∈ cols) (loss : Str) (p : DsParam) (hdef : Defined params missing lossMap dv loss k p) :
    ∃ x, (outKey dv loss k, x) ∈ out ∧ x.length = rows.length := by
  obtain ⟨out', std, h1, _, rfl⟩ := calculate_parts h
  obtain ⟨g, hg⟩ := C80_complete_partial eco params hwf missing cols lossMap dvs out' h1 dv hdv k hk loss p hdef
  exact ⟨_, List.mem_map.2 ⟨_, hg, rfl⟩, by simp⟩

/-- The word "Cost" is not in the names of a column, and in that of a decision variable only if that is
"Cost". -/
def NoCost (dv : Str) (k : DKey) : Prop :=
  (dv = str "Cost" ∨ ¬ str "Cost" <:+: dv) ∧ ∀ s ∈ [k.cmp, k.ds, k.loc, k.dir, k.uid], ¬ str "Cost" <:+: s

/-- `C91_correlated_partial`, with the numbers of the rows. -/
theorem correlated_at (N : Num F) (eco : Eco) (params : Params) (spread : Str × Str → Str → List F) (missing : List (Str × Str))
    (cols : List DKey) (lossMap : List (Str × Str)) (dvs : List Str)
    (C : List (List F) → List (List F)) (hC : ∀ a b, ∃ a' b', C [a, b] = [a', b'])
    (m : Method) (perm : Nat → List Nat) (jitter : Nat → List F) (rows : List (DKey → Option ℚ)) (out : List (OutKey × List F))
    (hn : ∀ dv k loss p f, Random params missing cols lossMap dvs dv k loss p f → NoCost dv k)
    (h : calculate N eco params spread missing cols lossMap dvs (some C) m perm jitter rows = .ok (some out)) :
    ∃ d u dev, Explained N eco params spread missing cols lossMap dvs m perm jitter rows out
        (numberOf params spread missing cols lossMap dvs) d u dev ∧
      (∀ k loss p f loss' p' f', Random params missing cols lossMap dvs (str "Cost") k loss p f →
        Random params missing cols lossMap dvs (str "Time") k loss' p' f' →
        C [d (str "Cost") k, d (str "Time") k] = [u (str "Cost") k, u (str "Time") k]) ∧
      ∀ dv k loss p f, Random params missing cols lossMap dvs dv k loss p f →
        (dv = str "Cost" → ¬ ∃ loss p f, Random params missing cols lossMap dvs (str "Time") k loss p f) →
        (dv = str "Time" → ¬ ∃ loss p f, Random params missing cols lossMap dvs (str "Cost") k loss p f) →
        u dv k = d dv k := by
  obtain ⟨d, u, dev, h1, _, _, h4, h5⟩ := explained_at h
  obtain ⟨g1, g2⟩ := h5 C rfl
  have hmem : ∀ {dv : Str} {k : DKey} {loss : Str} {p : DsParam} {f : Str}, Random params missing cols lossMap dvs dv k loss p f →
      ∃ v ∈ dsVars params spread missing cols lossMap dvs, v.label = devLabel dv k := by
    intro dv k loss p f hr
    exact ⟨_, (mem_dsVars params spread missing cols lossMap dvs _).2 ⟨dv, k, loss, p, f, hr, rfl⟩, rfl⟩
  have hplain : ∀ v ∈ dsVars params spread missing cols lossMap dvs, Plain v.label := by
    intro v hv
    obtain ⟨dv, k, loss, p, f, hr, rfl⟩ := (mem_dsVars ..).1 hv
    obtain ⟨n1, n2⟩ := hn dv k loss p f hr
    refine ⟨?_, n2⟩
    simp only [devLabel, List.head?_cons, Option.some.injEq]
    rcases n1 with n1 | n1
    · exact .inl n1
    · exact .inr fun a ha => ha ▸ n1
  have htime : ∀ w ∈ dsVars params spread missing cols lossMap dvs, (str "Cost").isPrefixOf (name w.label) = true →
      ∃ k loss p f, Random params missing cols lossMap dvs (str "Cost") k loss p f ∧ w.label = devLabel (str "Cost") k ∧
        timeName (name w.label) = name (devLabel (str "Time") k) := by
    intro w hw hp
    obtain ⟨dv, k, loss, p, f, hr, rfl⟩ := (mem_dsVars ..).1 hw
    obtain ⟨rest, q1, _, q3⟩ := plain_cost (by simp [devLabel]) (hplain _ hw) hp
    simp only [devLabel, List.cons.injEq] at q1
    obtain ⟨rfl, q1⟩ := q1
    exact ⟨k, loss, p, f, hr, rfl, by rw [q3, ← q1]; rfl⟩
  have hdash : ∀ k, (∃ dv loss p f, Random params missing cols lossMap dvs dv k loss p f) →
      ∀ s ∈ devLabel (str "Time") k, '-' ∉ s := by
    rintro k ⟨dv, loss, p, f, hr⟩ s hs
    obtain ⟨v, hv, hl⟩ := hmem hr
    have := h4 v hv
    rw [hl] at this
    simp only [devLabel, List.mem_cons] at hs
    rcases hs with rfl | hs
    · decide
    · exact this s (by simp only [devLabel, List.mem_cons]; exact .inr hs)
  refine ⟨_, _, dev, h1, ?_, ?_⟩
  · intro k loss p f loss' p' f' hc ht
    obtain ⟨v, hv, hvl⟩ := hmem hc
    obtain ⟨w, hw, hwl⟩ := hmem ht
    obtain ⟨a, b, hab⟩ := hC (d (devLabel (str "Cost") k)) (d (devLabel (str "Time") k))
    obtain ⟨e1, e2⟩ := g2 hplain [k.cmp, k.ds, k.loc, k.dir, k.uid] a b (List.mem_map.2 ⟨v, hv, hvl⟩) (List.mem_map.2 ⟨w, hw, hwl⟩) hab
    rw [hab]
    exact congrArg₂ (fun a b => [a, b]) e1.symm e2.symm
  · intro dv k loss p f hr hA hB
    obtain ⟨v, hv, hvl⟩ := hmem hr
    have := g1 v hv (by
      intro w hw hp e
      obtain ⟨k', loss', p', f', hr', _, e'⟩ := htime w hw hp
      rw [e', hvl] at e
      have hvd := h4 v hv
      rw [hvl] at hvd
      have := name_inj (by simp [devLabel]) (by simp [devLabel]) hvd (hdash k' ⟨_, _, _, _, hr'⟩) e
      obtain ⟨rfl, rfl⟩ := devLabel_inj this
      exact hB rfl ⟨loss', p', f', hr'⟩) (by
      intro hp w hw e
      obtain ⟨k', loss', p', f', hr', el, e'⟩ := htime v hv hp
      rw [hvl] at el
      obtain ⟨rfl, rfl⟩ := devLabel_inj el
      rw [e'] at e
      obtain ⟨dv2, k2, loss2, p2, f2, hr2, rfl⟩ := (mem_dsVars ..).1 hw
      have := name_inj (by simp [devLabel]) (by simp [devLabel]) (h4 _ hw) (hdash k ⟨_, _, _, _, hr⟩) e
      obtain ⟨rfl, rfl⟩ := devLabel_inj this
      exact hA rfl ⟨loss2, p2, f2, hr2⟩)
    rw [hvl] at this
    exact this

/-- C91, with a correlation of costs and times: the rows for cost and time of the same damaged quantity go
through the copula together, all other rows are left alone; provided that no name contains "Cost".
Without this condition the claim is false, see `C91_cost_in_name`. -/
theorem C91_correlated_partial (N : Num F) (eco : Eco) (params : Params) (spread : Str × Str → Str → List F) (missing : List (Str × Str))
    (cols : List DKey) (lossMap : List (Str × Str)) (dvs : List Str)
    (C : List (List F) → List (List F)) (hC : ∀ a b, ∃ a' b', C [a, b] = [a', b'])
    (m : Method) (perm : Nat → List Nat) (jitter : Nat → List F) (rows : List (DKey → Option ℚ)) (out : List (OutKey × List F))
    (hn : ∀ dv k loss p f, Random params missing cols lossMap dvs dv k loss p f → NoCost dv k)
    (h : calculate N eco params spread missing cols lossMap dvs (some C) m perm jitter rows = .ok (some out)) :
    ∃ num d u dev, Explained N eco params spread missing cols lossMap dvs m perm jitter rows out num d u dev ∧
      (∀ k loss p f loss' p' f', Random params missing cols lossMap dvs (str "Cost") k loss p f →
        Random params missing cols lossMap dvs (str "Time") k loss' p' f' →
        C [d (str "Cost") k, d (str "Time") k] = [u (str "Cost") k, u (str "Time") k]) ∧
      ∀ dv k loss p f, Random params missing cols lossMap dvs dv k loss p f →
        (dv = str "Cost" → ¬ ∃ loss p f, Random params missing cols lossMap dvs (str "Time") k loss p f) →
        (dv = str "Time" → ¬ ∃ loss p f, Random params missing cols lossMap dvs (str "Cost") k loss p f) →
        u dv k = d dv k :=
  ⟨_, correlated_at N eco params spread missing cols lossMap dvs C hC m perm jitter rows out hn h⟩

/-- Violation of C91: the time of a component whose name contains "Cost" is not correlated with its cost,
whatever correlation is asked for: its row of random numbers is left alone. -/
theorem C91_cost_in_name (N : Num F) (eco : Eco) (params : Params) (spread : Str × Str → Str → List F) (missing : List (Str × Str))
    (cols : List DKey) (lossMap : List (Str × Str)) (dvs : List Str) (C : List (List F) → List (List F))
    (m : Method) (perm : Nat → List Nat) (jitter : Nat → List F) (rows : List (DKey → Option ℚ)) (out : List (OutKey × List F))
    (h : calculate N eco params spread missing cols lossMap dvs (some C) m perm jitter rows = .ok (some out)) :
    ∃ num d u dev, Explained N eco params spread missing cols lossMap dvs m perm jitter rows out num d u dev ∧
      ∀ k loss p f, Random params missing cols lossMap dvs (str "Time") k loss p f → str "Cost" <:+: k.cmp →
        u (str "Time") k = d (str "Time") k := by
  obtain ⟨num, d, u, dev, h1, _, _, _, h5⟩ := explained h
  obtain ⟨g1, _⟩ := h5 C rfl
  refine ⟨num, _, _, dev, h1, ?_⟩
  intro k loss p f hr hi
  have hin : str "Cost" <:+: name (devLabel (str "Time") k) := by
    have e : name (devLabel (str "Time") k) = (str "Time" ++ str "-") ++ k.cmp ++ ('-' :: name [k.ds, k.loc, k.dir, k.uid]) := by
      show name (str "Time" :: k.cmp :: [k.ds, k.loc, k.dir, k.uid]) = _
      rw [name_cons (by simp), name_cons (by simp)]
      simp [str]
    rw [e]
    exact hi.trans ⟨_, _, rfl⟩
  exact g1 _ ((mem_dsVars params spread missing cols lossMap dvs _).2 ⟨str "Time", k, loss, p, f, hr, rfl⟩) (by
    intro w _ _ e
    rw [e] at hin
    exact timeName_no_cost _ hin) (by
    intro hp
    exact absurd (cost_prefix (by simp) hp) (by decide))

/-- C91, with the Gaussian copula for a correlation `r` (`r * r + s * s = 1`): the numbers for cost stay as
they were drawn, those for time become the distribution function of the correlated normal variable. -/
theorem C91_gaussian_partial (N : Num F) (eco : Eco) (params : Params) (spread : Str × Str → Str → List F) (missing : List (Str × Str))
    (cols : List DKey) (lossMap : List (Str × Str)) (dvs : List Str) (r s : F)
    (m : Method) (perm : Nat → List Nat) (jitter : Nat → List F) (rows : List (DKey → Option ℚ)) (out : List (OutKey × List F))
    (hn : ∀ dv k loss p f, Random params missing cols lossMap dvs dv k loss p f → NoCost dv k)
    (h : calculate N eco params spread missing cols lossMap dvs (some (gauss2 N.D r s)) m perm jitter rows = .ok (some out)) :
    ∃ num d u dev, Explained N eco params spread missing cols lossMap dvs m perm jitter rows out num d u dev ∧
      ∀ k loss p f loss' p' f', Random params missing cols lossMap dvs (str "Cost") k loss p f →
        Random params missing cols lossMap dvs (str "Time") k loss' p' f' →
        (∀ x ∈ d (str "Cost") k, 0 < x ∧ x < 1) →
        u (str "Cost") k = d (str "Cost") k ∧
        ∀ (i : Nat) (x y : F), (d (str "Cost") k)[i]? = some x → (d (str "Time") k)[i]? = some y →
          (u (str "Time") k)[i]? = some (N.D.cdf (r * N.D.ppf x + s * N.D.ppf y)) := by
  obtain ⟨num, d, u, dev, h1, h2, _⟩ := C91_correlated_partial N eco params spread missing cols lossMap dvs (gauss2 N.D r s)
    (fun a b => ⟨_, _, rfl⟩) m perm jitter rows out hn h
  refine ⟨num, d, u, dev, h1, ?_⟩
  intro k loss p f loss' p' f' hc ht hx
  have := h2 k loss p f loss' p' f' hc ht
  simp only [gauss2, List.cons.injEq, and_true] at this
  obtain ⟨e1, e2⟩ := this
  constructor
  · rw [← e1]
    conv_rhs => rw [← List.map_id (d (str "Cost") k)]
    refine List.map_congr_left ?_
    intro x hxm
    rw [one_mul, N.D.cdf_ppf (hx x hxm).1 (hx x hxm).2]
    rfl
  · intro i x y h1 h2
    rw [← e2, List.getElem?_zipWith, h1, h2]

omit [FloorRing F] in
theorem log_lt {E : ExpLog F} {x y : F} (hx : 0 < x) (hy : 0 < y) : E.log x < E.log y ↔ x < y := by
  constructor
  · intro h
    have := E.exp_strictMono h
    rwa [E.exp_log hx, E.exp_log hy] at this
  · intro h
    by_contra hn
    have := E.exp_mono (not_lt.1 hn)
    rw [E.exp_log hx, E.exp_log hy] at this
    exact absurd h (not_lt.2 this)

omit [FloorRing F] in
theorem cutCdf_lt (D : StdDist F) (low : F) {x y : F} : cutCdf D low x < cutCdf D low y ↔ x < y := by
  have hl : 0 < 1 - D.cdf low := by have := D.cdf_lt_one low; linarith
  unfold cutCdf
  rw [div_lt_div_iff_of_pos_right hl, sub_lt_sub_iff_right]
  constructor
  · intro h
    by_contra hn
    exact absurd h (not_lt.2 (D.cdf_mono (not_lt.1 hn)))
  · exact fun h => D.cdf_strictMono h

omit [FloorRing F] in
theorem devCdf_lt (N : Num F) {f : Str} {t c x y : F} (ht : 0 < t) (hc : 0 < c) (hy : 0 < y)
    (hf : f = str "normal" ∨ 0 < x) : devCdf N f t c x < devCdf N f t c y ↔ x < y := by
  unfold devCdf
  split
  · rw [cutCdf_lt, div_lt_div_iff_of_pos_right (mul_pos ht hc), sub_lt_sub_iff_right]
  · rename_i hn
    have hx := hf.resolve_left hn
    rw [cutCdf_lt, div_lt_div_iff_of_pos_right hc, sub_lt_sub_iff_right, log_lt hx hy]

omit [FloorRing F] in
theorem devCdf_range (N : Num F) (he : 0 < N.eps) {f : Str} {t c y : F} (ht : 0 < t) (hc : 0 < c) (hy : N.eps ≤ y) :
    0 ≤ devCdf N f t c y ∧ devCdf N f t c y ≤ 1 := by
  have key : ∀ low z : F, low ≤ z → 0 ≤ cutCdf N.D low z ∧ cutCdf N.D low z ≤ 1 := by
    intro low z h
    have hl : 0 < 1 - N.D.cdf low := by have := N.D.cdf_lt_one low; linarith
    have h1 := N.D.cdf_mono h
    have h2 := N.D.cdf_lt_one z
    unfold cutCdf
    refine ⟨div_nonneg (by linarith) hl.le, ?_⟩
    rw [div_le_one hl]
    linarith
  have hy0 : 0 < y := lt_of_lt_of_le he hy
  unfold devCdf
  split
  · refine key _ _ ?_
    rw [div_le_div_iff_of_pos_right (mul_pos ht hc)]
    linarith
  · refine key _ _ ?_
    rw [div_le_div_iff_of_pos_right hc]
    have : N.E.log N.eps ≤ N.E.log y := by
      by_contra hn
      exact absurd ((log_lt hy0 he).1 (not_le.1 hn)) (not_lt.2 hy)
    linarith

theorem drawRow_lt {m : Method} {n : Nat} (hn : 0 < n) {perm : Nat → List Nat} {jitter : Nat → List F}
    (hd : GoodDraws n perm jitter) (i : Nat) {row : List F}
    (h : drawRow m n (perm i) (jitter i) = .ok row) : row.length = n ∧ ∀ u ∈ row, 0 ≤ u ∧ u < 1 := by
  obtain ⟨h1, h2, h3⟩ := hd i
  have hp : (perm i).length = n := by rw [h1.length_eq, List.length_range]
  have hl := drawRow_length hp h2 h
  refine ⟨hl, ?_⟩
  cases m with
  | other => simp [drawRow] at h
  | monteCarlo => simp only [drawRow, Except.ok.injEq] at h; subst h; exact h3
  | lhs =>
    have := drawRow_stratified hn (.inl rfl) h1 h2 h3 h
    intro u hu
    have hu' := DemandGen.stratified_nonneg hn this.1 u hu
    exact ⟨hu'.1, hu'.2⟩
  | lhsMidpoint =>
    have := drawRow_stratified hn (.inr rfl) h1 h2 h3 h
    intro u hu
    have hu' := DemandGen.stratified_nonneg hn this.1 u hu
    exact ⟨hu'.1, hu'.2⟩

/-- C91: with Latin hypercube sampling the share of realizations in which a deviation is below a value is
the distribution function of the consequence at that value, up to one realization. -/
theorem C91_share (N : Num F) (he : 0 < N.eps) (eco : Eco) (params : Params) (spread : Str × Str → Str → List F) (missing : List (Str × Str))
    (cols : List DKey) (lossMap : List (Str × Str)) (dvs : List Str)
    (m : Method) (hm : m = .lhs ∨ m = .lhsMidpoint) (perm : Nat → List Nat) (jitter : Nat → List F) (rows : List (DKey → Option ℚ))
    (hne : 0 < rows.length) (hd : GoodDraws rows.length perm jitter) (out : List (OutKey × List F))
    (h : calculate N eco params spread missing cols lossMap dvs none m perm jitter rows = .ok (some out)) :
    ∃ num d dev, Explained N eco params spread missing cols lossMap dvs m perm jitter rows out num d d dev ∧
      ∀ dv k loss p f c, Random params missing cols lossMap dvs dv k loss p f → (spread (loss, dv) k.ds).head? = some c →
        0 < center (F := F) p → 0 < c → ∀ y, N.eps ≤ y →
        ⌊(rows.length : F) * devCdf N f (center p) c y⌋₊ ≤ (List.range rows.length).countP (fun i => decide (dev i dv k < y)) ∧
        (List.range rows.length).countP (fun i => decide (dev i dv k < y)) ≤ ⌈(rows.length : F) * devCdf N f (center p) c y⌉₊ := by
  obtain ⟨num, d, dev, hE⟩ := C91_deviations N eco params spread missing cols lossMap dvs m perm jitter rows out h
  refine ⟨num, d, dev, hE, ?_⟩
  intro dv k loss p f c hr hsp ht hc y hy
  obtain ⟨g1, g2, c', g3, g4⟩ := hE.2.1 dv k loss p f hr
  rw [hsp] at g3
  cases g3
  obtain ⟨d1, d2, d3⟩ := hd (num dv k)
  have hs := (drawRow_stratified hne hm d1 d2 d3 g1).1
  have hlt := drawRow_lt hne hd (num dv k) g1
  have hy0 : 0 < y := lt_of_lt_of_le he hy
  obtain ⟨r1, r2⟩ := devCdf_range N he (f := f) ht hc hy
  have hcount : (List.range rows.length).countP (fun i => decide (dev i dv k < y)) =
      (d dv k).countP (fun x => decide (x < devCdf N f (center p) c y)) := by
    have e : d dv k = (List.range rows.length).map fun i => (d dv k).getD i 0 := by
      refine List.ext_getElem (by simp [hlt.1]) ?_
      intro i h1 h2
      simp [List.getD_eq_getElem?_getD, h1]
    rw [e, List.countP_map]
    refine List.countP_congr ?_
    intro i hi
    have hi' : i < (d dv k).length := by rw [hlt.1]; exact List.mem_range.1 hi
    have hg : (d dv k)[i]? = some (d dv k)[i] := List.getElem?_eq_getElem hi'
    obtain ⟨x0, x1⟩ := hlt.2 _ (List.getElem_mem hi')
    obtain ⟨q1, q2, q3⟩ := g4 he ht hc i _ hg x0 x1
    have hx : (d dv k).getD i 0 = (d dv k)[i] := by rw [List.getD_eq_getElem?_getD, hg]; rfl
    simp only [Function.comp, hx, decide_eq_true_eq]
    rw [← q3]
    refine (devCdf_lt N ht hc hy0 ?_).symm
    rcases g2 with g2 | g2
    · exact .inl g2
    · exact .inr (q2 g2)
  rw [hcount]
  exact DmgSample.stratified_count hne hs r1 r2

omit [Field F] [LinearOrder F] [IsStrictOrderedRing F] [FloorRing F] in
theorem unitMedian_nonneg {p : DsParam} {q m : ℚ} (h : UnitMedian p q m) (hth : match p.theta with
      | .const x => 0 ≤ x
      | .curve pts => pts ≠ [] ∧ XAsc pts ∧ ∀ q ∈ pts, 0 ≤ q.2) : 0 ≤ m := by
  unfold UnitMedian at h
  cases ht : p.theta with
  | const x =>
    rw [ht] at hth h
    simp only at h
    rw [h]
    split
    · exact hth
    · exact zero_le_one
  | curve pts =>
    rw [ht] at hth h
    obtain ⟨a1, a2, a3⟩ := hth
    have hsum : ∀ s ∈ pts, 0 ≤ s.2 ∧ s.2 ≤ (pts.map Prod.snd).sum := by
      intro s hs
      refine ⟨a3 s hs, ?_⟩
      refine List.single_le_sum ?_ _ (List.mem_map.2 ⟨s, hs, rfl⟩)
      intro x hx
      rw [List.mem_map] at hx
      obtain ⟨t, ht, rfl⟩ := hx
      exact a3 t ht
    have hinj : ∀ p ∈ pts, ∀ q ∈ pts, p.1 = q.1 → p = q := fun a ha b hb e =>
      List.inj_on_of_nodup_map (a2.imp ne_of_lt) ha hb e
    rw [onClampedGraph_unique hinj (h a1 a2) (interp_clamped a1 a2 q)]
    exact (interp_range a1 a2 0 _ _ hsum).1

/-- C91: losses are never negative, because the deviations are cut at zero.  (Without the cut a normal
deviation could be negative.) -/
theorem C91_nonneg (N : Num F) (he : 0 < N.eps) (eco : Eco) (params : Params) (spread : Str × Str → Str → List F) (missing : List (Str × Str))
    (cols : List DKey) (lossMap : List (Str × Str)) (dvs : List Str) (corr : Option (List (List F) → List (List F)))
    (m : Method) (perm : Nat → List Nat) (jitter : Nat → List F) (rows : List (DKey → Option ℚ))
    (hd : GoodDraws rows.length perm jitter)
    (hcorr : ∀ C, corr = some C → ∀ rs, (∀ r ∈ rs, r.length = rows.length ∧ ∀ x ∈ r, 0 ≤ x ∧ x < 1) →
      ∀ r ∈ C rs, r.length = rows.length ∧ ∀ x ∈ r, 0 ≤ x ∧ x < 1)
    (hpar : ∀ key row ds p, params.rows.get? key = some row → row ds = some p → match p.theta with
      | .const x => 0 ≤ x
      | .curve pts => pts ≠ [] ∧ XAsc pts ∧ ∀ q ∈ pts, 0 ≤ q.2)
    (hrand : ∀ dv k loss p f, Random params missing cols lossMap dvs dv k loss p f →
      0 < center (F := F) p ∧ ∀ c ∈ spread (loss, dv) k.ds, 0 < c)
    (hrow : ∀ row ∈ rows, ∀ k q, row k = some q → 0 ≤ q) (out : List (OutKey × List F))
    (h : calculate N eco params spread missing cols lossMap dvs corr m perm jitter rows = .ok (some out)) :
    ∀ e ∈ out, ∀ x ∈ e.2, 0 ≤ x := by
  intro e hE x hx
  obtain ⟨num, d, u, dev, ⟨_, h2, h3⟩, _, h5, _⟩ := explained h
  obtain ⟨dv, hdv, k, hk, loss, p, q1, _, q3, q4⟩ := h3 e hE
  obtain ⟨i, hi⟩ := List.mem_iff_getElem?.1 hx
  have hilt : i < rows.length := by rw [← q3]; exact (List.getElem?_eq_some_iff.1 hi).1
  have hne : 0 < rows.length := by omega
  have hri : rows[i]? = some rows[i] := List.getElem?_eq_getElem hilt
  have hl := q4 i _ x hri hi
  unfold IsLoss at hl
  cases hq : rows[i] k with
  | none => simp only [hq] at hl; exact hl.ge
  | some q =>
    simp only [hq] at hl
    obtain ⟨md, hmd, rfl⟩ := hl
    obtain ⟨_, _, _, row, hrw, hp⟩ := id q1
    have hm0 := unitMedian_nonneg hmd (hpar _ row _ p hrw hp)
    refine mul_nonneg (Rat.cast_nonneg.2 (mul_nonneg (hrow _ (List.getElem_mem hilt) k q hq) hm0)) ?_
    split
    · exact zero_le_one
    · rename_i hf
      obtain ⟨f, hf⟩ := Option.ne_none_iff_exists'.1 hf
      have hr : Random params missing cols lossMap dvs dv k loss p f := ⟨hdv, hk, q1, hf⟩
      obtain ⟨_, _, c, g3, g4⟩ := h2 dv k loss p f hr
      have hv := (mem_dsVars params spread missing cols lossMap dvs _).2 ⟨dv, k, loss, p, f, hr, rfl⟩
      have hu := h5 (fun r => r.length = rows.length ∧ ∀ x ∈ r, 0 ≤ x ∧ x < 1) (by
        intro v hv
        obtain ⟨dv', k', loss', p', f', hr', rfl⟩ := (mem_dsVars ..).1 hv
        exact drawRow_lt hne hd _ (h2 dv' k' loss' p' f' hr').1) hcorr _ hv
      simp only at hu
      have hiu : i < (u (devLabel dv k)).length := by rw [hu.1]; exact hilt
      obtain ⟨x0, x1⟩ := hu.2 _ (List.getElem_mem hiu)
      exact (g4 he (hrand dv k loss p f hr).1 ((hrand dv k loss p f hr).2 c (List.mem_of_mem_head? g3)) i _
        (List.getElem?_eq_getElem hiu) x0 x1).1

/-- C91: a family other than normal and lognormal stops the calculation.  In particular `deterministic`,
which is accepted when the medians are prepared. -/
theorem C91_other_families_refused (N : Num F) (eco : Eco) (params : Params) (spread : Str × Str → Str → List F) (missing : List (Str × Str))
    (cols : List DKey) (lossMap : List (Str × Str)) (dvs : List Str) (corr : Option (List (List F) → List (List F)))
    (m : Method) (perm : Nat → List Nat) (jitter : Nat → List F) (rows : List (DKey → Option ℚ)) (out : List (OutKey × List F))
    (dv : Str) (k : DKey) (loss : Str) (p : DsParam) (f : Str) (hr : Random params missing cols lossMap dvs dv k loss p f)
    (hf : f ≠ str "normal" ∧ f ≠ str "lognormal") :
    calculate N eco params spread missing cols lossMap dvs corr m perm jitter rows ≠ .ok (some out) := by
  intro h
  obtain ⟨num, d, u, dev, ⟨_, h2, _⟩, _⟩ := explained h
  rcases (h2 dv k loss p f hr).2.1 with e | e
  · exact hf.1 e
  · exact hf.2 e

/-- C91: a dash in a name of a random consequence stops the calculation. -/
theorem C91_dashes_refused (N : Num F) (eco : Eco) (params : Params) (spread : Str × Str → Str → List F) (missing : List (Str × Str))
    (cols : List DKey) (lossMap : List (Str × Str)) (dvs : List Str) (corr : Option (List (List F) → List (List F)))
    (m : Method) (perm : Nat → List Nat) (jitter : Nat → List F) (rows : List (DKey → Option ℚ)) (out : List (OutKey × List F))
    (dv : Str) (k : DKey) (loss : Str) (p : DsParam) (f : Str) (hr : Random params missing cols lossMap dvs dv k loss p f)
    (hd : ∃ s ∈ [dv, k.cmp, k.loc, k.dir, k.uid, k.ds], '-' ∈ s) :
    calculate N eco params spread missing cols lossMap dvs corr m perm jitter rows ≠ .ok (some out) := by
  intro h
  obtain ⟨num, d, u, dev, _, _, _, h4, _⟩ := explained h
  obtain ⟨s, hs, hs'⟩ := hd
  refine h4 _ ((mem_dsVars params spread missing cols lossMap dvs _).2 ⟨dv, k, loss, p, f, hr, rfl⟩) s ?_ hs'
  simp only [devLabel, List.mem_cons] at hs ⊢
  tauto

/-- The parameters of a random consequence are usable: a positive center (not tiny, for normal ones) and
spread, and not all of the distribution is cut. -/
def Usable (N : Num F) (f : Str) (t : F) (spread : List F) : Prop :=
  ∃ c, spread = [c] ∧ 0 < c ∧
    ((f = str "normal" ∧ 1 / 10 ^ 40 ≤ t ∧ N.eps ≤ 1 - N.D.cdf ((0 - t) / (t * c))) ∨
     (f = str "lognormal" ∧ 0 < t ∧ N.eps ≤ 1 - N.D.cdf ((N.E.log N.eps - N.E.log t) / c)))

omit [FloorRing F] in
theorem dsVars_nodup (params : Params) (spread : Str × Str → Str → List F) (missing : List (Str × Str)) (cols : List DKey)
    (lossMap : List (Str × Str)) (dvs : List Str) (hc : cols.Nodup) (hl : (lossMap.map Prod.fst).Nodup) (hd : dvs.Nodup) :
    ((dsVars params spread missing cols lossMap dvs).map (·.label)).Nodup := by
  have hrow : ∀ (row : Str → Option DsParam) (cmp loss dv ds : Str), ((stateVars spread cols row cmp loss dv ds).map (·.label)).Nodup ∧
      ∀ v ∈ stateVars spread cols row cmp loss dv ds, ∃ k : DKey, k.cmp = cmp ∧ k.ds = ds ∧ v.label = devLabel dv k := by
    intro row cmp loss dv ds
    unfold stateVars
    cases row ds with
    | none => simp
    | some p =>
      cases hf : p.family with
      | none => simp [hf]
      | some f =>
        simp only [hf]
        constructor
        · rw [List.map_map]
          refine List.Nodup.map_on ?_ (hc.filter _)
          intro a _ b _ e
          exact (devLabel_inj e).2
        · intro v hv
          rw [List.mem_map] at hv
          obtain ⟨k, hk, rfl⟩ := hv
          rw [List.mem_filter, decide_eq_true_eq] at hk
          exact ⟨k, hk.2.1, hk.2.2, rfl⟩
  unfold dsVars
  rw [List.map_flatMap, List.nodup_flatMap]
  constructor
  · intro c hcm
    rw [List.map_flatMap, List.nodup_flatMap]
    constructor
    · intro dv hdv
      cases params.rows.get? (c.2, dv) with
      | none => simp
      | some row =>
        simp only
        rw [List.map_flatMap, List.nodup_flatMap]
        constructor
        · intro ds _; exact (hrow row c.1 c.2 dv ds).1
        · refine List.Pairwise.imp ?_ ((uniqueVals_nodup [] _).filter _)
          intro a b hab
          rw [Function.onFun, List.disjoint_left]
          intro x hx hy
          rw [List.mem_map] at hx hy
          obtain ⟨v, hv, rfl⟩ := hx
          obtain ⟨w, hw, e⟩ := hy
          obtain ⟨k, _, k1, k2⟩ := (hrow row c.1 c.2 dv a).2 v hv
          obtain ⟨k', _, k1', k2'⟩ := (hrow row c.1 c.2 dv b).2 w hw
          rw [k2, k2'] at e
          have := (devLabel_inj e).2
          exact hab (by rw [← k1, ← k1', this])
    · refine List.Pairwise.imp ?_ (hd.filter _)
      intro a b hab
      rw [Function.onFun, List.disjoint_left]
      intro x hx hy
      rw [List.mem_map] at hx hy
      obtain ⟨v, hv, rfl⟩ := hx
      obtain ⟨w, hw, e⟩ := hy
      have key : ∀ (dv : Str) (v : DvVar F), (v ∈ match params.rows.get? (c.2, dv) with
          | none => []
          | some row =>
            ((uniqueVals [] ((cols.filter fun k : DKey => decide (k.cmp = c.1)).map (fun k : DKey => k.ds))).filter fun ds => decide (ds ≠ str "0")).flatMap
              fun ds => stateVars spread cols row c.1 c.2 dv ds) → ∃ k : DKey, k.cmp = c.1 ∧ v.label = devLabel dv k := by
        intro dv v hv
        cases hr : params.rows.get? (c.2, dv) with
        | none => rw [hr] at hv; simp at hv
        | some row =>
          rw [hr] at hv
          simp only [List.mem_flatMap] at hv
          obtain ⟨ds, _, hv⟩ := hv
          obtain ⟨k, k0, _, k2⟩ := (hrow row c.1 c.2 dv ds).2 v hv
          exact ⟨k, k0, k2⟩
      obtain ⟨k, _, k2⟩ := key a v hv
      obtain ⟨k', _, k2'⟩ := key b w hw
      rw [k2, k2'] at e
      exact hab (devLabel_inj e).1.symm
  · have hlm : lossMap.Pairwise fun a b => a.1 ≠ b.1 := by
      have := hl
      unfold List.Nodup at this
      rwa [List.pairwise_map] at this
    refine List.Pairwise.imp ?_ (hlm.filter _)
    intro a b hab
    rw [Function.onFun, List.disjoint_left]
    intro x hx hy
    rw [List.mem_map] at hx hy
    obtain ⟨v, hv, rfl⟩ := hx
    obtain ⟨w, hw, e⟩ := hy
    have key : ∀ (c : Str × Str) (v : DvVar F), (v ∈ (dvs.filter fun dv => decide ((c.2, dv) ∉ missing)).flatMap fun dv =>
        match params.rows.get? (c.2, dv) with
          | none => []
          | some row =>
            ((uniqueVals [] ((cols.filter fun k : DKey => decide (k.cmp = c.1)).map (fun k : DKey => k.ds))).filter fun ds => decide (ds ≠ str "0")).flatMap
              fun ds => stateVars spread cols row c.1 c.2 dv ds) → ∃ (dv : Str) (k : DKey), k.cmp = c.1 ∧ v.label = devLabel dv k := by
      intro c v hv
      rw [List.mem_flatMap] at hv
      obtain ⟨dv, _, hv⟩ := hv
      cases hr : params.rows.get? (c.2, dv) with
      | none => rw [hr] at hv; simp at hv
      | some row =>
        rw [hr] at hv
        simp only [List.mem_flatMap] at hv
        obtain ⟨ds, _, hv⟩ := hv
        obtain ⟨k, k0, _, k2⟩ := (hrow row c.1 c.2 dv ds).2 v hv
        exact ⟨dv, k, k0, k2⟩
    obtain ⟨dv, k, k1, k2⟩ := key a v hv
    obtain ⟨dv', k', k1', k2'⟩ := key b w hw
    rw [k2, k2'] at e
    have := (devLabel_inj e).2
    exact hab (by rw [← k1, ← k1', this])

theorem usable_kind {N : Num F} (he : 0 < N.eps) {f : Str} {t : F} {spread : List F} (h : Usable N f t spread) :
    ∃ k, kindOf f (t :: spread) = .ok k ∧ ∀ u, ∃ s, k.inverse N u = .ok (s, u) := by
  have hrows : ∀ (a b : F) (g : F → F → F → Except PyErr (Ext F)), (∀ u, ∃ v, g a b u = .ok v) → ∀ u, ∃ s, transformRows (.const a b) g u = .ok s := by
    intro a b g hg u
    unfold transformRows Par.expand
    simp only
    refine mapE_ok_of_forall ?_
    intro x hx
    have := List.eq_of_mem_replicate (List.of_mem_zip hx).1
    rw [this]
    exact hg _
  obtain ⟨c, rfl, hc, ⟨rfl, ht, hcut⟩ | ⟨rfl, ht, hcut⟩⟩ := h
  · have ht0 : 0 < t := lt_of_lt_of_le (by positivity) ht
    have hcs : covStd t c = .ok (t * c) := by
      unfold covStd
      rw [if_neg]
      rw [abs_of_pos ht0]
      exact not_lt.2 ht
    refine ⟨.normal (.const t (t * c)) (some 0) none, by simp [kindOf, hcs, Except.map], ?_⟩
    intro u
    obtain ⟨s, hs⟩ := hrows t (t * c) (fun m s u => normalInverse N.D N.eps m s (some 0) none u) (by
      intro u
      rw [normalInverse_eq N.D (mul_pos ht0 hc)]
      simp only [truncated, Option.isSome_some, Bool.true_or, if_true]
      rw [if_neg (by unfold pHigh pLow; exact not_lt.2 hcut)]
      exact ⟨_, rfl⟩) u
    exact ⟨s, by simp only [RVKind.inverse, hs]; rfl⟩
  · refine ⟨.lognormal (.const t c) (some 0) none, by
      unfold kindOf
      rw [if_neg (by decide), if_pos rfl], ?_⟩
    intro u
    obtain ⟨s, hs⟩ := hrows t c (fun m s u => lognormalInverse N.D N.E N.eps m s (some 0) none u) (by
      intro u
      rw [lognormalInverse_eq N.D N.E he ht hc _ _ (by simp)]
      simp only [truncated, Option.isSome_some, Bool.true_or, if_true]
      rw [if_neg (by unfold pHighL lowerPos; simp only [le_refl, if_true]; exact not_lt.2 hcut)]
      exact ⟨_, rfl⟩) u
    exact ⟨s, by simp only [RVKind.inverse, hs]; rfl⟩

/-- C91: with usable parameters and without dashes in the names the calculation succeeds, in the cases of
`C80_succeeds_iff`. -/
theorem C91_succeeds (N : Num F) (he : 0 < N.eps) (eco : Eco) (params : Params)
    (hwf : ∀ key row, params.rows.get? key = some row → ∀ ds, row ds ≠ none → ds ∈ params.states)
    (spread : Str × Str → Str → List F) (missing : List (Str × Str))
    (cols : List DKey) (hc : cols.Nodup) (lossMap : List (Str × Str)) (hl : (lossMap.map Prod.fst).Nodup) (dvs : List Str) (hd : dvs.Nodup)
    (corr : Option (List (List F) → List (List F)))
    (m : Method) (hm : m ≠ .other) (perm : Nat → List Nat) (jitter : Nat → List F) (rows : List (DKey → Option ℚ))
    (heco : eco.acrossFloors = true) (hfit : Fits eco params missing cols lossMap dvs)
    (hsome : ∃ dv ∈ dvs, ∃ k ∈ cols, ∃ loss p, Defined params missing lossMap dv loss k p)
    (hrand : ∀ dv k loss p f, Random params missing cols lossMap dvs dv k loss p f →
      Usable N f (center p) (spread (loss, dv) k.ds) ∧ ∀ s ∈ [dv, k.cmp, k.loc, k.dir, k.uid, k.ds], '-' ∉ s) :
    ∃ out, calculate N eco params spread missing cols lossMap dvs corr m perm jitter rows = .ok (some out) := by
  obtain ⟨out', ho⟩ := (C80_succeeds_iff (F := F) eco params hwf missing cols lossMap dvs).2 ⟨heco, hfit, hsome⟩
  obtain ⟨std, hs⟩ := devSample_runs N (levels := 5) (by omega) (dsVars params spread missing cols lossMap dvs) corr rows.length m hm perm jitter
    (by
      intro v hv
      obtain ⟨dv, k, loss, p, f, hr, rfl⟩ := (mem_dsVars ..).1 hv
      rfl)
    (by
      intro v hv s hs
      obtain ⟨dv, k, loss, p, f, hr, rfl⟩ := (mem_dsVars ..).1 hv
      refine (hrand dv k loss p f hr).2 s ?_
      simp only [devLabel, List.mem_cons] at hs ⊢
      tauto)
    (dsVars_nodup params spread missing cols lossMap dvs hc hl hd)
    (by
      intro v hv
      obtain ⟨dv, k, loss, p, f, hr, rfl⟩ := (mem_dsVars ..).1 hv
      exact usable_kind he (hrand dv k loss p f hr).1)
  unfold LossDs.calculate at ho
  unfold calculate
  split at ho
  · simp at ho
  · rename_i hcond
    rw [if_neg hcond]
    cases h1 : allMedians eco params missing cols lossMap dvs with
    | error e => rw [h1] at ho; simp at ho
    | ok meds =>
      rw [h1] at ho
      simp only at ho ⊢
      rw [hs]
      simp only
      cases h2 : allLosses (F := F) eco params missing cols meds with
      | error e => rw [h2] at ho; simp at ho
      | ok rs =>
        rw [h2] at ho
        cases rs with
        | nil => simp at ho
        | cons a rs => exact ⟨_, rfl⟩

/-! ### Examples -/

end

/-- A component with random costs and times in two states. -/
def devParams : Params := ⟨[str "1", str "2"], [
  ((str "A", str "Cost"), fun ds => if ds = str "1" then some ⟨.const 5, some (str "normal")⟩
    else if ds = str "2" then some ⟨.curve [(1, 10), (5, 6)], some (str "lognormal")⟩ else none),
  ((str "A", str "Time"), fun ds => if ds = str "1" then some ⟨.const 2, some (str "normal")⟩
    else if ds = str "2" then some ⟨.const 4, some (str "lognormal")⟩ else none)]⟩

def devSpread : Str × Str → Str → List ℚ := fun _ _ => [1 / 2]

def devCols : List DKey := [⟨str "A", str "1", str "1", str "0", str "0"⟩, ⟨str "A", str "1", str "1", str "0", str "1"⟩, ⟨str "A", str "2", str "1", str "0", str "2"⟩]

def devRows : List (DKey → Option ℚ) := [fun k => if k.ds = str "1" then some 3 else none, fun k => if k.ds = str "2" then some 2 else some 0]

def devRun (corr : Option (List (List ℚ) → List (List ℚ))) : Except PyErr (Option (List (OutKey × List ℚ))) :=
  calculate (ratNum (F := ℚ)) ⟨true, false⟩ devParams devSpread [] devCols [(str "A", str "A")] [str "Cost", str "Time"] corr
    .lhsMidpoint (fun i => if i % 2 = 0 then [0, 1] else [1, 0]) (fun _ => [1 / 3, 1 / 4]) devRows

def shown (r : Except PyErr (Option (List (OutKey × List ℚ)))) : Option (List (Str × List ℚ)) :=
  r.toOption.bind fun o => o.map fun out => (out.filter fun e => decide (e.1.ds = str "1")).map fun e => (e.1.dv, e.2)

set_option synthInstance.maxSize 4000 in
/-- Three damaged units in the first realization: costs and times with their deviations. -/
example : shown (devRun none) = some [(str "Cost", [25 / 2, 0]), (str "Time", [5, 0])] := by decide +kernel

set_option synthInstance.maxSize 4000 in
/-- With a correlation the costs are the same, the times are not. -/
example : shown (devRun (some (gauss2 ratNum.D (3 / 5) (4 / 5)))) = some [(str "Cost", [25 / 2, 0]), (str "Time", [225 / 49, 0])] := by
  decide +kernel

/-- The premises of the theorems for this case. -/
example : devCols.Nodup ∧ GoodDraws (F := ℚ) 2 (fun i => if i % 2 = 0 then [0, 1] else [1, 0]) (fun _ => [1 / 3, 1 / 4]) := by
  refine ⟨by decide +kernel, fun i => ⟨?_, rfl, show ∀ u ∈ ([1 / 3, 1 / 4] : List ℚ), 0 ≤ u ∧ u < 1 by decide +kernel⟩⟩
  simp only
  split
  · decide
  · decide

example : ∀ k ∈ devCols, ∀ dv ∈ [str "Cost", str "Time"], NoCost dv k ∧ ∀ s ∈ [dv, k.cmp, k.loc, k.dir, k.uid, k.ds], '-' ∉ s := by
  unfold NoCost
  decide +kernel

example : Usable (ratNum (F := ℚ)) (str "normal") 5 [1 / 2] ∧ Usable (ratNum (F := ℚ)) (str "lognormal") 4 [1 / 2] :=
  ⟨⟨1 / 2, rfl, by decide +kernel, .inl (by decide +kernel)⟩, ⟨1 / 2, rfl, by decide +kernel, .inr (by decide +kernel)⟩⟩

example : Random devParams [] devCols [(str "A", str "A")] [str "Cost", str "Time"] (str "Time") ⟨str "A", str "1", str "1", str "0", str "1"⟩ (str "A")
    ⟨.const 2, some (str "normal")⟩ (str "normal") :=
  ⟨by decide, by decide +kernel, ⟨by decide, by decide, by decide, _, rfl, rfl⟩, rfl⟩

/-- The distribution function of the cost: the smallest value, the median of the uncut variable, a large value. -/
example : devCdf (ratNum (F := ℚ)) (str "normal") 5 (1 / 2) 0 = 0 ∧ devCdf (ratNum (F := ℚ)) (str "normal") 5 (1 / 2) 5 = 2 / 5 ∧
    devCdf (ratNum (F := ℚ)) (str "normal") 5 (1 / 2) 105 = 202 / 205 := by decide +kernel

def otherRun (cmp family : Str) (corr : Option (List (List ℚ) → List (List ℚ))) : Except PyErr (Option (List (OutKey × List ℚ))) :=
  calculate (ratNum (F := ℚ)) ⟨true, false⟩
    ⟨[str "1"], [((str "A", str "Cost"), fun ds => if ds = str "1" then some ⟨.const 5, some family⟩ else none),
      ((str "A", str "Time"), fun ds => if ds = str "1" then some ⟨.const 2, some family⟩ else none)]⟩
    devSpread [] [⟨cmp, str "1", str "1", str "0", str "1"⟩] [(cmp, str "A")] [str "Cost", str "Time"] corr
    .lhsMidpoint (fun i => if i % 2 = 0 then [0, 1] else [1, 0]) (fun _ => [1 / 3, 1 / 4]) [fun _ => some 3, fun _ => some 1]

/-- A component with "Cost" in its name gets times without correlation. -/
example : shown (otherRun (str "Costly") (str "normal") (some (gauss2 ratNum.D (3 / 5) (4 / 5)))) =
      shown (otherRun (str "Costly") (str "normal") none) ∧
    shown (otherRun (str "Dear") (str "normal") (some (gauss2 ratNum.D (3 / 5) (4 / 5)))) ≠
      shown (otherRun (str "Dear") (str "normal") none) := by decide +kernel

/-- A deterministic consequence, and a name with a dash. -/
example : errorOf (otherRun (str "A") (str "deterministic") none) = some .notImplementedError ∧
    errorOf (otherRun (str "A-1") (str "normal") none) = some .valueError ∧
    errorOf (otherRun (str "A.1") (str "normal") none) = none := by decide +kernel

end Verif.LossDev
