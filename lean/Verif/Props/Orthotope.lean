import Mathlib.Tactic
import Verif.Model.Orthotope
import Verif.Lemmas.UQDist
import Verif.Lemmas.UQInstances
import Mathlib.Probability.ProductMeasure

/-!
# C107: the probability of a box

`uq.mvn_orthotope_density` and `RandomVariableSet.orthotope_density`.  The joint distribution of the variables is given
by standard normal variables `z`, one for each variable, with the correlations of the set (a Gaussian copula): a
variable has the value `inverse_transform(norm.cdf(z))`.

Specification: `Below`, `AtMost`, `InFlag`, `ExactFor` say what `mvndst` is (any measure `μ` of the standard normal
variables), `Describes` that `cdf` is the probability of the values up to `x`, `InBox` that a value is in the box.
-/

namespace Verif.Orthotope

open Verif.UQ

variable {F P : Type} [Field F] [LinearOrder F]

/-! ## Specification -/

/-- `x < z` -/
def Below : Ext F → F → Prop
  | .negInf, _ => True
  | .fin a, z => a < z
  | _, _ => False

/-- `z ≤ x` -/
def AtMost : Ext F → F → Prop
  | .posInf, _ => True
  | .fin b, z => z ≤ b
  | _, _ => False

/-- The meaning of the flags of `mvndst`: `-1` no limits, `0` an upper limit, `1` a lower limit, `2` both. -/
def InFlag (fl : Int) (lo up : Ext F) (z : F) : Prop :=
  (fl = 1 ∨ fl = 2 → Below lo z) ∧ (fl = 0 ∨ fl = 2 → AtMost up z)

/-- The correlations of `k` variables in the order of `mvndst`: rows of the part below the diagonal (and 0 for one
variable). -/
def correlations (k : Nat) (corr : Nat → Nat → F) : List F :=
  if k = 1 then [0] else (List.range k).flatMap fun a => (List.range a).map fun b => corr a b

/-- `mvndst` returns the probability, by the measure `μ`, that the `k` standard normal variables `sel 0`, `sel 1`, ...
with the given correlations are between limits. -/
def ExactFor {ι : Type} (mvndst : Mvndst F P) (μ : Set (ι → F) → P) (k : Nat) (sel : Nat → ι) (corr : Nat → Nat → F) : Prop :=
  ∀ (lo up : List (Ext F)) (fl : List Int), lo.length = k → up.length = k → fl.length = k →
    mvndst lo up fl (correlations k corr) =
      μ {z | ∀ a < k, InFlag (fl.getD a 2) (lo.getD a .nan) (up.getD a .nan) (z (sel a))}

/-- The number `y` is between the limits that there are. -/
def InBox (lower upper : Option F) (y : F) : Prop := (∀ x ∈ lower, x < y) ∧ (∀ x ∈ upper, y ≤ x)

/-- The value of `cdf` at `x` is the probability of the values up to `x` of a variable that is sampled with `inv`. -/
def Describes (cdf : Cdf F) (inv : F → Except PyErr (Ext F)) (x : F) : Prop :=
  ∃ p, cdf x = .ok (some p) ∧ 0 ≤ p ∧ p ≤ 1 ∧ ∀ u, 0 < u → u < 1 → ∃ y, inv u = .ok (.fin y) ∧ (y ≤ x ↔ u ≤ p)

/-- A limit as a number of Python -/
def limit : Option F → Ext F
  | none => .nan
  | some x => .fin x

/-! ## Lemmas -/

theorem inFlag_flag (lo up : Ext F) (z : F) : InFlag (flag lo up) lo up z ↔ Below lo z ∧ AtMost up z := by
  unfold InFlag flag
  by_cases hl : lo = .negInf <;> by_cases hu : up = .posInf
  · subst hl hu; simp [Below, AtMost]
  · subst hl; simp [hu, Below]
  · subst hu; simp [hl, AtMost]
  · simp [hl, hu]

theorem tril_eq (k : Nat) (corr : Nat → Nat → F) : tril k corr = correlations k corr := rfl

section
variable {ι : Type} {mvndst : Mvndst F P} {μ : Set (ι → F) → P} {k : Nat} {sel : Nat → ι}

theorem mvn_eq {sqrt : F → F} {mu : Nat → F} {cov : Nat → Nat → F} {lower upper lo up : List (Ext F)}
    (hex : ExactFor mvndst μ k sel (fun a b => cov a b / (sqrt (cov a a) * sqrt (cov b b))))
    (hl : broadcast k (lower.map orNegInf) = .ok lo) (hu : broadcast k (upper.map orPosInf) = .ok up)
    (hlk : lo.length = k) (huk : up.length = k) :
    mvnDensity mvndst sqrt k mu cov lower upper = .ok (μ {z | ∀ a < k,
      Below (standardize (mu a) (sqrt (cov a a)) (lo.getD a .nan)) (z (sel a)) ∧
      AtMost (standardize (mu a) (sqrt (cov a a)) (up.getD a .nan)) (z (sel a))}) := by
  unfold mvnDensity
  rw [hl, hu]
  simp only [bind, Except.bind, pure, Except.pure]
  rw [tril_eq, hex _ _ _ (by simpa) (by simpa) (by simp [hlk, huk])]
  congr 2
  ext z
  refine forall_congr' fun a => forall_congr' fun ha => ?_
  have h1 : a < lo.length := hlk ▸ ha
  have h2 : a < up.length := huk ▸ ha
  simp only [List.getD_eq_getElem?_getD, List.getElem?_zipWith, List.getElem?_map, List.getElem?_zipIdx, h1, h2,
    List.getElem?_eq_getElem, Option.map_some, Option.getD_some, Nat.zero_add]
  exact inFlag_flag _ _ _

end

theorem broadcast_len {k : Nat} {l : List (Ext F)} (h : l.length = k) : broadcast k l = .ok l := by
  unfold broadcast; rw [if_pos h]

theorem broadcast_one (k : Nat) (x : Ext F) : broadcast k [x] = .ok (List.replicate k x) := by
  unfold broadcast
  split
  · rename_i h
    simp only [List.length_cons, List.length_nil] at h
    subst h; rfl
  · rfl

variable [IsStrictOrderedRing F]

theorem below_std {mu sig : F} (hs : 0 < sig) (x : Option F) (z : F) :
    Below (standardize mu sig (orNegInf (limit x))) z ↔ ∀ y ∈ x, y < mu + sig * z := by
  cases x with
  | none => simp [limit, orNegInf, standardize, Ext.sub, Ext.divF, Below, not_lt.2 hs.le]
  | some y =>
    simp only [limit, orNegInf, standardize, Ext.sub, Ext.divF, hs.ne', if_false, Below, Option.mem_def, Option.some.injEq, forall_eq']
    rw [div_lt_iff₀ hs]
    constructor <;> intro h <;> linarith

theorem atMost_std {mu sig : F} (hs : 0 < sig) (x : Option F) (z : F) :
    AtMost (standardize mu sig (orPosInf (limit x))) z ↔ ∀ y ∈ x, mu + sig * z ≤ y := by
  cases x with
  | none => simp [limit, orPosInf, standardize, Ext.sub, Ext.divF, AtMost, not_lt.2 hs.le]
  | some y =>
    simp only [limit, orPosInf, standardize, Ext.sub, Ext.divF, hs.ne', if_false, AtMost, Option.mem_def, Option.some.injEq, forall_eq']
    rw [le_div_iff₀ hs]
    constructor <;> intro h <;> linarith

/-! ## Normal variables -/

/-- **C107 (normal variables).** For normal variables with means `mu` and covariances `cov`, i.e. `mu a + sd a * z a`
with standard normal variables `z` of the corresponding correlations, `mvn_orthotope_density` is the probability that
all of them are between their limits; limits may be missing. -/
theorem C107_normal {mvndst : Mvndst F P} {μ : Set (Nat → F) → P} (k : Nat) (sqrt : F → F) (mu : Nat → F)
    (cov : Nat → Nat → F) (lower upper : List (Option F)) (hl : lower.length = k) (hu : upper.length = k)
    (hpos : ∀ a < k, 0 < sqrt (cov a a))
    (hexact : ExactFor mvndst μ k id (fun a b => cov a b / (sqrt (cov a a) * sqrt (cov b b)))) :
    mvnDensity mvndst sqrt k mu cov (lower.map limit) (upper.map limit) =
      .ok (μ {z | ∀ a < k, InBox (lower.getD a none) (upper.getD a none) (mu a + sqrt (cov a a) * z a)}) := by
  rw [mvn_eq hexact (broadcast_len (by simpa)) (broadcast_len (by simpa)) (by simpa) (by simpa)]
  congr 2
  ext z
  refine forall_congr' fun a => forall_congr' fun ha => ?_
  have h1 : a < lower.length := hl ▸ ha
  have h2 : a < upper.length := hu ▸ ha
  simp only [List.getD_eq_getElem?_getD, List.getElem?_map, h1, h2, List.getElem?_eq_getElem, Option.map_some, Option.getD_some, id]
  exact and_congr (below_std (hpos a ha) _ _) (atMost_std (hpos a ha) _ _)

/-! ## Sets of variables -/

section
variable (D : StdDist F)

omit [IsStrictOrderedRing F] in
theorem std01 (x : Ext F) [IsStrictOrderedRing F] : standardize 0 1 x = x := by
  cases x <;> simp [standardize, Ext.sub, Ext.divF, not_lt.2 (zero_le_one' F)]

theorem ppf01 {p : F} (h0 : 0 ≤ p) (h1 : p ≤ 1) :
    (∀ z, Below (orNegInf (normPpf D (some p) (.fin 0) 1)) z ↔ ¬ D.cdf z ≤ p) ∧
    (∀ z, AtMost (orPosInf (normPpf D (some p) (.fin 0) 1)) z ↔ D.cdf z ≤ p) := by
  rw [normPpf_eq D one_pos h0 h1]
  by_cases hp0 : p = 0
  · subst hp0
    simp [orNegInf, orPosInf, Below, AtMost, D.cdf_pos]
  · rw [if_neg hp0]
    by_cases hp1 : p = 1
    · subst hp1
      simp [orNegInf, orPosInf, Below, AtMost, (D.cdf_lt_one _).le]
    · have hpos : 0 < p := lt_of_le_of_ne h0 (Ne.symm hp0)
      have hlt : p < 1 := lt_of_le_of_ne h1 hp1
      have key : ∀ z, D.cdf z ≤ p ↔ z ≤ D.ppf p := by
        intro z
        conv_lhs => rw [← D.cdf_ppf hpos hlt]
        exact ⟨D.le_of_cdf_le, D.cdf_mono⟩
      rw [if_pos hlt]
      refine ⟨fun z => ?_, fun z => ?_⟩
      · rw [key]; simp [orNegInf, Below]
      · rw [key]; simp [orPosInf, AtMost]

theorem stdLimits_ok (b : Bounds F) (cs : List (Option (Cdf F))) (e : Nat → Ext F) : ∀ i,
    (∀ j c, cs[j]? = some c → ∃ c', c = some c' ∧ stdLimit D b (i + j) c' = .ok (e (i + j))) →
    stdLimits D b i cs = .ok ((List.range cs.length).map fun j => e (i + j)) := by
  induction cs with
  | nil => intro i _; rfl
  | cons c cs ih =>
    intro i h
    obtain ⟨c', rfl, hc⟩ := h 0 c rfl
    have h' := ih (i + 1) (fun j d hd => by
      obtain ⟨d', h1, h2⟩ := h (j + 1) d (by simpa using hd)
      exact ⟨d', h1, by rw [show i + 1 + j = i + (j + 1) by omega]; exact h2⟩)
    unfold stdLimits
    rw [show stdLimit D b i c' = .ok (e i) from hc, h']
    simp only [bind, Except.bind, Functor.map, Except.map, List.length_cons, List.range_succ_eq_map, List.map_cons, List.map_map, Nat.add_zero]
    congr 2
    apply List.map_congr_left
    intro j _
    simp only [Function.comp]
    congr 1
    omega

/-- The standard normal value of a limit. -/
def stdOf (cdf : Cdf F) : Option F → Ext F
  | none => .nan
  | some x =>
    match cdf x with
    | .ok p => normPpf D p (.fin 0) 1
    | .error _ => .nan

theorem stdLimit_ok (l : List (Option F)) (b : Bounds F) (hb : b = .vec l ∨ b = .col l) (i : Nat) (o : Option F) (ho : l[i]? = some o)
    (cdf : Cdf F) (h : ∀ x ∈ o, ∃ p, cdf x = .ok p) : stdLimit D b i cdf = .ok (stdOf D cdf o) := by
  unfold stdLimit
  split
  · cases o with
    | none => rcases hb with rfl | rfl <;> simp [ho, stdOf]
    | some x =>
      obtain ⟨p, hp⟩ := h x rfl
      rcases hb with rfl | rfl <;> simp [ho, stdOf, hp, Functor.map, Except.map]
  · rename_i hany
    cases o with
    | none => rfl
    | some x =>
      exfalso
      apply hany
      have hm : some x ∈ l := List.mem_of_getElem? ho
      rcases hb with rfl | rfl <;> simp only [Bounds.any, List.any_eq_true] <;> exact ⟨_, hm, rfl⟩

theorem inside_iff (cdf : Cdf F) (inv : F → Except PyErr (Ext F)) (lower upper : Option F)
    (h : ∀ x, x ∈ lower ∨ x ∈ upper → Describes cdf inv x) (z : F) :
    (Below (standardize 0 1 (orNegInf (stdOf D cdf lower))) z ∧ AtMost (standardize 0 1 (orPosInf (stdOf D cdf upper))) z) ↔
      ∀ y, inv (D.cdf z) = .ok (.fin y) → InBox lower upper y := by
  rw [std01, std01]
  have hb : ∀ x ∈ lower, ∃ y, inv (D.cdf z) = .ok (.fin y) ∧ (Below (orNegInf (stdOf D cdf (some x))) z ↔ x < y) := by
    intro x hx
    obtain ⟨p, hp, h0, h1, hu⟩ := h x (.inl hx)
    obtain ⟨y, hy, hyx⟩ := hu (D.cdf z) (D.cdf_pos z) (D.cdf_lt_one z)
    refine ⟨y, hy, ?_⟩
    simp only [stdOf, hp]
    rw [(ppf01 D h0 h1).1, ← hyx, not_le]
  have ha : ∀ x ∈ upper, ∃ y, inv (D.cdf z) = .ok (.fin y) ∧ (AtMost (orPosInf (stdOf D cdf (some x))) z ↔ y ≤ x) := by
    intro x hx
    obtain ⟨p, hp, h0, h1, hu⟩ := h x (.inr hx)
    obtain ⟨y, hy, hyx⟩ := hu (D.cdf z) (D.cdf_pos z) (D.cdf_lt_one z)
    refine ⟨y, hy, ?_⟩
    simp only [stdOf, hp]
    rw [(ppf01 D h0 h1).2, ← hyx]
  cases lower with
  | none =>
    cases upper with
    | none => simp [stdOf, orNegInf, orPosInf, Below, AtMost, InBox]
    | some x =>
      obtain ⟨y, hy, hyx⟩ := ha x rfl
      rw [hyx, hy]
      simp [stdOf, orNegInf, Below, InBox]
  | some w =>
    obtain ⟨y, hy, hyw⟩ := hb w rfl
    cases upper with
    | none =>
      rw [hyw, hy]
      simp [stdOf, orPosInf, AtMost, InBox]
    | some x =>
      obtain ⟨y', hy', hyx⟩ := ha x rfl
      rw [hy] at hy'
      cases hy'
      rw [hyx, hyw, hy]
      simp [InBox]

end

/-- The correlation of two variables of a set. -/
def correlation (vars : List (Str × Cdf F)) (rho : Nat → Nat → F) (n m : Str) : F := rho (position vars n) (position vars m)

/-- What is needed to know of a set of variables: names are distinct, the correlation matrix is symmetric with ones on
the diagonal, and `mvndst` is exact for the standard normal variables `z` of any selection of its variables
(without repetition). -/
structure GoodSet (mvndst : Mvndst F P) (μ : Set (Str → F) → P) (sqrt : F → F) (vars : List (Str × Cdf F)) (rho : Nat → Nat → F) : Prop where
  names : (vars.map Prod.fst).Nodup
  diag : ∀ i, rho i i = 1
  symm : ∀ i j, rho i j = rho j i
  sqrt : sqrt 1 = 1
  exact : ∀ names : List Str, names.Nodup → (∀ n ∈ names, n ∈ vars.map Prod.fst) →
    ExactFor mvndst μ names.length (fun a => names.getD a []) (fun a b => correlation vars rho (names.getD a []) (names.getD b []))

section
variable {D : StdDist F} {mvndst : Mvndst F P} {μ : Set (Str → F) → P} {one : P} {sqrt : F → F} {vars : List (Str × Cdf F)} {rho : Nat → Nat → F}

omit [Field F] [LinearOrder F] [IsStrictOrderedRing F] in
theorem position_of_nodup (h : (vars.map Prod.fst).Nodup) (a : Nat) (ha : a < vars.length) :
    position vars ((vars.map Prod.fst).getD a []) = a := by
  have hx : (vars.map Prod.fst).getD a [] = vars[a].1 := by simp [List.getD_eq_getElem?_getD, ha]
  rw [hx]
  unfold position
  rw [List.findIdx_eq ha]
  refine ⟨by simp, fun j hj => ?_⟩
  simp only [decide_eq_false_iff_not]
  intro he
  have := (List.Nodup.getElem_inj_iff h (i := j) (j := a) (hi := by simp; omega) (hj := by simpa)).1 (by simpa using he)
  omega

/-- The correlations that are given to `mvndst`. -/
def usedRho (vars : List (Str × Cdf F)) (rho : Nat → Nat → F) (subset : Option (List Str)) : Nat → Nat → F :=
  match subset with
  | none => rho
  | some names => fun a b => rho ((names.map (position vars)).getD b 0) ((names.map (position vars)).getD a 0)

theorem exact_used (hg : GoodSet mvndst μ sqrt vars rho) (subset : Option (List Str))
    (hnd : (subset.getD (vars.map Prod.fst)).Nodup) (hn : ∀ n ∈ subset.getD (vars.map Prod.fst), n ∈ vars.map Prod.fst) :
    ExactFor mvndst μ (subset.getD (vars.map Prod.fst)).length (fun a => (subset.getD (vars.map Prod.fst)).getD a [])
      (fun a b => usedRho vars rho subset a b / (sqrt (usedRho vars rho subset a a) * sqrt (usedRho vars rho subset b b))) := by
  have h := hg.exact _ hnd hn
  have hd : ∀ a, usedRho vars rho subset a a = 1 := by
    intro a; unfold usedRho; cases subset <;> exact hg.diag _
  intro lo up fl h1 h2 h3
  rw [← h lo up fl h1 h2 h3]
  congr 1
  unfold correlations
  split
  · rfl
  · apply List.flatMap_congr
    intro a ha
    rw [List.mem_range] at ha
    apply List.map_congr_left
    intro b hb
    rw [List.mem_range] at hb
    beta_reduce
    rw [hd, hd, hg.sqrt, mul_one, div_one]
    cases subset with
    | none =>
      simp only [Option.getD_none, List.length_map] at ha ⊢
      unfold usedRho correlation
      rw [position_of_nodup hg.names a ha, position_of_nodup hg.names b (by omega)]
    | some names =>
      simp only [Option.getD_some] at ha ⊢
      have hb' : b < names.length := by omega
      unfold usedRho correlation
      rw [hg.symm]
      simp [List.getD_eq_getElem?_getD, ha, hb']

omit [Field F] [LinearOrder F] [IsStrictOrderedRing F] in
theorem find_of_nodup {n : Str} {c : Cdf F} (h : (vars.map Prod.fst).Nodup) (hm : (n, c) ∈ vars) :
    (vars.find? fun x => decide (x.1 = n)).map Prod.snd = some c := by
  induction vars with
  | nil => cases hm
  | cons x vs ih =>
    rw [List.map_cons, List.nodup_cons] at h
    rcases List.mem_cons.1 hm with rfl | hm
    · simp
    · rw [List.find?_cons_of_neg]
      · exact ih h.2 hm
      · simp only [decide_eq_true_eq]
        intro he
        exact h.1 (he ▸ List.mem_map_of_mem hm)


/-- The limits `l`, one for each of `k` variables (some may be missing), are given as an array with one column, or
there are no limits at all. -/
def Column (k : Nat) (b : Bounds F) (l : List (Option F)) : Prop :=
  (b = .col l ∧ l.length = k) ∨ (b.any = false ∧ l = List.replicate k none)

/-- The limits `l`, one for each of `k` variables, are given as a vector, or there are no limits at all. -/
def Vector (k : Nat) (b : Bounds F) (l : List (Option F)) : Prop :=
  (b = .vec l ∧ l.length = k) ∨ (b.any = false ∧ l = List.replicate k none)

theorem stdLimits_names (hnd : (vars.map Prod.fst).Nodup) (cdf : Str → Cdf F) (names : List Str) (hvars : ∀ n ∈ names, (n, cdf n) ∈ vars)
    (b : Bounds F) (l : List (Option F)) (hb : Column names.length b l ∨ Vector names.length b l)
    (hp : ∀ a < names.length, ∀ x ∈ l.getD a none, ∃ p, cdf (names.getD a []) x = .ok p) :
    stdLimits D b 0 (names.map fun n => (vars.find? fun x => decide (x.1 = n)).map Prod.snd) =
      .ok ((List.range names.length).map fun j => stdOf D (cdf (names.getD j [])) (l.getD j none)) := by
  have := stdLimits_ok D b (names.map fun n => (vars.find? fun x => decide (x.1 = n)).map Prod.snd)
    (fun j => stdOf D (cdf (names.getD j [])) (l.getD j none)) 0 ?_
  · simpa using this
  intro j c hc
  rw [List.getElem?_map] at hc
  have hj : j < names.length := by
    by_contra hj
    rw [List.getElem?_eq_none (by omega)] at hc; cases hc
  rw [List.getElem?_eq_getElem hj, Option.map_some, find_of_nodup hnd (hvars _ (List.getElem_mem hj))] at hc
  cases hc
  refine ⟨_, rfl, ?_⟩
  have hname : names.getD j [] = names[j] := by simp [List.getD_eq_getElem?_getD, hj]
  rw [Nat.zero_add, hname]
  have hp' := hp j hj
  rw [hname] at hp'
  have hgood : ∀ b', (b' = .vec l ∨ b' = .col l) → l.length = names.length →
      stdLimit D b' j (cdf names[j]) = .ok (stdOf D (cdf names[j]) (l.getD j none)) := by
    intro b' hb' hl
    apply stdLimit_ok D l b' hb'
    · rw [List.getD_eq_getElem?_getD, List.getElem?_eq_getElem (by omega)]; rfl
    · exact hp'
  have hnone : b.any = false → l = List.replicate names.length none →
      stdLimit D b j (cdf names[j]) = .ok (stdOf D (cdf names[j]) (l.getD j none)) := by
    intro h1 h2
    subst h2
    unfold stdLimit
    rw [h1]
    simp [List.getD_eq_getElem?_getD, hj, stdOf]
  rcases hb with (⟨h1, h2⟩ | ⟨h1, h2⟩) | (⟨h1, h2⟩ | ⟨h1, h2⟩)
  · exact hgood b (.inr h1) h2
  · exact hnone h1 h2
  · exact hgood b (.inl h1) h2
  · exact hnone h1 h2

theorem fill_len {k : Nat} {l : List (Ext F)} (h : l.length = k) : fill k l = .ok l := by
  unfold fill; rw [if_pos h.le, h]; simp


/-- The limits of the selected variables and the density of one box. -/
theorem density_names (hg : GoodSet mvndst μ sqrt vars rho) (subset : Option (List Str)) (names : List Str)
    (hnames : names = subset.getD (vars.map Prod.fst)) (hnd : names.Nodup) (hsub : ∀ n ∈ names, n ∈ vars.map Prod.fst)
    (lo up lo' up' : List (Ext F)) (hl : broadcast names.length (lo.map orNegInf) = .ok lo') (hu : broadcast names.length (up.map orPosInf) = .ok up')
    (hlk : lo'.length = names.length) (huk : up'.length = names.length) :
    mvnDensity mvndst sqrt names.length (fun _ => 0) (usedRho vars rho subset) lo up = .ok (μ {z | ∀ a < names.length,
      Below (standardize 0 1 (lo'.getD a .nan)) (z (names.getD a [])) ∧ AtMost (standardize 0 1 (up'.getD a .nan)) (z (names.getD a []))}) := by
  subst hnames
  have hd : ∀ a, usedRho vars rho subset a a = 1 := by
    intro a; unfold usedRho; cases subset <;> exact hg.diag _
  rw [mvn_eq (exact_used hg subset hnd hsub) hl hu hlk huk]
  simp only [hd, hg.sqrt]

theorem orthotope_unfold (subset : Option (List Str)) (names : List Str) (hnames : names = subset.getD (vars.map Prod.fst))
    (bl bu target : Bounds F) (ht : (if bl.any then some bl else if bu.any then some bu else none) = some target)
    (lo up : List (Ext F))
    (hlo : stdLimits D bl 0 (names.map fun n => (vars.find? fun x => decide (x.1 = n)).map Prod.snd) = .ok lo)
    (hup : stdLimits D bu 0 (names.map fun n => (vars.find? fun x => decide (x.1 = n)).map Prod.snd) = .ok up) :
    orthotope mvndst one sqrt D vars rho bl bu subset =
      (match (generalizing := false) target with
      | .wide _ => .error .valueError
      | .vec l => do
        let lo ← fill l.length lo
        let up ← fill l.length up
        mapE (fun x => mvnDensity mvndst sqrt names.length (fun _ => 0) (usedRho vars rho subset) [x.1] [x.2]) (lo.zip up)
      | .col l => do
        let lo ← fill l.length lo
        let up ← fill l.length up
        (fun p => [p]) <$> mvnDensity mvndst sqrt names.length (fun _ => 0) (usedRho vars rho subset) lo up) := by
  subst hnames
  unfold orthotope
  rw [ht]
  simp only
  rw [hlo, hup]
  cases subset <;> rfl

theorem any_of_column {k : Nat} {bl bu : Bounds F} {lower upper : List (Option F)} (hl : Column k bl lower) (hu : Column k bu upper)
    (hsome : bl.any = true ∨ bu.any = true) :
    ∃ l, l.length = k ∧ (if bl.any then some bl else if bu.any then some bu else none) = some (.col l) := by
  cases h : bl.any with
  | true =>
    rcases hl with ⟨rfl, hl⟩ | ⟨hl, _⟩
    · exact ⟨lower, hl, by simp⟩
    · rw [h] at hl; cases hl
  | false =>
    rw [h] at hsome
    have hu' : bu.any = true := by simpa using hsome
    rw [hu']
    rcases hu with ⟨rfl, hu⟩ | ⟨hu, _⟩
    · exact ⟨upper, hu, by simp⟩
    · rw [hu'] at hu; cases hu

theorem any_of_vector {k : Nat} {bl bu : Bounds F} {lower upper : List (Option F)} (hl : Vector k bl lower) (hu : Vector k bu upper)
    (hsome : bl.any = true ∨ bu.any = true) :
    ∃ l, l.length = k ∧ (if bl.any then some bl else if bu.any then some bu else none) = some (.vec l) := by
  cases h : bl.any with
  | true =>
    rcases hl with ⟨rfl, hl⟩ | ⟨hl, _⟩
    · exact ⟨lower, hl, by simp⟩
    · rw [h] at hl; cases hl
  | false =>
    rw [h] at hsome
    have hu' : bu.any = true := by simpa using hsome
    rw [hu']
    rcases hu with ⟨rfl, hu⟩ | ⟨hu, _⟩
    · exact ⟨upper, hu, by simp⟩
    · rw [hu'] at hu; cases hu

/-- **C107 (sets of variables).** If the limits are given as arrays with one column (or there are none), the result
has one entry: the probability that each of the selected variables is above its lower limit and not above its upper
limit, whatever the families of the variables, their truncation limits and their correlations are.  At each limit the
`cdf` of the variable has to be the probability of the values up to the limit (see `C107_families`). -/
theorem C107_column_partial (hg : GoodSet mvndst μ sqrt vars rho) (subset : Option (List Str)) (names : List Str)
    (hnames : names = subset.getD (vars.map Prod.fst)) (hnd : names.Nodup) (cdf : Str → Cdf F) (inv : Str → F → Except PyErr (Ext F))
    (hvars : ∀ n ∈ names, (n, cdf n) ∈ vars) (lower upper : List (Option F)) (bl bu : Bounds F)
    (hl : Column names.length bl lower) (hu : Column names.length bu upper) (hsome : bl.any = true ∨ bu.any = true)
    (hdesc : ∀ a < names.length, ∀ x, x ∈ lower.getD a none ∨ x ∈ upper.getD a none →
      Describes (cdf (names.getD a [])) (inv (names.getD a [])) x) :
    orthotope mvndst one sqrt D vars rho bl bu subset =
      .ok [μ {z | ∀ a < names.length, ∀ y, inv (names.getD a []) (D.cdf (z (names.getD a []))) = .ok (.fin y) →
        InBox (lower.getD a none) (upper.getD a none) y}] := by
  have hsub : ∀ n ∈ names, n ∈ vars.map Prod.fst := fun n hn => List.mem_map.2 ⟨_, hvars n hn, rfl⟩
  have el := stdLimits_names (D := D) hg.names cdf names hvars bl lower (.inl hl)
    fun a ha x hx => by obtain ⟨p, hp, _⟩ := hdesc a ha x (.inl hx); exact ⟨_, hp⟩
  have eu := stdLimits_names (D := D) hg.names cdf names hvars bu upper (.inl hu)
    fun a ha x hx => by obtain ⟨p, hp, _⟩ := hdesc a ha x (.inr hx); exact ⟨_, hp⟩
  obtain ⟨l, hk, ht⟩ := any_of_column hl hu hsome
  rw [orthotope_unfold subset names hnames bl bu _ ht _ _ el eu]
  simp only
  rw [fill_len (by simp [hk]), fill_len (by simp [hk])]
  simp only [bind, Except.bind]
  rw [density_names hg subset names hnames hnd hsub _ _ _ _ (broadcast_len (by simp)) (broadcast_len (by simp)) (by simp) (by simp)]
  simp only [Functor.map, Except.map]
  congr 3
  ext z
  refine forall_congr' fun a => forall_congr' fun ha => ?_
  rw [← inside_iff D _ _ _ _ (hdesc a ha)]
  simp [List.getD_eq_getElem?_getD, ha]

omit [Field F] [LinearOrder F] [IsStrictOrderedRing F] in
theorem zip_map_map {α β γ : Type} (l : List α) (f : α → β) (g : α → γ) : (l.map fun x => (f x, g x)) = (l.map f).zip (l.map g) := by
  induction l with
  | nil => rfl
  | cons a l ih => simp [ih]

/-- **C107 does not hold for vectors.** If the limits are given as vectors, with one entry for each of several
variables, the result has one entry for each variable; it is the probability that as many variables with the
distribution of this one, with the correlations of the set, are all within the limits of this one. -/
theorem C107_vector (hg : GoodSet mvndst μ sqrt vars rho) (subset : Option (List Str)) (names : List Str)
    (hnames : names = subset.getD (vars.map Prod.fst)) (hnd : names.Nodup) (cdf : Str → Cdf F) (inv : Str → F → Except PyErr (Ext F))
    (hvars : ∀ n ∈ names, (n, cdf n) ∈ vars) (lower upper : List (Option F)) (bl bu : Bounds F)
    (hl : Vector names.length bl lower) (hu : Vector names.length bu upper) (hsome : bl.any = true ∨ bu.any = true)
    (hdesc : ∀ a < names.length, ∀ x, x ∈ lower.getD a none ∨ x ∈ upper.getD a none →
      Describes (cdf (names.getD a [])) (inv (names.getD a [])) x) :
    orthotope mvndst one sqrt D vars rho bl bu subset =
      .ok ((List.range names.length).map fun j =>
        μ {z | ∀ a < names.length, ∀ y, inv (names.getD j []) (D.cdf (z (names.getD a []))) = .ok (.fin y) →
          InBox (lower.getD j none) (upper.getD j none) y}) := by
  have hsub : ∀ n ∈ names, n ∈ vars.map Prod.fst := fun n hn => List.mem_map.2 ⟨_, hvars n hn, rfl⟩
  have el := stdLimits_names (D := D) hg.names cdf names hvars bl lower (.inr hl)
    fun a ha x hx => by obtain ⟨p, hp, _⟩ := hdesc a ha x (.inl hx); exact ⟨_, hp⟩
  have eu := stdLimits_names (D := D) hg.names cdf names hvars bu upper (.inr hu)
    fun a ha x hx => by obtain ⟨p, hp, _⟩ := hdesc a ha x (.inr hx); exact ⟨_, hp⟩
  obtain ⟨l, hk, ht⟩ := any_of_vector hl hu hsome
  rw [orthotope_unfold subset names hnames bl bu _ ht _ _ el eu]
  simp only
  rw [fill_len (by simp [hk]), fill_len (by simp [hk])]
  simp only [bind, Except.bind]
  rw [← zip_map_map]
  rw [mapE_pure (g := fun x => μ {z | ∀ a < names.length,
      Below (standardize 0 1 (orNegInf x.1)) (z (names.getD a [])) ∧ AtMost (standardize 0 1 (orPosInf x.2)) (z (names.getD a []))})]
  · rw [List.map_map]
    congr 1
    apply List.map_congr_left
    intro j hj
    simp only [Function.comp]
    congr 1
    ext z
    refine forall_congr' fun a => forall_congr' fun ha => ?_
    exact inside_iff D _ _ _ _ (hdesc j (List.mem_range.1 hj)) _
  · intro x _
    rw [density_names hg subset names hnames hnd hsub _ _ _ _ (broadcast_one _ _) (broadcast_one _ _) (by simp) (by simp)]
    congr 2
    ext z
    refine forall_congr' fun a => forall_congr' fun ha => ?_
    simp [List.getD_eq_getElem?_getD, ha]

/-- With one variable there is no difference. -/
theorem C107_one_variable (hg : GoodSet mvndst μ sqrt vars rho) (subset : Option (List Str)) (name : Str)
    (hnames : [name] = subset.getD (vars.map Prod.fst)) (cdf : Cdf F) (inv : F → Except PyErr (Ext F))
    (hvars : (name, cdf) ∈ vars) (lower upper : Option F) (hsome : lower ≠ none ∨ upper ≠ none)
    (hdesc : ∀ x, x ∈ lower ∨ x ∈ upper → Describes cdf inv x) :
    orthotope mvndst one sqrt D vars rho (.vec [lower]) (.vec [upper]) subset =
      .ok [μ {z | ∀ y, inv (D.cdf (z name)) = .ok (.fin y) → InBox lower upper y}] := by
  rw [C107_vector hg subset [name] hnames (by simp) (fun _ => cdf) (fun _ => inv) (by simpa using hvars) [lower] [upper] _ _
    (.inl ⟨rfl, rfl⟩) (.inl ⟨rfl, rfl⟩) (by simpa [Bounds.any, Option.isSome_iff_ne_none] using hsome)
    (by simpa using hdesc)]
  simp

/-- Several boxes at once, one in each column, are refused. -/
theorem C107_several_boxes (subset : Option (List Str)) (n : Str) (ns : List Str) (hnames : n :: ns = subset.getD (vars.map Prod.fst))
    (cdf : Str → Cdf F) (hvars : (n, cdf n) ∈ vars) (hg : GoodSet mvndst μ sqrt vars rho) (bu : Bounds F) :
    orthotope mvndst one sqrt D vars rho (.wide true) bu subset = .error .valueError := by
  unfold orthotope
  simp only [Bounds.any, if_true]
  rw [← hnames]
  simp only [List.map_cons, find_of_nodup hg.names hvars, stdLimits, stdLimit, Bounds.any, if_true]
  rfl

/-- Without limits the probability is 1. -/
theorem C107_no_limits (subset : Option (List Str)) (bl bu : Bounds F) (hl : bl.any = false) (hu : bu.any = false) :
    orthotope mvndst one sqrt D vars rho bl bu subset = .ok [one] := by
  unfold orthotope
  simp [hl, hu]

end

/-! ## Families of variables -/

theorem clip_cdf (D : StdDist F) {mu sig : F} (hs : 0 < sig) (a b : Option F) (x : F) :
    normCdf D (((Ext.fin x).max (lowerInf a)).min (upperInf b)) (.fin mu) sig =
      some (min (max (D.cdf ((x - mu) / sig)) (pLow D mu sig a)) (pHigh D mu sig b)) := by
  have mono : ∀ x y : F, x ≤ y → D.cdf ((x - mu) / sig) ≤ D.cdf ((y - mu) / sig) := fun x y h =>
    D.cdf_mono (div_le_div_of_nonneg_right (by linarith) hs.le)
  have hmax : ∀ x y : F, D.cdf ((max x y - mu) / sig) = max (D.cdf ((x - mu) / sig)) (D.cdf ((y - mu) / sig)) := by
    intro x y
    rcases le_total x y with h | h
    · rw [max_eq_right h, max_eq_right (mono _ _ h)]
    · rw [max_eq_left h, max_eq_left (mono _ _ h)]
  have hmin : ∀ x y : F, D.cdf ((min x y - mu) / sig) = min (D.cdf ((x - mu) / sig)) (D.cdf ((y - mu) / sig)) := by
    intro x y
    rcases le_total x y with h | h
    · rw [min_eq_left h, min_eq_left (mono _ _ h)]
    · rw [min_eq_right h, min_eq_right (mono _ _ h)]
  have e1 : (Ext.fin x).max (lowerInf a) = .fin (match a with | none => x | some a => max x a) := by
    cases a <;> simp [lowerInf, Ext.max, max_def]
  have e2 : ∀ y : F, (Ext.fin y).min (upperInf b) = .fin (match b with | none => y | some b => min y b) := by
    intro y; cases b <;> simp [upperInf, Ext.min, min_def]
  rw [e1, e2]
  simp only [normCdf, if_pos hs, Ext.sub, Ext.divF, hs.ne', if_false, stdCdf, Option.some.injEq]
  cases a <;> cases b <;> simp only [pLow, pHigh, hmax, hmin]
  · rw [max_eq_left (D.cdf_pos _).le, min_eq_left (D.cdf_lt_one _).le]
  · rw [max_eq_left (D.cdf_pos _).le]
  · rw [min_eq_left (max_le (D.cdf_lt_one _).le (D.cdf_lt_one _).le)]

/-- The `cdf` describes the variable (normal, with any truncation limits that are not refused; uniform). -/
theorem C107_families (D : StdDist F) :
    (∀ (eps mu sig : F) (a b : Option F) (x : F), 0 < eps → 0 < sig → (∃ u v, normalInverse D eps mu sig a b u = .ok v) →
      Describes (fun x => normalCdf D eps mu sig a b (.fin x)) (normalInverse D eps mu sig a b) x) ∧
    (∀ (t0 t1 : F) (lim : Option (F × F)) (x : F), t0 < t1 → (∀ p ∈ lim, p.1 < p.2) →
      Describes (fun x => .ok (uniformCdf (some t0) (some t1) (lim.map Prod.fst) (lim.map Prod.snd) x))
        (fun u => .ok (uniformInverse (some t0) (some t1) (lim.map Prod.fst) (lim.map Prod.snd) u)) x) := by
  constructor
  · rintro eps mu sig a b x he hs ⟨u₀, v₀, hv⟩
    have key : ∀ q, 0 < q → q < 1 → ∃ y, normPpf D (some q) (.fin mu) sig = .fin y ∧ (y ≤ x ↔ q ≤ D.cdf ((x - mu) / sig)) := by
      intro q h0 h1
      refine ⟨mu + sig * D.ppf q, ?_, ?_⟩
      · rw [normPpf_eq D hs h0.le h1.le, if_neg h0.ne', if_pos h1]
      · conv_rhs => rw [← D.cdf_ppf h0 h1]
        constructor
        · intro h
          apply D.cdf_mono
          rw [le_div_iff₀ hs]; linarith
        · intro h
          have := D.le_of_cdf_le h
          rw [le_div_iff₀ hs] at this; linarith
    rw [normalInverse_eq D hs] at hv
    by_cases htr : truncated a b = true
    · rw [if_pos htr] at hv
      split at hv
      · cases hv
      rename_i hd
      have hlt : 0 < pHigh D mu sig b - pLow D mu sig a := lt_of_lt_of_le he (not_lt.1 hd)
      refine ⟨(min (max (D.cdf ((x - mu) / sig)) (pLow D mu sig a)) (pHigh D mu sig b) - pLow D mu sig a) /
        (pHigh D mu sig b - pLow D mu sig a), ?_, ?_, ?_, ?_⟩
      · simp only [normalCdf, if_pos htr, stdCdf_lower D hs, stdCdf_upper D hs, ensurePositive, osub, if_neg hd, clip_cdf D hs, unscale]
      · apply div_nonneg _ hlt.le
        have := le_min (le_max_right (D.cdf ((x - mu) / sig)) (pLow D mu sig a)) (by linarith : pLow D mu sig a ≤ pHigh D mu sig b)
        linarith
      · rw [div_le_one hlt]
        have := min_le_right (max (D.cdf ((x - mu) / sig)) (pLow D mu sig a)) (pHigh D mu sig b)
        linarith
      · intro u h0 h1
        have m1 := mul_pos h0 hlt
        have m2 := mul_lt_mul_of_pos_right h1 hlt
        have hq0 := pLow_nonneg D mu sig a
        have hq1 := pHigh_le_one D mu sig b
        obtain ⟨y, hy, hyx⟩ := key (u * (pHigh D mu sig b - pLow D mu sig a) + pLow D mu sig a) (by linarith) (by linarith)
        refine ⟨y, ?_, ?_⟩
        · rw [normalInverse_eq D hs, if_pos htr, if_neg hd, hy]
        · rw [hyx, le_div_iff₀ hlt, le_sub_iff_add_le, le_min_iff, le_max_iff]
          constructor
          · intro h; exact ⟨.inl h, by linarith⟩
          · rintro ⟨h | h, -⟩
            · exact h
            · exfalso; linarith
    · refine ⟨D.cdf ((x - mu) / sig), ?_, (D.cdf_pos _).le, (D.cdf_lt_one _).le, ?_⟩
      · simp [normalCdf, htr, normCdf, hs, Ext.sub, Ext.divF, hs.ne', stdCdf]
      · intro u h0 h1
        obtain ⟨y, hy, hyx⟩ := key u h0 h1
        exact ⟨y, by rw [normalInverse_eq D hs, if_neg htr, hy], hyx⟩
  · intro t0 t1 lim x ht hl
    have key : ∀ s t : F, s < t → ∃ p : F, (if x ≤ s then some 0 else if t ≤ x then some 1 else some ((x - s) / (t - s))) = some p ∧
        0 ≤ p ∧ p ≤ 1 ∧ ∀ u, 0 < u → u < 1 → (s + u * (t - s) ≤ x ↔ u ≤ p) := by
      intro s t hst
      have hd : 0 < t - s := by linarith
      have m : ∀ u : F, 0 < u → u < 1 → 0 < u * (t - s) ∧ u * (t - s) < t - s := fun u h0 h1 =>
        ⟨mul_pos h0 hd, by have := mul_lt_mul_of_pos_right h1 hd; linarith⟩
      by_cases h1 : x ≤ s
      · refine ⟨0, by rw [if_pos h1], le_refl _, zero_le_one, fun u hu0 hu1 => ?_⟩
        have := m u hu0 hu1
        constructor <;> intro h <;> exfalso <;> linarith
      · by_cases h2 : t ≤ x
        · refine ⟨1, by rw [if_neg h1, if_pos h2], zero_le_one, le_refl _, fun u hu0 hu1 => ?_⟩
          have := m u hu0 hu1
          exact ⟨fun _ => hu1.le, fun _ => by linarith⟩
        · refine ⟨_, by rw [if_neg h1, if_neg h2], div_nonneg (by linarith) hd.le, (div_le_one hd).2 (by linarith), fun u hu0 hu1 => ?_⟩
          rw [le_div_iff₀ hd]
          constructor <;> intro h <;> linarith
    cases lim with
    | none =>
      obtain ⟨p, hp, h0, h1, h⟩ := key t0 t1 ht
      refine ⟨p, ?_, h0, h1, fun u hu0 hu1 => ⟨t0 + u * (t1 - t0), ?_, h u hu0 hu1⟩⟩
      · simpa [uniformCdf, uniformBounds, truncated, lowerInf, upperInf, ht] using hp
      · simp [uniformInverse, uniformBounds, truncated, lowerInf, upperInf, ht, hu0.le, hu1.le]
    | some pr =>
      have hlt := hl pr rfl
      obtain ⟨p, hp, h0, h1, h⟩ := key pr.1 pr.2 hlt
      refine ⟨p, ?_, h0, h1, fun u hu0 hu1 => ⟨pr.1 + u * (pr.2 - pr.1), ?_, h u hu0 hu1⟩⟩
      · simpa [uniformCdf, uniformBounds, truncated, hlt] using hp
      · simp [uniformInverse, uniformBounds, truncated, hlt, hu0.le, hu1.le]

theorem log_mono (E : ExpLog F) {x y : F} (hx : 0 < x) (h : x ≤ y) : E.log x ≤ E.log y := by
  by_contra hn
  have := E.exp_strictMono (not_le.1 hn)
  rw [E.exp_log hx, E.exp_log (lt_of_lt_of_le hx h)] at this
  exact absurd h (not_le.2 this)

/-- The lower limit of the logarithm of a lognormal variable. -/
def logLower (E : ExpLog F) (eps : F) (a b : Option F) : Option F :=
  if truncated a b then some (E.log (lowerPos eps a)) else none

theorem truncated_log (E : ExpLog F) (eps : F) (a b : Option F) : truncated (logLower E eps a b) (b.map E.log) = truncated a b := by
  unfold logLower
  cases h : truncated a b with
  | true => simp [truncated]
  | false =>
    simp only [truncated, Bool.or_eq_false_iff] at h
    cases b with
    | none => rfl
    | some b => simp at h

theorem lognormal_inverse (D : StdDist F) (E : ExpLog F) {eps theta beta : F} (he : 0 < eps) (ht : 0 < theta) (hb : 0 < beta)
    (a b : Option F) (hbn : ∀ y ∈ b, 0 < y) (u : F) :
    lognormalInverse D E eps theta beta a b u =
      (normalInverse D eps (E.log theta) beta (logLower E eps a b) (b.map E.log) u).map fun x => x.exp E := by
  rw [lognormalInverse_eq D E he ht hb a b (fun y h => (hbn y h).le), normalInverse_eq D hb, truncated_log]
  have e2 : pHigh D (E.log theta) beta (b.map E.log) = pHighL D E theta beta b := by
    cases b with
    | none => rfl
    | some b => simp [pHigh, pHighL, (hbn b rfl).ne']
  split
  · rename_i htr
    have e1 : pLow D (E.log theta) beta (logLower E eps a b) = D.cdf ((E.log (lowerPos eps a) - E.log theta) / beta) := by
      simp [logLower, htr, pLow]
    rw [e1, e2]
    simp only
    split <;> rfl
  · rfl

theorem lognormal_cdf (D : StdDist F) (E : ExpLog F) {eps theta beta : F} (he : 0 < eps) (ht : 0 < theta)
    (a b : Option F) (han : ∀ y ∈ a, 0 < y) (hbn : ∀ y ∈ b, 0 < y) (x : F) (hx : 0 < x) (hxe : truncated a b = false → eps ≤ x) :
    lognormalCdf D E eps theta beta a b (.fin x) =
      normalCdf D eps (E.log theta) beta (logLower E eps a b) (b.map E.log) (.fin (E.log x)) := by
  have hlt : (Ext.fin theta).log E = .fin (E.log theta) := by simp [Ext.log, ht]
  unfold lognormalCdf normalCdf
  rw [truncated_log]
  simp only [hlt]
  split
  · rename_i htr
    have hlow : lowerPosCdf eps a = lowerPos eps a := by
      cases a with
      | none => rfl
      | some x => simp [lowerPosCdf, lowerPos, not_le.2 (han x rfl)]
    have hlp := lowerPos_pos he a
    have e1 : (Ext.fin (lowerPosCdf eps a)).log E = lowerInf (logLower E eps a b) := by
      simp [hlow, Ext.log, hlp, logLower, htr, lowerInf]
    have e2 : (upperInf b).log E = upperInf (b.map E.log) := by
      cases b with
      | none => rfl
      | some b => simp [upperInf, Ext.log, hbn b rfl]
    have lmax : ∀ y, 0 < y → E.log (if x ≤ y then y else x) = if E.log x ≤ E.log y then E.log y else E.log x := by
      intro y hy
      by_cases h : x ≤ y
      · rw [if_pos h, if_pos (log_mono E hx h)]
      · rw [if_neg h]
        have := log_mono E hy (not_le.1 h).le
        split
        · exact le_antisymm ‹_› this
        · rfl
    have lmin : ∀ z y, 0 < z → 0 < y → E.log (if z ≤ y then z else y) = if E.log z ≤ E.log y then E.log z else E.log y := by
      intro z y hz hy
      by_cases h : z ≤ y
      · rw [if_pos h, if_pos (log_mono E hz h)]
      · rw [if_neg h]
        have := log_mono E hy (not_le.1 h).le
        split
        · exact le_antisymm this ‹_›
        · rfl
    have e3 : (((Ext.fin x).max (.fin (lowerPosCdf eps a))).min (upperInf b)).log E =
        ((Ext.fin (E.log x)).max (lowerInf (logLower E eps a b))).min (upperInf (b.map E.log)) := by
      have hp : 0 < (if x ≤ lowerPos eps a then lowerPos eps a else x) := by split <;> assumption
      cases b with
      | none => simp [hlow, Ext.max, logLower, htr, lowerInf, upperInf, Ext.min, Ext.log, hp, lmax _ hlp]
      | some b =>
        have hb := hbn b rfl
        have hp' : 0 < (if (if x ≤ lowerPos eps a then lowerPos eps a else x) ≤ b then (if x ≤ lowerPos eps a then lowerPos eps a else x) else b) := by
          split_ifs <;> assumption
        simp only [hlow, Ext.max, logLower, htr, if_true, lowerInf, upperInf, Ext.min, Option.map_some, Ext.log, hp', lmin _ _ hp hb, lmax _ hlp]
    rw [e1, e2, e3]
  · rename_i htr
    have h := hxe (by simpa using htr)
    have : ((Ext.fin x).max (.fin eps)).log E = .fin (E.log x) := by
      simp only [Ext.max]
      split
      · rename_i h'
        rw [le_antisymm h' h]; simp [Ext.log, he]
      · simp [Ext.log, hx]
    rw [this]

/-- The same for lognormal variables with positive limits (for values from the constant `eps` of the code, `1e-16`, if
there are no truncation limits). -/
theorem C107_lognormal (D : StdDist F) (E : ExpLog F) (eps theta beta : F) (a b : Option F) (x : F) (he : 0 < eps) (ht : 0 < theta)
    (hb : 0 < beta) (han : ∀ y ∈ a, 0 < y) (hbn : ∀ y ∈ b, 0 < y) (hx : 0 < x) (hxe : a = none → b = none → eps ≤ x)
    (hok : ∃ u v, lognormalInverse D E eps theta beta a b u = .ok v) :
    Describes (fun x => lognormalCdf D E eps theta beta a b (.fin x)) (lognormalInverse D E eps theta beta a b) x := by
  obtain ⟨u, v, hv⟩ := hok
  rw [lognormal_inverse D E he ht hb a b hbn] at hv
  have hok : ∃ u v, normalInverse D eps (E.log theta) beta (logLower E eps a b) (b.map E.log) u = .ok v := by
    cases h : normalInverse D eps (E.log theta) beta (logLower E eps a b) (b.map E.log) u with
    | ok v => exact ⟨u, v, h⟩
    | error e => rw [h] at hv; cases hv
  obtain ⟨p, hp, h0, h1, h⟩ := (C107_families D).1 eps _ beta _ _ (E.log x) he hb hok
  refine ⟨p, ?_, h0, h1, fun u hu0 hu1 => ?_⟩
  · beta_reduce
    rw [lognormal_cdf D E he ht a b han hbn x hx fun htr => by
      simp only [truncated, Bool.or_eq_false_iff, Option.isSome_eq_false_iff, Option.isNone_iff_eq_none] at htr
      exact hxe htr.1 htr.2]
    exact hp
  · obtain ⟨y, hy, hyx⟩ := h u hu0 hu1
    refine ⟨E.exp y, ?_, ?_⟩
    · rw [lognormal_inverse D E he ht hb a b hbn, hy]; rfl
    · rw [← hyx]
      constructor
      · intro hle
        have := log_mono E (E.exp_pos y) hle
        rwa [E.log_exp] at this
      · intro hle
        rw [← E.exp_log hx]
        exact E.exp_mono hle

/-! ### The hypotheses can be met -/

/-- Two normal variables with means 1 and 2, variances 1, an exact `mvndst` -/
example : ∃ mvndst : Mvndst ℚ (Set (Nat → ℚ)), mvnDensity mvndst id 2 (fun a => a + 1) (fun a b => if a = b then 1 else 1 / 2)
    ([none, some 1].map limit) ([some 3, some 5].map limit) =
      .ok {z | ∀ a < 2, InBox (([none, some 1] : List (Option ℚ)).getD a none) (([some 3, some 5] : List (Option ℚ)).getD a none) ((a + 1 : ℚ) + 1 * z a)} := by
  refine ⟨fun lo up fl _ => {z | ∀ a < 2, InFlag (fl.getD a 2) (lo.getD a .nan) (up.getD a .nan) (z a)}, ?_⟩
  rw [C107_normal 2 id (fun a => (a : ℚ) + 1) (fun a b => if a = b then 1 else 1 / 2) [none, some 1] [some 3, some 5] rfl rfl
    (by simp) (μ := id) (fun lo up fl _ _ _ => rfl)]
  simp

/-- A lognormal variable with median 2, limited to values from 1 to 4, at the value 3 -/
example : Describes (fun x => lognormalCdf ratDist ratExp (1 / 10 ^ 16) 2 1 (some 1) (some 4) (.fin x))
    (lognormalInverse ratDist ratExp (1 / 10 ^ 16) (2 : ℚ) 1 (some 1) (some 4)) 3 :=
  C107_lognormal ratDist ratExp _ _ _ _ _ _ (by norm_num) (by norm_num) (by norm_num) (by simp) (by simp) (by norm_num) (by simp)
    ⟨1 / 2, (match lognormalInverse ratDist ratExp (1 / 10 ^ 16) (2 : ℚ) 1 (some 1) (some 4) (1 / 2) with | .ok v => v | .error _ => .nan), by decide +kernel⟩

/-! ## Independent standard normal variables -/

section Independent

open MeasureTheory ProbabilityTheory

/-- The measure of independent standard normal variables, one for each name. -/
noncomputable def independent : Measure (Str → ℝ) := Measure.infinitePi fun _ => gaussianReal 0 1

/-- What `mvndst` computes for independent variables. -/
noncomputable def mvndst₀ : Mvndst ℝ ENNReal := fun lo up fl _ =>
  ((List.range lo.length).map fun a => gaussianReal 0 1 {x | InFlag (fl.getD a 2) (lo.getD a .nan) (up.getD a .nan) x}).prod

theorem measurable_inFlag (fl : Int) (lo up : Ext ℝ) : MeasurableSet {x | InFlag fl lo up x} := by
  have h1 : MeasurableSet {x | Below lo x} := by
    cases lo with
    | fin a => exact measurableSet_Ioi
    | negInf => simp [Below]
    | posInf => simp [Below]
    | nan => simp [Below]
  have h2 : MeasurableSet {x | AtMost up x} := by
    cases up with
    | fin a => exact measurableSet_Iic
    | negInf => simp [AtMost]
    | posInf => simp [AtMost]
    | nan => simp [AtMost]
  have e : {x | InFlag fl lo up x} = (if fl = 1 ∨ fl = 2 then {x | Below lo x} else Set.univ) ∩
      (if fl = 0 ∨ fl = 2 then {x | AtMost up x} else Set.univ) := by
    ext x
    unfold InFlag
    split_ifs <;> simp_all
  rw [e]
  split_ifs <;> measurability

theorem independent_box (names : List Str) (hnd : names.Nodup) (t : Nat → Set ℝ) (ht : ∀ a, MeasurableSet (t a)) :
    independent {z | ∀ a < names.length, z (names.getD a []) ∈ t a} =
      ((List.range names.length).map fun a => gaussianReal 0 1 (t a)).prod := by
  have e : {z : Str → ℝ | ∀ a < names.length, z (names.getD a []) ∈ t a} = Set.pi names.toFinset fun n => t (names.idxOf n) := by
    ext z
    simp only [Set.mem_setOf_eq, Set.mem_pi, List.coe_toFinset]
    constructor
    · intro h n hn
      have hi := List.idxOf_lt_length_iff.2 hn
      have := h _ hi
      simpa [List.getD_eq_getElem?_getD, hi] using this
    · intro h a ha
      have := h names[a] (List.getElem_mem ha)
      rw [hnd.idxOf_getElem a ha] at this
      simpa [List.getD_eq_getElem?_getD, ha] using this
  rw [e, independent, Measure.infinitePi_pi _ (fun n _ => ht _), List.prod_toFinset _ hnd]
  congr 1
  apply List.ext_getElem
  · simp
  · intro i h1 h2
    simp only [List.length_map] at h1
    simp [hnd.idxOf_getElem i h1]

/-- Any set of independent variables is a `GoodSet`. -/
theorem good_independent (vars : List (Str × Cdf ℝ)) (h : (vars.map Prod.fst).Nodup) :
    GoodSet mvndst₀ independent Real.sqrt vars (fun a b => if a = b then 1 else 0) where
  names := h
  diag := by simp
  symm := by intro i j; simp [eq_comm]
  sqrt := Real.sqrt_one
  exact := by
    intro names hnd _ lo up fl h1 h2 h3
    rw [show {z : Str → ℝ | ∀ a < names.length, InFlag (fl.getD a 2) (lo.getD a .nan) (up.getD a .nan) (z (names.getD a []))} =
      {z | ∀ a < names.length, z (names.getD a []) ∈ {x | InFlag (fl.getD a 2) (lo.getD a .nan) (up.getD a .nan) x}} from rfl,
      independent_box names hnd _ fun a => measurable_inFlag _ _ _]
    simp only [mvndst₀, h1]

/-- `A` and `B`, standard normal -/
noncomputable def twoVars : List (Str × Cdf ℝ) :=
  [(str "A", fun x => normalCdf gaussian (1 / 10 ^ 16) 0 1 none none (.fin x)),
   (str "B", fun x => normalCdf gaussian (1 / 10 ^ 16) 0 1 none none (.fin x))]

theorem twoVars_nodup : (twoVars.map Prod.fst).Nodup := by
  rw [show twoVars.map Prod.fst = [str "A", str "B"] from rfl]; decide

theorem twoVars_inv (z : ℝ) : normalInverse gaussian (1 / 10 ^ 16) 0 1 none none (gaussian.cdf z) = .ok (.fin z) := by
  rw [normalInverse_eq gaussian one_pos]
  simp only [truncated, Option.isSome_none, Bool.or_self, Bool.false_eq_true, if_false]
  rw [normPpf_cdf gaussian one_pos]
  simp

theorem twoVars_desc (x : ℝ) : Describes (fun x => normalCdf gaussian (1 / 10 ^ 16) 0 1 none none (.fin x))
    (normalInverse gaussian (1 / 10 ^ 16) 0 1 none none) x :=
  (C107_families gaussian).1 _ _ _ _ _ _ (by positivity) one_pos ⟨_, _, twoVars_inv 0⟩

theorem negative_between : gaussianReal 0 1 (Set.Iic 0) ≠ 1 ∧
    gaussianReal 0 1 (Set.Iic 0) * gaussianReal 0 1 (Set.Iic 0) ≠ gaussianReal 0 1 (Set.Iic 0) := by
  have h0 := gaussCdf_pos 0
  have h1 := gaussCdf_lt_one 0
  unfold gaussCdf at h0 h1
  rw [cdf_eq_real, measureReal_def] at h0 h1
  constructor
  · intro h
    rw [h] at h1
    simp at h1
  · intro h
    have h2 := congrArg ENNReal.toReal h
    rw [ENNReal.toReal_mul] at h2
    nlinarith

/-- For two independent standard normal variables, the first not above 0 and the second without limits, a column of
limits gives the probability that the first one is not above 0; vectors of limits give two numbers, and neither of them
is this probability: the square of it, and 1. -/
theorem C107_vector_wrong :
    let right := gaussianReal 0 1 (Set.Iic 0)
    let density := fun bl bu => orthotope mvndst₀ 1 Real.sqrt gaussian twoVars (fun a b => if a = b then 1 else 0) bl bu none
    density (.col [none, none]) (.col [some 0, none]) = .ok [right] ∧
    density (.vec [none, none]) (.vec [some 0, none]) = .ok [right * right, 1] ∧ right * right ≠ right ∧ 1 ≠ right := by
  refine ⟨?_, ?_, negative_between.2, negative_between.1.symm⟩
  · beta_reduce
    rw [C107_column_partial (good_independent twoVars twoVars_nodup) none [str "A", str "B"] rfl twoVars_nodup
      (fun _ x => normalCdf gaussian (1 / 10 ^ 16) 0 1 none none (.fin x))
      (fun _ => normalInverse gaussian (1 / 10 ^ 16) 0 1 none none) (by simp [twoVars]) [none, none] [some 0, none] _ _
      (.inl ⟨rfl, rfl⟩) (.inl ⟨rfl, rfl⟩) (by simp [Bounds.any]) (fun _ _ x _ => twoVars_desc x)]
    congr 2
    have e := independent_box [str "A", str "B"] twoVars_nodup (fun a => if a = 0 then Set.Iic 0 else Set.univ)
      (fun a => by split_ifs <;> measurability)
    simp only [List.length_cons, List.length_nil, Nat.zero_add, Nat.reduceAdd, List.range_succ, List.range_zero,
      List.nil_append, List.cons_append, List.map_cons, List.map_nil, List.prod_cons, List.prod_nil, if_true, measure_univ, mul_one,
      one_ne_zero, if_false] at e
    rw [← e]
    congr 1
    ext z
    refine forall_congr' fun a => forall_congr' fun ha => ?_
    have ha' : a < 2 := ha
    simp only [twoVars_inv, Except.ok.injEq, Ext.fin.injEq, forall_eq']
    interval_cases a <;> simp [InBox]
  · beta_reduce
    rw [C107_vector (good_independent twoVars twoVars_nodup) none [str "A", str "B"] rfl twoVars_nodup
      (fun _ x => normalCdf gaussian (1 / 10 ^ 16) 0 1 none none (.fin x))
      (fun _ => normalInverse gaussian (1 / 10 ^ 16) 0 1 none none) (by simp [twoVars]) [none, none] [some 0, none] _ _
      (.inl ⟨rfl, rfl⟩) (.inl ⟨rfl, rfl⟩) (by simp [Bounds.any]) (fun _ _ x _ => twoVars_desc x)]
    simp only [List.length_cons, List.length_nil, Nat.zero_add, Nat.reduceAdd, List.range_succ, List.range_zero,
      List.nil_append, List.cons_append, List.map_cons, List.map_nil, twoVars_inv, Except.ok.injEq, Ext.fin.injEq, forall_eq']
    congr 2
    · have e := independent_box [str "A", str "B"] twoVars_nodup (fun a => Set.Iic 0) (fun a => measurableSet_Iic)
      simp only [List.length_cons, List.length_nil, Nat.zero_add, Nat.reduceAdd, List.range_succ, List.range_zero,
        List.nil_append, List.cons_append, List.map_cons, List.map_nil, List.prod_cons, List.prod_nil, mul_one] at e
      rw [← e]
      congr 1
      ext z
      refine forall_congr' fun a => forall_congr' fun ha => ?_
      simp [InBox]
    · congr 1
      rw [show {z : Str → ℝ | ∀ a < 2, InBox ([none, none].getD 1 none) ([some 0, none].getD 1 none) (z ([str "A", str "B"].getD a []))} = Set.univ from
        Set.eq_univ_of_forall fun z a ha => by simp [InBox]]
      haveI : IsProbabilityMeasure independent := by unfold independent; infer_instance
      exact measure_univ

/-- The second variable only, from -1 to 1 -/
example : orthotope mvndst₀ 1 Real.sqrt gaussian twoVars (fun a b => if a = b then 1 else 0) (.vec [some (-1)]) (.vec [some 1]) (some [str "B"]) =
    .ok [independent {z | -1 < z (str "B") ∧ z (str "B") ≤ 1}] := by
  rw [C107_one_variable (good_independent twoVars twoVars_nodup) (some [str "B"]) (str "B") rfl
    (fun x => normalCdf gaussian (1 / 10 ^ 16) 0 1 none none (.fin x)) (normalInverse gaussian (1 / 10 ^ 16) 0 1 none none)
    (by simp [twoVars]) _ _ (by simp) (fun x _ => twoVars_desc x)]
  simp only [twoVars_inv, Except.ok.injEq, Ext.fin.injEq, forall_eq']
  simp [InBox]

/-- Two boxes -/
example : orthotope mvndst₀ 1 Real.sqrt gaussian twoVars (fun a b => if a = b then 1 else 0) (.wide true) (.wide true) none = .error .valueError :=
  C107_several_boxes none (str "A") [str "B"] rfl (fun _ x => normalCdf gaussian (1 / 10 ^ 16) 0 1 none none (.fin x)) (by simp [twoVars])
    (good_independent twoVars twoVars_nodup) _

end Independent

end Verif.Orthotope
