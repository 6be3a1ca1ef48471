import Verif.Model.AsmDemand
import Verif.Model.Units
import Verif.Props.Labels
import Verif.Props.DemandSample
import Verif.Props.DemandReq
import Verif.Lemmas.PySort
import Verif.Lemmas.Lists

/-!
# Properties C59 and C63

C59: collapse limits.  C63: units of demands.
-/

namespace Verif.AsmDemand

open FileIO

/-! ## Specification -/

/-- A demand table with labels of `k` levels without dashes and `n` realizations. -/
structure Uniform (t : Raw) (k n : Nat) : Prop where
  nonempty : t.cols ≠ []
  levels : ∀ c ∈ t.cols, c.1.length = k
  dashes : ∀ c ∈ t.cols, ∀ p ∈ c.1, '-' ∉ p
  rows : ∀ c ∈ t.cols, c.2.2.length = n

/-- The table as it is in the file: levels joined with dashes. -/
def inFile (t : Raw) : Raw := ⟨t.hasUnits, t.cols.map fun c => ([joinChar '-' c.1], c.2)⟩

/-- The demand type in a label `type-loc-dir` or `event-type-loc-dir`. -/
def demandType : Label → Str
  | [_, t, _, _] => t
  | [t, _, _] => t
  | _ => []

/-- The number `v` is above the limit; a limit that is not a number limits nothing. -/
def Above (limit : PyFloat) (v : ℚ) : Prop :=
  match limit with
  | .fin q => q < v
  | .inf negative => negative = true
  | .nan => False

instance (limit : PyFloat) (v : ℚ) : Decidable (Above limit v) := by
  unfold Above
  cases limit <;> infer_instance

/-- The limit that is given as a float or as the text of one. -/
def LimitIs (l : Limit) (x : PyFloat) : Prop :=
  match l with
  | .text s => pyFloat? s = some x
  | .float y => y = x
  | .other => False

/-- Realization `i` has a demand of a limited type above the limit. -/
def Offends (limits : List (Str × PyFloat)) (t : Raw) (i : Nat) : Prop :=
  ∃ l ∈ limits, ∃ c ∈ t.cols, demandType c.1 = l.1 ∧ ∃ v, c.2.2[i]? = some (some v) ∧ Above l.2 v

instance (limits : List (Str × PyFloat)) (t : Raw) (i : Nat) : Decidable (Offends limits t i) := by
  unfold Offends
  have : ∀ (c : Label × Option Str × List (Option ℚ)) (q : PyFloat), Decidable (∃ v, c.2.2[i]? = some (some v) ∧ Above q v) := by
    intro c q
    cases h : c.2.2[i]? with
    | none => exact isFalse (by simp)
    | some x =>
      cases x with
      | none => exact isFalse (by simp)
      | some v => exact decidable_of_iff (Above q v) (by simp)
  infer_instance

/-- The cells of the realizations that satisfy `keep`, in order. -/
def keepCells (keep : Nat → Bool) (v : List (Option ℚ)) : List (Option ℚ) :=
  ((List.range v.length).filter keep).filterMap fun i => v[i]?

/-! ## Lemmas -/

theorem splitLabels_inFile {t : Raw} {k n : Nat} (hk : 2 ≤ k) (h : Uniform t k n) : splitLabels (inFile t) = .ok t := by
  have hr := (Labels.C06_multi_round_trip k (t.cols.map (·.1)) hk (by simpa using h.nonempty) (by
    intro r hr; rw [List.mem_map] at hr; obtain ⟨c, hc, rfl⟩ := hr; exact h.levels c hc)).2 (by
    intro r hr lbl hl; rw [List.mem_map] at hr; obtain ⟨c, hc, rfl⟩ := hr; exact h.dashes c hc lbl hl)
  have h1 : 1 < k := by omega
  simp only [Labels.toSimple, gt_iff_lt, h1, if_true] at hr
  unfold splitLabels
  have e : ((inFile t).cols.map fun c => joinChar '-' c.1) = (t.cols.map (·.1)).map (joinChar '-') := by
    unfold inFile
    rw [List.map_map, List.map_map]
    apply List.map_congr_left
    intro c _
    rfl
  rw [e, hr]
  simp only [inFile, rowsOf]
  have e2 : (t.cols.map (·.1)).zip ((t.cols.map fun c => (([joinChar '-' c.1] : Label), c.2)).map (·.2)) = t.cols := by
    rw [List.map_map]
    have : (List.map ((fun x => x.2) ∘ fun c : Label × Option Str × List (Option ℚ) => (([joinChar '-' c.1] : Label), c.2)) t.cols) = t.cols.map (·.2) := rfl
    rw [this]
    induction t.cols with
    | nil => rfl
    | cons c l ih => simpa using ih
  rw [e2]

theorem typeOf_eq {l : Label} (h : l.length = 3 ∨ l.length = 4) : typeOf l = demandType l := by
  match l, h with
  | [a, b, c], _ => rfl
  | [a, b, c, d], _ => rfl

theorem foldr_max (vs : List (Option ℚ)) : DemandReq.IsRowMax vs (vs.foldr DemandReq.maxCell none) := by
  induction vs with
  | nil => intro v hv; simp at hv
  | cons v vs ih => exact DemandReq.isRowMax_cons ih

theorem limitValue_iff (l : Limit) (x : PyFloat) : limitValue l = .ok x ↔ LimitIs l x := by
  cases l with
  | text s => simp only [limitValue, LimitIs]; cases pyFloat? s <;> simp
  | float y => simp [limitValue, LimitIs]
  | other => simp [limitValue, LimitIs]

theorem exceeds_max (q : PyFloat) (vs : List (Option ℚ)) :
    exceeds q (vs.foldr DemandReq.maxCell none) = true ↔ ∃ v, some v ∈ vs ∧ Above q v := by
  have h := foldr_max vs
  cases hm : vs.foldr DemandReq.maxCell none with
  | none =>
    rw [hm] at h
    simp only [exceeds]
    constructor
    · intro hh; exact absurd hh (by simp)
    · rintro ⟨v, hv, _⟩; exact absurd (h _ hv) (by simp)
  | some M =>
    rw [hm] at h
    cases q with
    | fin q =>
      simp only [exceeds, decide_eq_true_eq, Above]
      constructor
      · intro hlt; exact ⟨M, h.1, hlt⟩
      · rintro ⟨v, hv, hlt⟩; exact lt_of_lt_of_le hlt (h.2 v hv)
    | inf negative =>
      simp only [exceeds, Above]
      constructor
      · intro hlt; exact ⟨M, h.1, hlt⟩
      · rintro ⟨v, hv, hlt⟩; exact hlt
    | nan => simp [exceeds, Above]

theorem exceeds_maxAt (q : PyFloat) (cols : List (Label × Option Str × List (Option ℚ))) (i : Nat) :
    exceeds q (maxAt cols i) = true ↔ ∃ c ∈ cols, ∃ v, c.2.2[i]? = some (some v) ∧ Above q v := by
  unfold maxAt
  rw [exceeds_max]
  constructor
  · rintro ⟨v, hv, hlt⟩
    rw [List.mem_map] at hv
    obtain ⟨c, hc, hcv⟩ := hv
    refine ⟨c, hc, v, ?_, hlt⟩
    cases hx : c.2.2[i]? with
    | none => rw [hx] at hcv; exact absurd hcv (by simp)
    | some x => rw [hx] at hcv; simp at hcv; rw [hcv]
  · rintro ⟨c, hc, v, hv, hlt⟩
    exact ⟨v, List.mem_map.2 ⟨c, hc, by rw [hv]; rfl⟩, hlt⟩

theorem orFlags_get (a b : List Bool) (i : Nat) (ha : i < a.length) (hb : i < b.length) : (orFlags a b)[i]? = some (a[i] || b[i]) := by
  unfold orFlags
  rw [List.getElem?_zipWith, List.getElem?_eq_getElem ha, List.getElem?_eq_getElem hb]

theorem fold_flags (n : Nat) (fs : List (List Bool)) : ∀ (a : List Bool), a.length = n → (∀ f ∈ fs, f.length = n) →
    (fs.foldl orFlags a).length = n ∧ ∀ i, i < n → ((fs.foldl orFlags a)[i]? = some true ↔ a[i]? = some true ∨ ∃ f ∈ fs, f[i]? = some true) := by
  induction fs with
  | nil => intro a ha _; exact ⟨ha, by simp⟩
  | cons f fs ih =>
    intro a ha hf
    have hfl := hf f (by simp)
    have hl : (orFlags a f).length = n := by simp [orFlags, ha, hfl]
    obtain ⟨h1, h2⟩ := ih (orFlags a f) hl fun g hg => hf g (List.mem_cons_of_mem _ hg)
    refine ⟨h1, ?_⟩
    intro i hi
    rw [List.foldl_cons, h2 i hi, orFlags_get a f i (by omega) (by omega)]
    have e1 : a[i]? = some a[i] := List.getElem?_eq_getElem (by omega)
    have e2 : f[i]? = some f[i] := List.getElem?_eq_getElem (by omega)
    rw [e1]
    simp only [Option.some.injEq, Bool.or_eq_true, List.mem_cons, exists_eq_or_imp, e2]
    tauto

theorem rowCount_uniform {t : Raw} {k n : Nat} (h : Uniform t k n) : DemandSample.rowCount t.cols = n := by
  cases hc : t.cols with
  | nil => exact absurd hc h.nonempty
  | cons c l =>
    have := h.rows c (by rw [hc]; simp)
    exact this

theorem limitFlags_ok {t : Raw} {k n : Nat} (hk : k = 3 ∨ k = 4) (h : Uniform t k n) (l : Str × PyFloat)
    (hty : ∃ c ∈ t.cols, demandType c.1 = l.1) (lim : Limit) (hlim : limitValue lim = .ok l.2) :
    ∃ f, limitFlags t.cols n (l.1, lim) = .ok f ∧ f.length = n ∧
      ∀ i, i < n → (f[i]? = some true ↔ ∃ c ∈ t.cols, demandType c.1 = l.1 ∧ ∃ v, c.2.2[i]? = some (some v) ∧ Above l.2 v) := by
  have hlen : ∀ c ∈ t.cols, c.1.length = 3 ∨ c.1.length = 4 := by
    intro c hc; rw [h.levels c hc]; exact hk
  refine ⟨(List.range n).map fun i => exceeds l.2 (maxAt (t.cols.filter fun c => typeOf c.1 = l.1) i), ?_, by simp, ?_⟩
  · unfold limitFlags
    rw [if_neg (by intro ho; simp only at ho; rw [ho] at hlim; exact absurd hlim (by simp [limitValue])), if_neg, if_neg]
    · simp only [hlim]
    · obtain ⟨c, hc, ht⟩ := hty
      apply List.ne_nil_of_mem (a := c)
      rw [List.mem_filter, decide_eq_true_eq]
      exact ⟨hc, by rw [typeOf_eq (hlen c hc)]; exact ht⟩
    · unfold sliceable
      simp only [Bool.not_eq_false, List.all_eq_true, decide_eq_true_eq]
      intro c hc
      rcases hlen c hc with h | h <;> omega
  · intro i hi
    rw [List.getElem?_map, List.getElem?_eq_getElem (by simpa using hi)]
    simp only [List.getElem_range, Option.map_some, Option.some.injEq]
    rw [exceeds_maxAt]
    constructor
    · rintro ⟨c, hc, hv⟩
      rw [List.mem_filter, decide_eq_true_eq] at hc
      exact ⟨c, hc.1, by rw [← typeOf_eq (hlen c hc.1)]; exact hc.2, hv⟩
    · rintro ⟨c, hc, ht, hv⟩
      refine ⟨c, ?_, hv⟩
      rw [List.mem_filter, decide_eq_true_eq]
      exact ⟨hc, by rw [typeOf_eq (hlen c hc)]; exact ht⟩

theorem limits_ok {t : Raw} {k n : Nat} (hk : k = 3 ∨ k = 4) (h : Uniform t k n) : ∀ (limits : List (Str × Limit)) (values : List (Str × PyFloat)),
    List.Forall₂ (fun l v => l.1 = v.1 ∧ LimitIs l.2 v.2) limits values →
    (∀ v ∈ values, ∃ c ∈ t.cols, demandType c.1 = v.1) →
    ∃ fs, mapE (limitFlags t.cols n) limits = .ok fs ∧ (∀ f ∈ fs, f.length = n) ∧
      ∀ i, i < n → ((∃ f ∈ fs, f[i]? = some true) ↔ Offends values t i) := by
  intro limits values hl
  induction hl with
  | nil => intro _; exact ⟨[], rfl, by simp, by simp [Offends]⟩
  | @cons l v limits values hlv _ ih =>
    intro hty
    obtain ⟨fs, h1, h2, h3⟩ := ih fun w hw => hty w (List.mem_cons_of_mem _ hw)
    obtain ⟨f, g1, g2, g3⟩ := limitFlags_ok hk h v (hty v (by simp)) l.2 ((limitValue_iff _ _).2 hlv.2)
    have hl1 : (v.1, l.2) = l := by rw [← hlv.1]
    rw [hl1] at g1
    refine ⟨f :: fs, by simp only [mapE, g1, h1], ?_, ?_⟩
    · intro x hx
      rcases List.mem_cons.1 hx with rfl | hx
      · exact g2
      · exact h2 x hx
    · intro i hi
      simp only [List.mem_cons, exists_eq_or_imp]
      rw [g3 i hi, h3 i hi]
      unfold Offends
      simp only [List.mem_cons, exists_eq_or_imp]

/-! ## C59 -/

/-- C59: exactly the realizations with a demand of a limited type above its limit are removed; the others
are kept as they are in their order, and so are the labels and the units. -/
theorem C59_exactly_offending (t : Raw) (k n : Nat) (hk : k = 3 ∨ k = 4) (h : Uniform t k n)
    (limits : List (Str × Limit)) (hne : limits ≠ []) (values : List (Str × PyFloat))
    (hl : List.Forall₂ (fun l v => l.1 = v.1 ∧ LimitIs l.2 v.2) limits values)
    (hty : ∀ v ∈ values, ∃ c ∈ t.cols, demandType c.1 = v.1) :
    dropCollapses limits (inFile t) = .ok ⟨t.hasUnits, t.cols.map fun c =>
      (c.1, c.2.1, keepCells (fun i => decide (¬ Offends values t i)) c.2.2)⟩ := by
  unfold dropCollapses
  rw [if_neg hne, splitLabels_inFile (by omega) h]
  simp only
  rw [rowCount_uniform h]
  obtain ⟨fs, h1, h2, h3⟩ := limits_ok hk h limits values hl hty
  rw [h1]
  simp only
  obtain ⟨f1, f2⟩ := fold_flags n fs (List.replicate n false) (by simp) h2
  congr 2
  apply List.map_congr_left
  intro c hc
  have hlen := h.rows c hc
  rw [DemandSample.dropFlagged_spec _ _ (by rw [f1, hlen])]
  unfold keepCells
  refine congrArg (fun l => (c.1, c.2.1, List.filterMap (fun i => c.2.2[i]?) l)) ?_
  apply List.filter_congr
  intro i hi
  rw [List.mem_range, hlen] at hi
  have e := f2 i hi
  have hrep : ¬ (List.replicate n false)[i]? = some true := by
    rw [List.getElem?_replicate, if_pos hi]; simp
  rw [h3 i hi] at e
  have hget : (List.foldl orFlags (List.replicate n false) fs)[i]? = some ((List.foldl orFlags (List.replicate n false) fs)[i]'(by rw [f1]; exact hi)) :=
    List.getElem?_eq_getElem _
  rw [hget] at e ⊢
  by_cases ho : Offends values t i
  · have := e.2 (Or.inr ho)
    injection this with this
    simp [ho, this]
  · have : ¬ (some ((List.foldl orFlags (List.replicate n false) fs)[i]'(by rw [f1]; exact hi)) = some true) := by
      intro hh
      rcases e.1 hh with hh | hh
      · exact hrep hh
      · exact ho hh
    simp only [Option.some.injEq, Bool.not_eq_true] at this
    simp [ho, this]

/-- C59: without limits nothing is removed. -/
theorem C59_no_limits (t : Raw) : dropCollapses [] t = .ok t := rfl

/-- C59: a limit for a type that is not in the table is refused, not ignored. -/
theorem C59_unknown_type_refused (t : Raw) (k n : Nat) (hk : k = 3 ∨ k = 4) (h : Uniform t k n) (limits : List (Str × Limit))
    (l : Str × Limit) (hl : l ∈ limits) (hty : ∀ c ∈ t.cols, demandType c.1 ≠ l.1) (t' : Raw) :
    dropCollapses limits (inFile t) ≠ .ok t' := by
  intro hd
  unfold dropCollapses at hd
  rw [if_neg (List.ne_nil_of_mem hl), splitLabels_inFile (by omega) h] at hd
  simp only at hd
  cases hm : mapE (limitFlags t.cols (DemandSample.rowCount t.cols)) limits with
  | error e => rw [hm] at hd; exact absurd hd (by simp)
  | ok fs =>
    rw [mapE_ok_iff] at hm
    obtain ⟨f, _, hf⟩ := forall₂_mem_left hm hl
    unfold limitFlags at hf
    split at hf
    · exact absurd hf (by simp)
    · split at hf
      · exact absurd hf (by simp)
      · rw [if_pos] at hf
        · exact absurd hf (by simp)
        · rw [List.filter_eq_nil_iff]
          intro c hc
          rw [decide_eq_true_eq, typeOf_eq (by rw [h.levels c hc]; exact hk)]
          exact hty c hc

/-- C59: a limit that is not a float is refused. -/
theorem C59_unreadable_limit_refused (t : Raw) (k n : Nat) (hk : k = 3 ∨ k = 4) (h : Uniform t k n) (limits : List (Str × Limit))
    (l : Str × Limit) (hl : l ∈ limits) (hno : ∀ x, ¬ LimitIs l.2 x) (t' : Raw) :
    dropCollapses limits (inFile t) ≠ .ok t' := by
  intro hd
  unfold dropCollapses at hd
  rw [if_neg (List.ne_nil_of_mem hl), splitLabels_inFile (by omega) h] at hd
  simp only at hd
  cases hm : mapE (limitFlags t.cols (DemandSample.rowCount t.cols)) limits with
  | error e => rw [hm] at hd; exact absurd hd (by simp)
  | ok fs =>
    rw [mapE_ok_iff] at hm
    obtain ⟨f, _, hf⟩ := forall₂_mem_left hm hl
    unfold limitFlags at hf
    cases hv : limitValue l.2 with
    | ok x => exact hno x ((limitValue_iff _ _).1 hv)
    | error e =>
      rw [hv] at hf
      split at hf
      · exact absurd hf (by simp)
      · split at hf
        · exact absurd hf (by simp)
        · split at hf <;> exact absurd hf (by simp)

/-- An integer in the configuration is not accepted as a limit. -/
theorem C59_integer_limit_refused (t : Raw) (k n : Nat) (hk : k = 3 ∨ k = 4) (h : Uniform t k n) (ty : Str) :
    dropCollapses [(ty, .other)] (inFile t) = .error .assertionError := by
  unfold dropCollapses
  rw [if_neg (by simp), splitLabels_inFile (by omega) h]
  simp [mapE, limitFlags]

def exRaw : Raw := ⟨true, [([str "PID", str "1", str "1"], some (str "unitless"), [some (1/100), some (12/100), none, some (1/10)]),
  ([str "PFA", str "1", str "1"], some (str "g"), [some 3, some 1, some 1, some 2])]⟩

example : Uniform exRaw 3 4 := by constructor <;> decide +kernel

/-- The second realization is above the drift limit, the first above the acceleration limit; a value
equal to the limit is kept. -/
example : dropCollapses [(str "PID", .text (str "0.1")), (str "PFA", .float (.fin 2))] (inFile exRaw) =
    .ok ⟨true, [([str "PID", str "1", str "1"], some (str "unitless"), [none, some (1/10)]),
      ([str "PFA", str "1", str "1"], some (str "g"), [some 1, some 2])]⟩ := by decide +kernel

/-! ## C63 -/

/-- What a demand measures. -/
inductive Kind where
  | acceleration | velocity | displacement | rotation
  deriving DecidableEq

/-- The demand types by what they measure. -/
def kinds : List (Str × Kind) :=
  [(str "PFA", .acceleration), (str "PGA", .acceleration), (str "SA", .acceleration),
   (str "PFV", .velocity), (str "PWS", .velocity), (str "PGV", .velocity), (str "SV", .velocity),
   (str "PFD", .displacement), (str "PIH", .displacement), (str "SD", .displacement), (str "PGD", .displacement),
   (str "PID", .rotation), (str "PRD", .rotation), (str "DWD", .rotation), (str "RDR", .rotation), (str "PMD", .rotation), (str "RID", .rotation)]

/-- The unit of a kind of demand for a length unit. -/
def unitFor (length : Str) : Kind → Str
  | .acceleration => length ++ str "ps2"
  | .velocity => length ++ str "ps"
  | .displacement => length
  | .rotation => str "unitless"

/-- The unit `u` is the one for a demand of type `t`, where `t` may have more information after an
underscore; types of no kind have no unit. -/
def HasUnit (length t : Str) (u : Option Str) : Prop :=
  (∃ b k rest, (t = b ∨ t = b ++ '_' :: rest) ∧ (b, k) ∈ kinds ∧ u = some (unitFor length k)) ∨
  ((∀ b k rest, (t = b ∨ t = b ++ '_' :: rest) → (b, k) ∉ kinds) ∧ u = none)

theorem baseType_of {b t rest : Str} (hb : '_' ∉ b) (h : t = b ∨ t = b ++ '_' :: rest) : baseType t = b := by
  unfold baseType
  rcases h with rfl | rfl
  · rw [splitChar_no_sep _ _ hb]; rfl
  · rw [splitChar_append_sep _ _ _ hb]; rfl

theorem baseType_prefix (t : Str) : t = baseType t ∨ ∃ rest, t = baseType t ++ '_' :: rest := by
  unfold baseType
  have h := join_split '_' t
  cases hs : splitChar '_' t with
  | nil => exact absurd hs (splitChar_ne_nil _ _)
  | cons w ws =>
    rw [hs] at h
    cases ws with
    | nil => left; exact h.symm
    | cons v ws => right; exact ⟨joinChar '_' (v :: ws), h.symm⟩

theorem kinds_no_underscore : ∀ x ∈ kinds, '_' ∉ x.1 := by decide +kernel

/-- `unitOf` assigns the unit of the kind. -/
theorem unitOf_spec (length t : Str) : HasUnit length t (unitOf length t) := by
  have hkind : ∀ b : Str, (b ∈ rotTypes ↔ (b, Kind.rotation) ∈ kinds) ∧ (b ∈ dispTypes ↔ (b, Kind.displacement) ∈ kinds) ∧
      (b ∈ speedTypes ↔ (b, Kind.velocity) ∈ kinds) ∧ (b ∈ accTypes ↔ (b, Kind.acceleration) ∈ kinds) := by
    intro b
    simp [kinds, rotTypes, dispTypes, speedTypes, accTypes]
  obtain ⟨h1, h2, h3, h4⟩ := hkind (baseType t)
  have hex : ∀ k, (baseType t, k) ∈ kinds → HasUnit length t (some (unitFor length k)) := by
    intro k hk
    left
    rcases baseType_prefix t with h | ⟨rest, h⟩
    · exact ⟨baseType t, k, [], Or.inl h, hk, rfl⟩
    · exact ⟨baseType t, k, rest, Or.inr h, hk, rfl⟩
  unfold unitOf
  by_cases c1 : baseType t ∈ rotTypes
  · rw [if_pos c1]; exact hex _ (h1.1 c1)
  rw [if_neg c1]
  by_cases c2 : baseType t ∈ dispTypes
  · rw [if_pos c2]; exact hex _ (h2.1 c2)
  rw [if_neg c2]
  by_cases c3 : baseType t ∈ speedTypes
  · rw [if_pos c3]; exact hex _ (h3.1 c3)
  rw [if_neg c3]
  by_cases c4 : baseType t ∈ accTypes
  · rw [if_pos c4]; exact hex _ (h4.1 c4)
  rw [if_neg c4]
  right
  refine ⟨?_, rfl⟩
  intro b k rest hb hin
  have : baseType t = b := baseType_of (kinds_no_underscore _ hin) hb
  rw [← this] at hin
  cases k with
  | acceleration => exact c4 (h4.2 hin)
  | velocity => exact c3 (h3.2 hin)
  | displacement => exact c2 (h2.2 hin)
  | rotation => exact c1 (h1.2 hin)

/-- A type has one unit only. -/
theorem hasUnit_unique {length t : Str} {u v : Option Str} (hu : HasUnit length t u) (hv : HasUnit length t v) : u = v := by
  have hone : ∀ x ∈ kinds, ∀ y ∈ kinds, x.1 = y.1 → x.2 = y.2 := by decide +kernel
  rcases hu with ⟨b, k, r, hb, hk, rfl⟩ | ⟨hno, rfl⟩
  · rcases hv with ⟨b', k', r', hb', hk', rfl⟩ | ⟨hno', rfl⟩
    · have e1 : baseType t = b := baseType_of (kinds_no_underscore _ hk) hb
      have e2 : baseType t = b' := baseType_of (kinds_no_underscore _ hk') hb'
      have : b = b' := by rw [← e1, e2]
      subst this
      have : k = k' := hone _ hk _ hk' rfl
      rw [this]
    · exact absurd hk (hno' b k r hb)
  · rcases hv with ⟨b', k', r', hb', hk', rfl⟩ | ⟨hno', rfl⟩
    · exact absurd hk' (hno b' k' r' hb')
    · rfl

/-- C63: every demand with a type is kept with its values, and gets the unit of its type.  The columns
are sorted by label. -/
theorem C63_units_by_type_partial (t : Raw) (k n : Nat) (hk : k = 3 ∨ k = 4) (h : Uniform t k n) (length : Str) (hin : length ≠ str "in") :
    ∃ t', addUnits length (inFile t) = .ok t' ∧ t'.hasUnits = true ∧
      (t'.cols.map fun c => (c.1, c.2.2)).Perm ((t.cols.filter fun c => decide (demandType c.1 ≠ [])).map fun c => (c.1, c.2.2)) ∧
      (∀ c ∈ t'.cols, HasUnit length (demandType c.1) c.2.1) ∧ t'.cols.Pairwise fun a b => labelLe a.1 b.1 = true := by
  have hlen : ∀ c ∈ t.cols, c.1.length = 3 ∨ c.1.length = 4 := by
    intro c hc; rw [h.levels c hc]; exact hk
  have hfix : fixInch length = length := by unfold fixInch; rw [if_neg hin]
  unfold addUnits
  rw [splitLabels_inFile (by omega) h]
  refine ⟨_, rfl, rfl, ?_, ?_, ?_⟩
  · simp only
    rw [List.map_map]
    have e : ((fun c : Label × Option Str × List (Option ℚ) => (c.1, c.2.2)) ∘ fun c : Label × Option Str × List (Option ℚ) =>
        (c.1, unitOf (fixInch length) (typeOf c.1), c.2.2)) = fun c => (c.1, c.2.2) := rfl
    rw [e]
    have e2 : (t.cols.filter fun c => decide (demandType c.1 ≠ [])) = t.cols.filter fun c => decide (typeOf c.1 ≠ []) := by
      apply List.filter_congr
      intro c hc
      rw [typeOf_eq (hlen c hc)]
    rw [e2]
    exact ((pySort_perm _ t.cols).filter _).map _
  · intro c hc
    rw [List.mem_map] at hc
    obtain ⟨d, hd, rfl⟩ := hc
    rw [List.mem_filter, mem_pySort] at hd
    simp only
    rw [typeOf_eq (hlen d hd.1), hfix]
    exact unitOf_spec _ _
  · rw [List.pairwise_map]
    refine List.Pairwise.filter _ ?_
    exact pySort_sorted (le := fun a b : Label × Option Str × List (Option ℚ) => labelLe a.1 b.1)
      (fun a b => labelLe_total a.1 b.1) (fun a b c => labelLe_trans a.1 b.1 c.1) t.cols

/-- C63: `in` stands for `inch`. -/
theorem C63_inch (t : Raw) : addUnits (str "in") t = addUnits (str "inch") t := by
  unfold addUnits fixInch
  simp

/-- C63: without a `Units` row a length unit is required. -/
theorem C63_length_unit_required (limits : List (Str × Limit)) (t t' : Raw) (h : dropCollapses limits t = .ok t') (hu : t'.hasUnits = false) :
    demandInput limits none t = .error .valueError := by
  unfold demandInput
  rw [h]
  simp [hu]

/-- The table without the realizations that exceed a limit. -/
def withoutOffending (values : List (Str × PyFloat)) (t : Raw) : Raw :=
  ⟨t.hasUnits, t.cols.map fun c => (c.1, c.2.1, keepCells (fun i => decide (¬ Offends values t i)) c.2.2)⟩

theorem withoutOffending_uniform {t : Raw} {k n : Nat} (h : Uniform t k n) (values : List (Str × PyFloat)) :
    ∃ n', Uniform (withoutOffending values t) k n' := by
  refine ⟨((List.range n).filter fun i => decide (¬ Offends values t i)).length, ?_⟩
  unfold withoutOffending
  constructor
  · simpa using h.nonempty
  · intro c hc
    rw [List.mem_map] at hc
    obtain ⟨d, hd, rfl⟩ := hc
    exact h.levels d hd
  · intro c hc
    rw [List.mem_map] at hc
    obtain ⟨d, hd, rfl⟩ := hc
    exact h.dashes d hd
  · intro c hc
    rw [List.mem_map] at hc
    obtain ⟨d, hd, rfl⟩ := hc
    simp only
    have hlen := h.rows d hd
    unfold keepCells
    rw [hlen]
    have : ∀ l : List Nat, (∀ i ∈ l, i < n) → (l.filterMap fun i => d.2.2[i]?).length = l.length := by
      intro l
      induction l with
      | nil => intro _; rfl
      | cons i l ih =>
        intro hl
        have hi := hl i (by simp)
        rw [List.filterMap_cons, List.getElem?_eq_getElem (by rw [hlen]; exact hi)]
        simp only [List.length_cons]
        rw [ih fun j hj => hl j (List.mem_cons_of_mem _ hj)]
    exact this _ fun i hi => by
      rw [List.mem_filter, List.mem_range] at hi
      exact hi.1

theorem splitLabels_split (t : Raw) : splitLabels (inFile t) = splitLabels t := by
  unfold splitLabels inFile
  simp only [List.map_map]
  rfl

/-- C63 and C59 together: with given units the demand input is the table without the realizations that
exceed a limit, unchanged otherwise. -/
theorem C63_given_units_kept (t : Raw) (k n : Nat) (hk : k = 3 ∨ k = 4) (h : Uniform t k n) (hu : t.hasUnits = true)
    (limits : List (Str × Limit)) (hne : limits ≠ []) (values : List (Str × PyFloat))
    (hl : List.Forall₂ (fun l v => l.1 = v.1 ∧ LimitIs l.2 v.2) limits values)
    (hty : ∀ v ∈ values, ∃ c ∈ t.cols, demandType c.1 = v.1) (length : Option Str) :
    demandInput [] length (inFile t) = .ok (inFile t) ∧
    demandInput limits length (inFile t) = .ok (withoutOffending values t) := by
  constructor
  · unfold demandInput
    rw [C59_no_limits]
    simp [inFile, hu]
  · unfold demandInput
    rw [C59_exactly_offending t k n hk h limits hne values hl hty]
    simp [withoutOffending, hu]

/-- C63 and C59 together: without given units the demand input has the demands of that table, with units by
their type. -/
theorem C63_added_units_partial (t : Raw) (k n : Nat) (hk : k = 3 ∨ k = 4) (h : Uniform t k n) (hu : t.hasUnits = false)
    (limits : List (Str × Limit)) (values : List (Str × PyFloat))
    (hl : List.Forall₂ (fun l v => l.1 = v.1 ∧ LimitIs l.2 v.2) limits values)
    (hty : ∀ v ∈ values, ∃ c ∈ t.cols, demandType c.1 = v.1) (length : Str) (hin : length ≠ str "in") :
    ∃ t', demandInput limits (some length) (inFile t) = .ok t' ∧ t'.hasUnits = true ∧
      (t'.cols.map fun c => (c.1, c.2.2)).Perm
        (((withoutOffending values t).cols.filter fun c => decide (demandType c.1 ≠ [])).map fun c => (c.1, c.2.2)) ∧
      ∀ c ∈ t'.cols, HasUnit length (demandType c.1) c.2.1 := by
  obtain ⟨n', h'⟩ := withoutOffending_uniform h values
  obtain ⟨t', h1, h2, h3, h4, _⟩ := C63_units_by_type_partial (withoutOffending values t) k n' hk h' length hin
  refine ⟨t', ?_, h2, h3, h4⟩
  rw [← h1]
  unfold demandInput
  by_cases hne : limits = []
  · subst hne
    cases hl
    rw [C59_no_limits]
    have e : withoutOffending [] t = t := by
      unfold withoutOffending
      obtain ⟨b, cols⟩ := t
      congr 1
      conv_rhs => rw [← List.map_id cols]
      apply List.map_congr_left
      intro c _
      have : ∀ i, decide (¬ Offends [] ⟨b, cols⟩ i) = true := by intro i; simp [Offends]
      have e2 : keepCells (fun i => decide (¬ Offends [] ⟨b, cols⟩ i)) c.2.2 = c.2.2 := by
        unfold keepCells
        simp only [this]
        rw [List.filter_true]
        apply List.ext_getElem?
        intro i
        generalize c.2.2 = v
        have hr : (List.range v.length).filterMap (fun i => v[i]?) = v := by
          induction v with
          | nil => rfl
          | cons a v ih =>
            rw [List.length_cons, List.range_succ_eq_map, List.filterMap_cons]
            simp only [List.getElem?_cons_zero, List.filterMap_map]
            rw [show ((fun i => (a :: v)[i]?) ∘ Nat.succ) = fun i => v[i]? from by funext i; simp]
            rw [ih]
        rw [hr]
      rw [id, e2]
    rw [e]
    simp [inFile, hu]
  · rw [C59_exactly_offending t k n hk h limits hne values hl hty]
    have hu' : (withoutOffending values t).hasUnits = false := hu
    change (if (withoutOffending values t).hasUnits = true then Except.ok (withoutOffending values t) else addUnits length (withoutOffending values t)) = _
    rw [hu']
    simp only [Bool.false_eq_true, if_false]
    unfold addUnits
    rw [splitLabels_split]

/-! ### Where the code disagrees with the property -/

theorem types_without_unit (length : Str) : ∀ e ∈ DemandReq.edpToDemandType,
    (unitOf length e.2 = none ↔ e.2 ∈ [str "EDR", str "LR", str "LBR", str "PWF", str "PIF", str "PLF", str "PWP", str "ONE"]) := by
  have h : ∀ e ∈ DemandReq.edpToDemandType,
      (e.2 ∉ rotTypes ++ dispTypes ++ speedTypes ++ accTypes ↔ e.2 ∈ [str "EDR", str "LR", str "LBR", str "PWF", str "PIF", str "PLF", str "PWP", str "ONE"]) ∧
      baseType e.2 = e.2 := by decide +kernel
  intro e he
  obtain ⟨h1, h2⟩ := h e he
  rw [← h1]
  unfold unitOf
  rw [h2]
  simp only [List.mem_append, not_or]
  split
  · simp_all
  · split
    · simp_all
    · split
      · simp_all
      · split
        · simp_all
        · simp_all

/-- The demand types that components may ask for and that get no unit. -/
theorem C63_types_without_unit (length : Str) : ∀ e ∈ DemandReq.edpToDemandType,
    (HasUnit length e.2 none ↔ e.2 ∈ [str "EDR", str "LR", str "LBR", str "PWF", str "PIF", str "PLF", str "PWP", str "ONE"]) := by
  intro e he
  rw [← types_without_unit length e he]
  constructor
  · intro h; exact hasUnit_unique (unitOf_spec length e.2) h
  · intro h; rw [← h]; exact unitOf_spec length e.2

/-- The factors of the units of the package. -/
def defaultFactors : Dict Str ℚ := Units.defaultUnits.flatMap fun c => c.2

/-- For some of the length units of the package there is no unit of acceleration, so the unit assigned
to accelerations is not known; as an unknown unit it has the factor one when the sample is loaded. -/
theorem C63_unknown_acceleration_unit : ∀ length ∈ [str "mm", str "cm", str "km", str "mile"],
    (∃ f, defaultFactors.get? length = some f ∧ f ≠ 1) ∧
    HasUnit length (str "PFA") (some (length ++ str "ps2")) ∧
    loadFactor defaultFactors (some (length ++ str "ps2")) = 1 := by
  have h : ∀ length ∈ [str "mm", str "cm", str "km", str "mile"],
    (defaultFactors.get? length ≠ none ∧ defaultFactors.get? length ≠ some 1) ∧
    unitOf length (str "PFA") = some (length ++ str "ps2") ∧
    loadFactor defaultFactors (unitOf length (str "PFA")) = 1 := by decide +kernel
  intro l hl
  obtain ⟨⟨a, b⟩, c⟩ := h l hl
  obtain ⟨c, d⟩ := c
  refine ⟨?_, by rw [← c]; exact unitOf_spec l (str "PFA"), by rw [← c]; exact d⟩
  cases hg : defaultFactors.get? l with
  | none => exact absurd hg a
  | some f => exact ⟨f, rfl, by intro hf; rw [hf] at hg; exact b hg⟩

def exNoUnits : Raw := ⟨false, [([str "SA_0.5", str "0", str "1"], none, [some 1]), ([str "PID", str "1", str "1"], none, [some (1/10)]),
  ([str "EDR", str "1", str "1"], none, [some 2]), ([[], str "1", str "1"], none, [some 7])]⟩

example : Uniform exNoUnits 3 1 := by constructor <;> decide +kernel
example : addUnits (str "ft") (inFile exNoUnits) = .ok ⟨true, [([str "EDR", str "1", str "1"], none, [some 2]),
    ([str "PID", str "1", str "1"], some (str "unitless"), [some (1/10)]),
    ([str "SA_0.5", str "0", str "1"], some (str "ftps2"), [some 1])]⟩ := by decide +kernel

end Verif.AsmDemand
