import Verif.Model.DemandReq
import Verif.Lemmas.PyNum
import Verif.Lemmas.PyStr
import Mathlib.Data.List.Basic

/-! # Properties C34, C35, C76 and C77: required demands -/

namespace Verif.DemandReq

/-! ## Grouping -/

theorem addTo_get {κ : Type} [DecidableEq κ] (d : Dict κ (List PGid)) (k k' : κ) (pg : PGid) :
    (addTo d k pg).get? k' = if k = k' then some ((d.get? k).getD [] ++ [pg]) else d.get? k' := by
  unfold addTo
  cases hk : d.get? k with
  | none => simp only [Dict.get?_set]; rfl
  | some g => simp only [Dict.get?_set]; rfl

theorem addTo_nodup {κ : Type} [DecidableEq κ] {d : Dict κ (List PGid)} (hd : d.NoDupKeys) (k : κ)
    (pg : PGid) : (addTo d k pg).NoDupKeys := by
  unfold addTo
  split <;> exact Dict.noDupKeys_set hd _ _

theorem requiredLoop_spec {nvars : Str → Except PyErr Nat} {params : Dict Str CmpDemand}
    {offsets : Dict Str ℚ} (pgs : List PGid) :
    ∀ (d r : Dict (List Str × Expression) (List PGid)), d.NoDupKeys →
      requiredLoop nvars params offsets d pgs = .ok r →
      r.NoDupKeys ∧ (∀ pg ∈ pgs, ∃ k, keyOf nvars params offsets pg = .ok k) ∧
      ∀ k, (r.get? k).getD [] = (d.get? k).getD [] ++
        pgs.filter (fun pg => decide (keyOf nvars params offsets pg = .ok k)) ∧
        (r.get? k = none ↔ d.get? k = none ∧ ∀ pg ∈ pgs, keyOf nvars params offsets pg ≠ .ok k) := by
  induction pgs with
  | nil =>
    intro d r hd h
    simp only [requiredLoop, Except.ok.injEq] at h
    subst h
    exact ⟨hd, by simp, fun k => by simp⟩
  | cons pg pgs ih =>
    intro d r hd h
    simp only [requiredLoop] at h
    cases hk : keyOf nvars params offsets pg with
    | error e => rw [hk] at h; simp at h
    | ok k0 =>
      rw [hk] at h
      simp only at h
      obtain ⟨h1, h2, h3⟩ := ih _ r (addTo_nodup hd k0 pg) h
      refine ⟨h1, ?_, ?_⟩
      · intro p hp
        rcases List.mem_cons.1 hp with rfl | hp
        · exact ⟨k0, hk⟩
        · exact h2 p hp
      · intro k
        obtain ⟨h4, h5⟩ := h3 k
        rw [addTo_get] at h4 h5
        by_cases hkk : k0 = k
        · subst hkk
          rw [if_pos rfl] at h4 h5
          refine ⟨?_, ?_⟩
          · rw [h4, List.filter_cons_of_pos (by simp [hk])]; simp
          · rw [h5]
            constructor
            · rintro ⟨h, _⟩; cases h
            · rintro ⟨_, h⟩; exact absurd hk (h pg List.mem_cons_self)
        · rw [if_neg hkk] at h4 h5
          refine ⟨?_, ?_⟩
          · rw [h4, List.filter_cons_of_neg]
            simp only [hk, Except.ok.injEq, decide_eq_true_eq]; exact hkk
          · rw [h5]
            constructor
            · rintro ⟨h, h'⟩
              refine ⟨h, ?_⟩
              intro p hp
              rcases List.mem_cons.1 hp with rfl | hp
              · rw [hk]; simpa using hkk
              · exact h' p hp
            · rintro ⟨h, h'⟩
              exact ⟨h, fun p hp => h' p (List.mem_cons_of_mem _ hp)⟩

/-- C35: every performance group is filed under exactly one demand key, its own; the groups under
a key are listed once per occurrence in the table and in table order; there are no empty keys. -/
theorem C35_partition (nvars : Str → Except PyErr Nat) (params : Dict Str CmpDemand)
    (offsets : Dict Str ℚ) (pgs : List PGid) (r : Dict (List Str × Expression) (List PGid))
    (h : requiredDemands nvars params offsets pgs = .ok r) :
    r.NoDupKeys ∧
    (∀ pg ∈ pgs, ∃ k, keyOf nvars params offsets pg = .ok k ∧ k ∈ r.keys) ∧
    ∀ k g, (k, g) ∈ r → g ≠ [] ∧ g = pgs.filter (fun pg => decide (keyOf nvars params offsets pg = .ok k)) := by
  obtain ⟨h1, h2, h3⟩ := requiredLoop_spec pgs [] r (by simp [Dict.NoDupKeys, Dict.keys]) h
  refine ⟨h1, ?_, ?_⟩
  · intro pg hp
    obtain ⟨k, hk⟩ := h2 pg hp
    refine ⟨k, hk, ?_⟩
    by_contra hn
    exact ((h3 k).2.1 ((Dict.get?_eq_none_iff _ _).2 hn)).2 pg hp hk
  · intro k g hg
    have hget := Dict.get?_of_mem h1 hg
    obtain ⟨h4, h5⟩ := h3 k
    rw [hget] at h4 h5
    simp only [Option.getD_some, Dict.get?_nil, Option.getD_none, List.nil_append] at h4
    refine ⟨?_, h4⟩
    rintro rfl
    have : ¬ (some ([] : List PGid) = none) := by simp
    apply this
    rw [h5]
    refine ⟨rfl, ?_⟩
    intro pg hp he
    have : pg ∈ ([] : List PGid) := by
      rw [h4]; exact List.mem_filter.2 ⟨hp, by simpa using he⟩
    simp at this

/-- The code of a demand type by its full name. -/
def HasCode (name code : Str) : Prop := (name, code) ∈ edpToDemandType

theorem edpToDemandType_nodup : edpToDemandType.NoDupKeys := by
  unfold Dict.NoDupKeys; decide +kernel

theorem names_no_bar : ∀ e ∈ edpToDemandType, '|' ∉ e.1 := by decide +kernel

theorem edpType_plain {name code : Str} (hc : HasCode name code) : edpType name = .ok (code, code) := by
  have hnb : hasChar '|' name = false := by
    have := names_no_bar _ hc
    simpa [hasChar] using this
  have hcode : demandCode name = .ok code := by
    unfold demandCode Dict.getE
    rw [Dict.get?_of_mem edpToDemandType_nodup hc]
  unfold edpType
  rw [hnb, hcode]
  rfl

/-- C35: the key of a performance group whose component has one demand without expression. The
location is that of the group shifted by the offset of the component and of the demand type, the
direction is that of the group for directional demands and 0 otherwise. -/
theorem C35_simple_key (nvars : Str → Except PyErr Nat) (params : Dict Str CmpDemand)
    (offsets : Dict Str ℚ) (pg : PGid) (name code : Str) (o e loc : Int) (directional : Bool)
    (ds : List DemandDef)
    (hp : params.get? pg.cmp = some ⟨⟨name, some (o : ℚ), some (if directional then 1 else 0)⟩ :: ds, .absent⟩)
    (hc : HasCode name code) (hloc : pg.loc = intStr loc)
    (he : offsets.get? code = some (e : ℚ) ∨ offsets.get? code = none ∧ e = 0)
    (hpos : 0 ≤ loc + (o + e)) :
    keyOf nvars params offsets pg = .ok ([joinChar '-' [code, intStr (loc + (o + e)),
      if directional then pg.dir else str "0"]], .absent) := by
  have htot : totalOffset offsets code (some (o : ℚ)) = .ok (o + e) := by
    unfold totalOffset
    rcases he with he | ⟨he, rfl⟩
    · rw [he]
      simp only [Option.map_some, intOf]
      rw [← Int.cast_add, truncQ_int]
    · rw [he]
      simp only [intOf, truncQ_int, add_zero]
  have htr : truthy (some (if directional then (1 : ℚ) else 0)) = directional := by
    cases directional <;> simp [truthy]
  simp only [keyOf, hp, termsOf, mapE, edpOf, edpType_plain hc, htot, edpLabel, hloc, pyInt?_intStr,
    if_neg (not_lt.2 hpos), htr]
  rfl

/-- C35: a demand at a negative location is refused. -/
theorem C35_negative_location_refused (offsets : Dict Str ℚ) (pg : PGid) (name code : Str)
    (o e loc : Int) (dirl : Option ℚ) (hc : HasCode name code) (hloc : pg.loc = intStr loc)
    (he : offsets.get? code = some (e : ℚ) ∨ offsets.get? code = none ∧ e = 0)
    (hneg : loc + (o + e) < 0) :
    edpOf offsets pg ⟨name, some (o : ℚ), dirl⟩ = .error .valueError := by
  have htot : totalOffset offsets code (some (o : ℚ)) = .ok (o + e) := by
    unfold totalOffset
    rcases he with he | ⟨he, rfl⟩
    · rw [he]
      simp only [Option.map_some, intOf]
      rw [← Int.cast_add, truncQ_int]
    · rw [he]
      simp only [intOf, truncQ_int, add_zero]
  simp only [edpOf, edpType_plain hc, htot, edpLabel, hloc, pyInt?_intStr, if_pos hneg]

/-- A name with an optional subtype after a separator. -/
def withSub (name : Str) (sep : Char) : Option Str → Str
  | none => name
  | some x => name ++ sep :: x

/-- The label of the demand `d` of the performance group `pg`: code of the demand type (with the subtype
after an underscore), location of the group shifted by the offset `o` of the demand and `e` of its type,
direction of the group or 0. -/
def EdpLabel (offsets : Dict Str ℚ) (pg : PGid) (d : DemandDef) (lab : Str) : Prop :=
  ∃ (name code : Str) (sub : Option Str) (o e loc : Int) (directional : Bool),
    HasCode name code ∧ (∀ x, sub = some x → '|' ∉ x) ∧
    d = ⟨withSub name '|' sub, some (o : ℚ),
      some (if directional then 1 else 0)⟩ ∧
    pg.loc = intStr loc ∧ (offsets.get? code = some (e : ℚ) ∨ offsets.get? code = none ∧ e = 0) ∧
    0 ≤ loc + (o + e) ∧
    lab = joinChar '-' [withSub code '_' sub,
      intStr (loc + (o + e)), if directional then pg.dir else str "0"]

theorem edpOf_label {offsets : Dict Str ℚ} {pg : PGid} {d : DemandDef} {lab : Str}
    (h : EdpLabel offsets pg d lab) : edpOf offsets pg d = .ok lab := by
  obtain ⟨name, code, sub, o, e, loc, directional, hc, hsub, rfl, hloc, he, hpos, rfl⟩ := h
  have htot : totalOffset offsets code (some (o : ℚ)) = .ok (o + e) := by
    unfold totalOffset
    rcases he with he | ⟨he, rfl⟩
    · rw [he]
      simp only [Option.map_some, intOf]
      rw [← Int.cast_add, truncQ_int]
    · rw [he]
      simp only [intOf, truncQ_int, add_zero]
  have htr : truthy (some (if directional then (1 : ℚ) else 0)) = directional := by
    cases directional <;> simp [truthy]
  have hty : edpType (withSub name '|' sub) =
      .ok (code, withSub code '_' sub) := by
    cases sub with
    | none => exact edpType_plain hc
    | some x =>
      simp only [withSub]
      have hbar : hasChar '|' (name ++ '|' :: x) = true := by simp [hasChar]
      have hcode : demandCode name = .ok code := by
        unfold demandCode Dict.getE
        rw [Dict.get?_of_mem edpToDemandType_nodup hc]
      simp only [edpType, hbar, if_true]
      rw [splitChar_append_sep _ _ _ (names_no_bar _ hc), splitChar_no_sep _ _ (hsub x rfl)]
      simp only [hcode]
  simp only [edpOf, hty, htot, edpLabel, hloc, pyInt?_intStr, if_neg (not_lt.2 hpos), htr]
  rfl

/-- C35: the key of a performance group whose component has an expression of `n` variables: the labels of
its first `n` demands, in order, and the expression. -/
theorem C35_expression_key (nvars : Str → Except PyErr Nat) (params : Dict Str CmpDemand)
    (offsets : Dict Str ℚ) (pg : PGid) (ds : List DemandDef) (s s' : Str) (n : Nat) (labs : List Str)
    (hp : params.get? pg.cmp = some ⟨ds, .text s⟩) (hs : cleanUpExpression s = .ok s')
    (hn : nvars s' = .ok n) (hlen : n ≤ ds.length)
    (hlab : List.Forall₂ (EdpLabel offsets pg) (ds.take n) labs) :
    keyOf nvars params offsets pg = .ok (labs, .text s) := by
  have : mapE (edpOf offsets pg) (ds.take n) = .ok labs :=
    mapE_ok_iff.2 (hlab.imp fun _ _ h => edpOf_label h)
  simp only [keyOf, hp, termsOf, hs, hn, if_pos hlen, this]

/-- C35: an expression with more variables than there are demands is refused. -/
theorem C35_missing_demand_refused (nvars : Str → Except PyErr Nat) (params : Dict Str CmpDemand)
    (offsets : Dict Str ℚ) (pg : PGid) (ds : List DemandDef) (s s' : Str) (n : Nat)
    (hp : params.get? pg.cmp = some ⟨ds, .text s⟩) (hs : cleanUpExpression s = .ok s')
    (hn : nvars s' = .ok n) (hlen : ds.length < n) :
    keyOf nvars params offsets pg = .error .keyError := by
  simp only [keyOf, hp, termsOf, hs, hn, if_neg (not_le.2 hlen)]

/-- C35: a component that is not in the parameter table is refused, so is every table with it. -/
theorem C35_unknown_component_refused (nvars : Str → Except PyErr Nat) (params : Dict Str CmpDemand)
    (offsets : Dict Str ℚ) (pgs : List PGid) (pg : PGid) (hpg : pg ∈ pgs) (h : params.get? pg.cmp = none) :
    ∃ e, requiredDemands nvars params offsets pgs = .error e := by
  cases hr : requiredDemands nvars params offsets pgs with
  | error e => exact ⟨e, rfl⟩
  | ok r =>
    obtain ⟨_, h2, _⟩ := C35_partition nvars params offsets pgs r hr
    obtain ⟨k, hk, _⟩ := h2 pg hpg
    simp [keyOf, h] at hk

theorem codes_no_dash : ∀ e ∈ edpToDemandType, '-' ∉ e.2 := by decide +kernel

theorem intStr_no_dash {n : Int} (h : 0 ≤ n) : '-' ∉ intStr n := by
  obtain ⟨k, rfl⟩ := Int.eq_ofNat_of_zero_le h
  show '-' ∉ decStr k
  intro hm
  have := decStr_digits k _ hm
  revert this; decide

/-- C35: the label of a required demand, split at its dashes, gives back the demand type, the location and
the direction, unless the direction of the group or the subtype has a dash. -/
theorem C35_label_reads_back (offsets : Dict Str ℚ) (pg : PGid) (name code : Str) (sub : Option Str)
    (o e loc : Int) (directional : Bool) (hc : HasCode name code)
    (hsub : ∀ x, sub = some x → '|' ∉ x ∧ '-' ∉ x) (hdir : '-' ∉ pg.dir) (hloc : pg.loc = intStr loc)
    (he : offsets.get? code = some (e : ℚ) ∨ offsets.get? code = none ∧ e = 0) (hpos : 0 ≤ loc + (o + e)) :
    ∃ lab, edpOf offsets pg ⟨withSub name '|' sub, some (o : ℚ),
        some (if directional then 1 else 0)⟩ = .ok lab ∧
      splitChar '-' lab = [withSub code '_' sub, intStr (loc + (o + e)),
        if directional then pg.dir else str "0"] := by
  refine ⟨_, edpOf_label ⟨name, code, sub, o, e, loc, directional, hc, fun x hx => (hsub x hx).1, rfl, hloc, he,
    hpos, rfl⟩, ?_⟩
  apply split_join _ _ (by simp)
  have h1 := codes_no_dash _ hc
  have h2 := intStr_no_dash hpos
  intro w hw
  simp only [List.mem_cons, List.not_mem_nil, or_false] at hw
  rcases hw with rfl | rfl | rfl
  · cases sub with
    | none => exact h1
    | some x =>
      simp only [withSub, List.mem_append, List.mem_cons, not_or]
      exact ⟨h1, by decide, (hsub x rfl).2⟩
  · exact h2
  · cases directional
    · show '-' ∉ str "0"
      decide
    · exact hdir

/-- A component with two demands, one with a subtype, and an expression. -/
example : keyOf (fun _ => .ok 2)
    [(str "A", ⟨[⟨str "Peak Ground Velocity", some 0, some 0⟩, ⟨str "Spectral Acceleration|1.0", some 1, some 1⟩],
      .text (str "X1^2+X2")⟩)] [(str "SA", -1)] ⟨str "A", str "1", str "2", str "0"⟩ =
    .ok ([str "PGV-1-0", str "SA_1.0-1-2"], .text (str "X1^2+X2")) := by
  decide +kernel

/-- Two components, four performance groups, one of them shifted by the default offset. -/
def exParams : Dict Str CmpDemand :=
  [(str "A", ⟨[⟨str "Peak Floor Acceleration", some 0, some 0⟩], .absent⟩),
   (str "B", ⟨[⟨str "Peak Interstory Drift Ratio", some 0, some 1⟩], .absent⟩)]
def exPGs : List PGid :=
  [⟨str "A", str "1", str "0", str "0"⟩, ⟨str "B", str "1", str "2", str "0"⟩,
   ⟨str "A", str "1", str "1", str "0"⟩, ⟨str "B", str "1", str "1", str "0"⟩]

example : requiredDemands (fun _ => .ok 0) exParams [(str "PFA", -1)] exPGs =
    .ok [(([str "PFA-0-0"], .absent), [⟨str "A", str "1", str "0", str "0"⟩, ⟨str "A", str "1", str "1", str "0"⟩]),
      (([str "PID-1-2"], .absent), [⟨str "B", str "1", str "2", str "0"⟩]),
      (([str "PID-1-1"], .absent), [⟨str "B", str "1", str "1", str "0"⟩])] := by
  decide +kernel

/-! ## Non-directional demands -/

/-- `c` is the largest of the numbers `vs` (missing if all are missing). -/
def IsRowMax (vs : List (Option ℚ)) (c : Option ℚ) : Prop :=
  match c with
  | none => ∀ v ∈ vs, v = none
  | some M => some M ∈ vs ∧ ∀ x, some x ∈ vs → x ≤ M

theorem isRowMax_cons {v c : Option ℚ} {vs : List (Option ℚ)} (h : IsRowMax vs c) :
    IsRowMax (v :: vs) (maxCell v c) := by
  cases v with
  | none =>
    simp only [maxCell]
    cases c with
    | none => intro w hw; rcases List.mem_cons.1 hw with rfl | hw; exacts [rfl, h w hw]
    | some M =>
      exact ⟨List.mem_cons_of_mem _ h.1, fun x hx => h.2 x (by simpa using hx)⟩
  | some a =>
    cases c with
    | none =>
      simp only [maxCell]
      refine ⟨by simp, fun x hx => ?_⟩
      rcases List.mem_cons.1 hx with hx | hx
      · cases hx; exact le_refl _
      · cases h _ hx
    | some M =>
      simp only [maxCell]
      refine ⟨?_, fun x hx => ?_⟩
      · rcases le_total a M with hle | hle
        · rw [max_eq_right hle]; exact List.mem_cons_of_mem _ h.1
        · rw [max_eq_left hle]; simp
      · rcases List.mem_cons.1 hx with hx | hx
        · cases hx; exact le_max_left _ _
        · exact (h.2 x hx).trans (le_max_right _ _)

theorem rowMax_spec (cs : List (List (Option ℚ))) (n : Nat) (hne : cs ≠ [])
    (hlen : ∀ c ∈ cs, c.length = n) :
    (rowMax cs).length = n ∧
    ∀ i, i < n → ∃ c, (rowMax cs)[i]? = some c ∧ IsRowMax (cs.filterMap (·[i]?)) c := by
  induction cs with
  | nil => exact absurd rfl hne
  | cons c cs ih =>
    have hc := hlen c (by simp)
    cases cs with
    | nil =>
      refine ⟨hc, fun i hi => ?_⟩
      have hi' : i < c.length := by omega
      refine ⟨c[i], by simp [rowMax, hi'], ?_⟩
      simp only [List.filterMap_cons, List.getElem?_eq_getElem hi', List.filterMap_nil]
      cases hv : c[i] with
      | none => intro v hv'; simpa using hv'
      | some a => exact ⟨by simp, fun x hx => by simp at hx; exact le_of_eq hx⟩
    | cons c' cs =>
      obtain ⟨h1, h2⟩ := ih (by simp) (fun x hx => hlen x (List.mem_cons_of_mem _ hx))
      have hr : rowMax (c :: c' :: cs) = List.zipWith maxCell c (rowMax (c' :: cs)) := rfl
      rw [hr]
      refine ⟨by rw [List.length_zipWith, h1, hc, min_self], fun i hi => ?_⟩
      obtain ⟨d, hd, hmax⟩ := h2 i hi
      have hi' : i < c.length := by omega
      refine ⟨maxCell c[i] d, ?_, ?_⟩
      · rw [List.getElem?_zipWith, hd, List.getElem?_eq_getElem hi']
      · rw [List.filterMap_cons, List.getElem?_eq_getElem hi']
        exact isRowMax_cons hmax

/-- The factor that applies to a demand type. -/
def Factor (mults : Dict Str ℚ) (t : Str) (m : ℚ) : Prop :=
  mults.get? t = some m ∨ mults.get? t = none ∧ mults.get? (str "ALL") = some m

theorem edpValues_nondir {mults : Dict Str ℚ} {sample : DemandTable} {t l : Str} (ht : '-' ∉ t)
    (hl : '-' ∉ l) :
    edpValues mults sample (joinChar '-' [t, l, str "0"]) = nonDirectional mults sample t l := by
  have : splitChar '-' (joinChar '-' [t, l, str "0"]) = [t, l, str "0"] := by
    apply split_join
    · simp
    · intro w hw
      simp only [List.mem_cons, List.not_mem_nil, or_false] at hw
      rcases hw with rfl | rfl | rfl
      · exact ht
      · exact hl
      · decide
  rw [edpValues, this]
  simp

/-- C34: a demand without direction is, in each realization, the largest value over all
directions of that type and location times the factor of the type, or of `ALL` if the type has
none. -/
theorem C34_scaled_maximum (mults : Dict Str ℚ) (sample : DemandTable) (t l : Str) (ht : '-' ∉ t)
    (hl : '-' ∉ l) (n : Nat) (hlen : ∀ c ∈ sample, c.2.length = n)
    (hex : ∃ d v, ((t, l, d), v) ∈ sample) (m : ℚ) (hm : Factor mults t m) :
    ∃ r, edpValues mults sample (joinChar '-' [t, l, str "0"]) = .ok r ∧ r.length = n ∧
      ∀ i, i < n → ∃ M, IsRowMax
        ((sample.filter fun c => c.1.1 = t ∧ c.1.2.1 = l).filterMap fun c => c.2[i]?) M ∧
        r[i]? = some (M.map (· * m)) := by
  rw [edpValues_nondir ht hl]
  unfold nonDirectional
  set cols := sample.filter fun c => c.1.1 = t ∧ c.1.2.1 = l with hcols
  have hne : cols ≠ [] := by
    obtain ⟨d, v, hd⟩ := hex
    intro h
    have : ((t, l, d), v) ∈ cols := List.mem_filter.2 ⟨hd, by simp⟩
    rw [h] at this; simp at this
  have hmul : multiplierOf mults t = .ok m := by
    unfold multiplierOf
    rcases hm with h | ⟨h1, h2⟩
    · rw [h]
    · rw [h1, h2]
  obtain ⟨h1, h2⟩ := rowMax_spec (cols.map Prod.snd) n (by simpa using hne) (by
    intro c hc
    obtain ⟨c', hc', rfl⟩ := List.mem_map.1 hc
    exact hlen c' (List.mem_filter.1 hc').1)
  refine ⟨(rowMax (cols.map Prod.snd)).map (Option.map (· * m)), ?_, by rw [List.length_map, h1], ?_⟩
  · cases hcc : cols with
    | nil => exact absurd hcc hne
    | cons c cs => simp only [hmul]
  · intro i hi
    obtain ⟨c, hc, hmax⟩ := h2 i hi
    refine ⟨c, ?_, by rw [List.getElem?_map, hc]; rfl⟩
    rw [List.filterMap_map] at hmax
    exact hmax

/-- C34: with a factor of at least one and nonnegative demands the result is never smaller than a
directional demand. -/
theorem C34_not_below_directional (mults : Dict Str ℚ) (sample : DemandTable) (t l : Str)
    (ht : '-' ∉ t) (hl : '-' ∉ l) (n : Nat) (hlen : ∀ c ∈ sample, c.2.length = n)
    (m : ℚ) (hm : Factor mults t m) (h1 : 1 ≤ m) (d : Str) (v : List (Option ℚ))
    (hv : ((t, l, d), v) ∈ sample) (i : Nat) (x : ℚ) (hx : v[i]? = some (some x)) (h0 : 0 ≤ x) :
    ∃ r y, edpValues mults sample (joinChar '-' [t, l, str "0"]) = .ok r ∧ r[i]? = some (some y) ∧
      x ≤ y := by
  obtain ⟨r, hr, _, hmax⟩ := C34_scaled_maximum mults sample t l ht hl n hlen ⟨d, v, hv⟩ m hm
  have hi : i < n := by
    rw [← hlen _ hv]
    simp only
    by_contra h
    rw [List.getElem?_eq_none (by omega)] at hx
    cases hx
  obtain ⟨M, hM, hri⟩ := hmax i hi
  have hmem : some x ∈ (sample.filter fun c => c.1.1 = t ∧ c.1.2.1 = l).filterMap fun c => c.2[i]? :=
    List.mem_filterMap.2 ⟨((t, l, d), v), List.mem_filter.2 ⟨hv, by simp⟩, hx⟩
  cases M with
  | none => cases hM _ hmem
  | some M =>
    have hle := hM.2 x hmem
    refine ⟨r, M * m, hr, hri, ?_⟩
    nlinarith

/-- C34: without a factor for the type or for `ALL` the calculation stops. -/
theorem C34_no_factor_refused (mults : Dict Str ℚ) (sample : DemandTable) (t l : Str) (ht : '-' ∉ t)
    (hl : '-' ∉ l) (h1 : mults.get? t = none) (h2 : mults.get? (str "ALL") = none) :
    ∃ e, edpValues mults sample (joinChar '-' [t, l, str "0"]) = .error e := by
  rw [edpValues_nondir ht hl]
  unfold nonDirectional
  have : multiplierOf mults t = .error .valueError := by unfold multiplierOf; rw [h1, h2]
  cases sample.filter fun c => c.1.1 = t ∧ c.1.2.1 = l with
  | nil => exact ⟨_, rfl⟩
  | cons c cs => simp only [this]; exact ⟨_, rfl⟩

/-- The factor is looked up under the full type with the subtype: one given for `SA` does not
apply to `SA_1.0`, for which the `ALL` factor is used (offsets, in contrast, are looked up without
the subtype). -/
theorem C34_subtype_does_not_inherit :
    edpValues [(str "SA", 1), (str "ALL", 12 / 10)]
      [((str "SA_1.0", str "0", str "1"), [some 1]), ((str "SA_1.0", str "0", str "2"), [some (1 / 2)])]
      (str "SA_1.0-0-0") = .ok [some (12 / 10)] := by
  decide +kernel

/-- A sample with two directions and a missing value meets the hypotheses of C34. -/
example : edpValues [(str "ALL", 12 / 10), (str "PFA", 2)]
      [((str "PFA", str "1", str "1"), [some 1, none]), ((str "PID", str "1", str "1"), [some 7, some 8]),
       ((str "PFA", str "1", str "2"), [some 3, some 4])]
      (joinChar '-' [str "PFA", str "1", str "0"]) = .ok [some 6, some 8] := by
  decide +kernel

/-- C34: a directional demand is the column of that type, location and direction. -/
theorem C34_directional (mults : Dict Str ℚ) (sample : DemandTable) (t l d : Str) (ht : '-' ∉ t)
    (hl : '-' ∉ l) (hd : '-' ∉ d) (h0 : d ≠ str "0") :
    edpValues mults sample (joinChar '-' [t, l, d]) = sample.getE (t, l, d) := by
  have : splitChar '-' (joinChar '-' [t, l, d]) = [t, l, d] := by
    apply split_join
    · simp
    · intro w hw
      simp only [List.mem_cons, List.not_mem_nil, or_false] at hw
      rcases hw with rfl | rfl | rfl <;> assumption
  rw [edpValues, this]
  simp [h0]

/-! ## Availability -/

/-- C76, the proved part: the check passes exactly when each required demand names a type and
location that is in the demand sample.  The direction is not checked, see
`C76_missing_direction_passes`. -/
theorem C76_types_and_locations_partial (sample : DemandTable) (keys : List (List Str × Expression)) :
    (∃ r, verifyEdps sample keys = .ok r) ↔
      ∀ k ∈ keys, ∀ edp ∈ k.1, ∃ t l d, splitChar '-' edp = [t, l, d] ∧
        ∃ d' v, ((t, l, d'), v) ∈ sample := by
  have hone : ∀ edp, (∃ u, verifyEdp (availableEdps sample) edp = .ok u) ↔
      ∃ t l d, splitChar '-' edp = [t, l, d] ∧ ∃ d' v, ((t, l, d'), v) ∈ sample := by
    intro edp
    unfold verifyEdp
    constructor
    · rintro ⟨u, h⟩
      split at h
      · rename_i t l d hs
        split at h
        · rename_i hm
          obtain ⟨⟨⟨a, b, c⟩, v⟩, hc, he⟩ := List.mem_map.1 hm
          simp only [Prod.mk.injEq] at he
          obtain ⟨rfl, rfl⟩ := he
          exact ⟨_, _, _, hs, c, v, hc⟩
        · simp at h
      · simp at h
    · rintro ⟨t, l, d, hs, d', v, hm⟩
      refine ⟨(), ?_⟩
      rw [hs]
      simp only
      have hin : (t, l) ∈ availableEdps sample := List.mem_map.2 ⟨_, hm, rfl⟩
      rw [if_pos hin]
  constructor
  · rintro ⟨r, h⟩ k hk edp he
    rw [← hone]
    obtain ⟨hlen, hget⟩ := List.forall₂_iff_get.1 (mapE_ok_iff.1 h)
    obtain ⟨i, hi, rfl⟩ := List.mem_iff_getElem.1 hk
    have h1 := hget i hi (by rw [← hlen]; exact hi)
    simp only [List.get_eq_getElem] at h1
    obtain ⟨hlen2, hget2⟩ := List.forall₂_iff_get.1 (mapE_ok_iff.1 h1)
    obtain ⟨j, hj, rfl⟩ := List.mem_iff_getElem.1 he
    exact ⟨_, hget2 j hj (by rw [← hlen2]; exact hj)⟩
  · intro h
    apply mapE_ok_of_forall
    intro k hk
    apply mapE_ok_of_forall
    intro edp he
    exact (hone edp).2 (h k hk edp he)

/-- Violation of C76: a demand in a direction that is not in the sample passes the check and the
assembly fails afterwards with a `KeyError`. -/
theorem C76_missing_direction_passes :
    verifyEdps [((str "PFA", str "1", str "1"), [some 1])] [([str "PFA-1-3"], .absent)] = .ok [[()]] ∧
    edpValues [] [((str "PFA", str "1", str "1"), [some 1])] (str "PFA-1-3") = .error .keyError := by
  decide +kernel

/-! ## Demand expressions -/

theorem edpDict_ok {mults : Dict Str ℚ} {sample : DemandTable} (es : List Str) (f : Str → List (Option ℚ))
    (hv : ∀ e ∈ es, edpValues mults sample e = .ok (f e)) (hnd : es.Nodup)
    (d : Dict Str (List (Option ℚ))) (hd : ∀ e ∈ es, e ∉ d.keys) :
    edpDict mults sample d es = .ok (d ++ es.map fun e => (e, f e)) := by
  induction es generalizing d with
  | nil => simp [edpDict]
  | cons e es ih =>
    rw [List.nodup_cons] at hnd
    simp only [edpDict, hv e (by simp)]
    rw [ih (fun x hx => hv x (List.mem_cons_of_mem _ hx)) hnd.2, Dict.set_of_not_mem (hd e (by simp))]
    · simp
    · intro x hx
      rw [Dict.keys_set, if_neg (hd e (by simp))]
      simp only [List.mem_append, List.mem_singleton, not_or]
      exact ⟨hd x (List.mem_cons_of_mem _ hx), fun h => hnd.1 (h ▸ hx)⟩

/-- C77, the proved part: an expression is evaluated with `X1`, `X2`, ... being the demands of the
component in order, provided these are pairwise different. -/
theorem C77_variables_in_order_partial
    (eval : Str → List (List (Option ℚ)) → Except PyErr (List (Option ℚ)))
    (mults : Dict Str ℚ) (sample : DemandTable) (es : List Str) (s s' : Str) (f : Str → List (Option ℚ))
    (hv : ∀ e ∈ es, edpValues mults sample e = .ok (f e)) (hnd : es.Nodup)
    (hs : cleanUpExpression s = .ok s') :
    demandOf eval mults sample (es, .text s) = eval s' (es.map f) := by
  have := edpDict_ok es f hv hnd [] (by simp [Dict.keys])
  simp only [demandOf, this, hs, List.nil_append, List.map_map]
  rfl

/-- Violation of C77: when two demands of an expression coincide, the second variable is not
bound. -/
theorem C77_equal_demands_collapse
    (eval : Str → List (List (Option ℚ)) → Except PyErr (List (Option ℚ))) (v : List (Option ℚ)) :
    demandOf eval [] [((str "PFA", str "1", str "1"), v)] ([str "PFA-1-1", str "PFA-1-1"], .text (str "X1+X2"))
      = eval (str "X1+X2") [v] := by
  rfl

/-- Violation of C77: in a table in which some component has an expression, a component without
one is refused, because its empty cell is not `None`. -/
theorem C77_empty_expression_refused (nvars : Str → Except PyErr Nat) (params : Dict Str CmpDemand)
    (offsets : Dict Str ℚ) (pg : PGid) (ds : List DemandDef) (h : params.get? pg.cmp = some ⟨ds, .nan⟩) :
    keyOf nvars params offsets pg = .error .typeError := by
  simp only [keyOf, h, termsOf]

/-- Digits, letters, operators, parentheses and white space. -/
def SafeChar (c : Char) : Prop :=
  ('0' ≤ c ∧ c ≤ '9') ∨ ('a' ≤ c ∧ c ≤ 'z') ∨ ('A' ≤ c ∧ c ≤ 'Z') ∨ c ∈ ['^', '+', '-', '*', '/', '(', ')'] ∨
    isSpace c = true

theorem allowedChar_iff (c : Char) : allowedChar c = true ↔ SafeChar c := by
  simp only [allowedChar, SafeChar, Bool.or_eq_true, Bool.and_eq_true, decide_eq_true_eq, List.mem_cons,
    List.not_mem_nil, or_false]
  tauto

theorem replaceCaret_split (s : Str) : replaceCaret s = List.intercalate ['*', '*'] (splitChar '^' s) := by
  induction s with
  | nil => rfl
  | cons c s ih =>
    have hne := splitChar_ne_nil '^' s
    have hcons : replaceCaret (c :: s) = (if c = '^' then ['*', '*'] else [c]) ++ replaceCaret s := rfl
    rw [hcons, ih]
    cases hs : splitChar '^' s with
    | nil => exact absurd hs hne
    | cons w ws =>
      by_cases h : c = '^'
      · subst h
        simp only [splitChar, hs, if_true]
        simp [List.intercalate]
      · simp only [splitChar, hs, if_neg h]
        cases ws with
        | nil => simp [List.intercalate]
        | cons a b => simp [List.intercalate]

/-- C77: text with any character outside of digits, letters, operators, parentheses and white
space is refused before it is evaluated; in accepted text each `^` is replaced by `**` and nothing else
changes. -/
theorem C77_expression_characters (s : Str) :
    ((∀ c ∈ s, SafeChar c) → cleanUpExpression s = .ok (List.intercalate (str "**") (splitChar '^' s))) ∧
    ((∃ c ∈ s, ¬ SafeChar c) → cleanUpExpression s = .error .valueError) := by
  unfold cleanUpExpression
  constructor
  · intro h
    rw [if_pos (List.all_eq_true.2 fun c hc => (allowedChar_iff c).2 (h c hc)), replaceCaret_split]
    rfl
  · rintro ⟨c, hc, hf⟩
    rw [if_neg]
    intro ha
    exact hf ((allowedChar_iff c).1 (List.all_eq_true.1 ha c hc))

/-- C77: unsafe text reaches the evaluation neither for counting its variables nor for its value. -/
theorem C77_unsafe_not_evaluated (nvars : Str → Except PyErr Nat) (params : Dict Str CmpDemand) (offsets : Dict Str ℚ)
    (pg : PGid) (ds : List DemandDef) (s : Str) (h : params.get? pg.cmp = some ⟨ds, .text s⟩)
    (hs : ∃ c ∈ s, ¬ SafeChar c)
    (eval : Str → List (List (Option ℚ)) → Except PyErr (List (Option ℚ)))
    (mults : Dict Str ℚ) (sample : DemandTable) (es : List Str) :
    keyOf nvars params offsets pg = .error .valueError ∧ ∃ e, demandOf eval mults sample (es, .text s) = .error e := by
  have hc := (C77_expression_characters s).2 hs
  constructor
  · simp only [keyOf, h, termsOf, hc]
  · unfold demandOf
    cases edpDict mults sample [] es with
    | error e => exact ⟨e, rfl⟩
    | ok d => simp only [hc]; exact ⟨_, rfl⟩

/-- C77: without an expression the value is that of the demand. -/
theorem C77_no_expression (eval : Str → List (List (Option ℚ)) → Except PyErr (List (Option ℚ)))
    (mults : Dict Str ℚ) (sample : DemandTable) (e : Str) :
    demandOf eval mults sample ([e], .absent) = edpValues mults sample e := by
  cases h : edpValues mults sample e with
  | error err => simp only [demandOf, edpDict, h]
  | ok v => simp only [demandOf, edpDict, h, List.getLast?_singleton]; simp [Dict.set, Dict.getE, Dict.get?]

/-- C77: the assembled demand data has one entry for each required demand, with its own value. -/
theorem C77_assembled (eval : Str → List (List (Option ℚ)) → Except PyErr (List (Option ℚ)))
    (mults : Dict Str ℚ) (sample : DemandTable) (keys : List (List Str × Expression))
    (r : Dict (List Str × Expression) (List (Option ℚ)))
    (h : assembleDemands eval mults sample keys = .ok r) :
    r.map Prod.fst = keys ∧ ∀ k v, (k, v) ∈ r → demandOf eval mults sample k = .ok v := by
  unfold assembleDemands at h
  have hf := mapE_ok_iff.1 h
  clear h
  induction hf with
  | nil => simp
  | @cons a b l r' hab _ ih =>
    cases hd : demandOf eval mults sample a with
    | error e => rw [hd] at hab; simp at hab
    | ok v =>
      rw [hd] at hab
      cases hab
      refine ⟨by rw [List.map_cons, ih.1], ?_⟩
      intro k w hm
      rcases List.mem_cons.1 hm with he | hm
      · cases he; exact hd
      · exact ih.2 k w hm

example : cleanUpExpression (str "sqrt(X1^2 + X2^2)") = .ok (str "sqrt(X1**2 + X2**2)") := by decide +kernel
example : cleanUpExpression (str "__import__('os')") = .error .valueError := by decide +kernel

end Verif.DemandReq
