import Verif.Model.DemandCalib
import Verif.Lemmas.PyStr

/-! # Properties C31 and C32: calibration settings, censoring and truncation -/

namespace Verif.DemandCalib

open Verif.Asset (mulQ)
open Verif.FileIO (Label)

/-! ## Specification of C31 -/

/-- The number that a given setting denotes: none if the key is absent or does not hold a number. -/
def Denotes (v : Option SetVal) (x : PyFloat) : Prop :=
  match v with
  | none => x = .nan
  | some (.num q) => x = .fin q
  | some (.text s) => (s ∈ naVals ∧ x = .nan) ∨ (s ∉ naVals ∧ x = (pyFloat? s).getD .nan)
  | some .null => False

/-- The factor of the unit of the settings. -/
def UnitFactor (table : Dict Str ℚ) (unit : Option Str) (f : ℚ) : Prop :=
  match unit with
  | none => f = 1
  | some u => table.get? u = some f

/-- `x` is the limit requested by two settings entries: `own` wins over `all`, each converted from
the unit of its own entry. -/
def OwnOrAll (table : Dict Str ℚ) (lim : Settings → Option SetVal) (own all : Settings) (x : PyFloat) : Prop :=
  ∃ v a fo fa, Denotes (lim own) v ∧ Denotes (lim all) a ∧ UnitFactor table own.unit fo ∧
    UnitFactor table all.unit fa ∧ x = if v = .nan then mulQ a fa else mulQ v fo

/-- `x` is the limit requested by one entry. -/
def Requested (table : Dict Str ℚ) (lim : Settings → Option SetVal) (s : Settings) (x : PyFloat) : Prop :=
  ∃ v f, Denotes (lim s) v ∧ UnitFactor table s.unit f ∧ x = mulQ v f

/-- The column label `l` is a demand of type `t`, with or without a subtype after an underscore. -/
def IsOfType (l : Label) (t : Str) : Prop :=
  '_' ∉ t ∧ ∃ rest, l = t :: rest ∨ ∃ sub, l = (t ++ '_' :: sub) :: rest

/-- `x` is the additional uncertainty requested by one entry: converted from its unit for normal demands only. -/
def RequestedUncertainty (table : Dict Str ℚ) (s : Settings) (x : PyFloat) : Prop :=
  ∃ v f, Denotes s.addUncertainty v ∧ UnitFactor table s.unit f ∧
    x = if s.family = some (str "normal") then mulQ v f else v

/-! ## Lemmas -/

theorem baseType_of {l : Label} {t : Str} (h : IsOfType l t) : baseType (typeOf l) = t := by
  obtain ⟨h0, rest, rfl | ⟨sub, rfl⟩⟩ := h
  · simp [baseType, typeOf, splitChar_no_sep _ _ h0]
  · simp [baseType, typeOf, splitChar_append_sep _ _ _ h0]

theorem parseVal_denotes {v : SetVal} {x : PyFloat} (h : parseVal v = .ok x) : Denotes (some v) x := by
  cases v with
  | num q => simp [parseVal] at h; exact h.symm
  | text s =>
    simp only [parseVal] at h
    by_cases hs : s ∈ naVals
    · rw [if_pos hs] at h; cases h; exact .inl ⟨hs, rfl⟩
    · rw [if_neg hs] at h
      refine .inr ⟨hs, ?_⟩
      cases hf : pyFloat? s with
      | none => rw [hf] at h; cases h; rfl
      | some y => rw [hf] at h; cases h; rfl
  | null => simp [parseVal] at h

theorem givenUncertainty_denotes {fam : Str} {f : ℚ} {v : Option SetVal} {x : Option PyFloat}
    (h : givenUncertainty fam f v = .ok x) :
    (v = none ∧ x = none) ∨ ∃ y, v ≠ none ∧ Denotes v y ∧ x = some (if fam = str "normal" then mulQ y f else y) := by
  cases v with
  | none => simp only [givenUncertainty, Except.ok.injEq] at h; exact .inl ⟨rfl, h.symm⟩
  | some v =>
    right
    simp only [givenUncertainty] at h
    cases hv : parseVal v with
    | error e => rw [hv] at h; simp at h
    | ok y =>
      rw [hv] at h
      simp only [Except.ok.injEq] at h
      exact ⟨y, by simp, parseVal_denotes hv, h.symm⟩

theorem givenLimit_denotes {v : Option SetVal} {x : Option PyFloat} (h : givenLimit v = .ok x) :
    Denotes v (x.getD .nan) ∧ x ≠ some .nan := by
  cases v with
  | none => simp [givenLimit] at h; subst h; exact ⟨rfl, by simp⟩
  | some v =>
    simp only [givenLimit] at h
    cases hv : parseVal v with
    | error e => rw [hv] at h; simp at h
    | ok y =>
      rw [hv] at h
      have := parseVal_denotes hv
      cases y with
      | nan => cases h; exact ⟨this, by simp⟩
      | fin q => cases h; exact ⟨this, by simp⟩
      | inf b => cases h; exact ⟨this, by simp⟩

theorem scaleFactor_spec {table : Dict Str ℚ} {u : Option Str} {f : ℚ} (h : scaleFactor table u = .ok f) :
    UnitFactor table u f := by
  cases u with
  | none => simp [scaleFactor] at h; exact h.symm
  | some u =>
    simp only [scaleFactor] at h
    cases hu : table.get? u with
    | none => rw [hu] at h; simp at h
    | some g => rw [hu] at h; cases h; exact hu

/-- Everything a successful parse says. -/
theorem parse_spec {table : Dict Str ℚ} {s : Settings} {p : Parsed} (h : parse table s = .ok p) :
    s.family = some p.family ∧
    givenLimit s.censorLower = .ok p.censorLower ∧ givenLimit s.censorUpper = .ok p.censorUpper ∧
    givenLimit s.truncateLower = .ok p.truncateLower ∧ givenLimit s.truncateUpper = .ok p.truncateUpper ∧
    scaleFactor table s.unit = .ok p.factor ∧
    givenUncertainty p.family p.factor s.addUncertainty = .ok p.sigIncrease := by
  unfold parse at h
  repeat' split at h
  all_goals first
    | (simp at h; done)
    | (cases h; refine ⟨?_, ?_, ?_, ?_, ?_, ?_, ?_⟩ <;> assumption)

theorem mulQ_nan_iff {x : PyFloat} {f : ℚ} (hf : f ≠ 0) : mulQ x f = .nan ↔ x = .nan := by
  cases x with
  | fin q => simp [mulQ]
  | nan => simp [mulQ]
  | inf b =>
    simp only [mulQ, if_neg hf]
    by_cases h : f < 0 <;> simp [h]

theorem settingsLoop_row {table : Dict Str ℚ} (config : List (Str × Settings)) :
    ∀ (cal cal' : List (Label × CalRow)), settingsLoop table cal config = .ok cal' →
      cal'.map Prod.fst = cal.map Prod.fst ∧
      ∀ (i : Nat) (l : Label) (r : CalRow), cal[i]? = some (l, r) →
        ((∀ t s, (t, s) ∈ config → t ≠ str "ALL" → baseType (typeOf l) ≠ t) → cal'[i]? = some (l, r)) ∧
        (∀ s, (config.map Prod.fst).Nodup → (baseType (typeOf l), s) ∈ config →
          baseType (typeOf l) ≠ str "ALL" →
          ∃ p, parse table s = .ok p ∧ cal'[i]? = some (l, update p r)) := by
  induction config with
  | nil =>
    intro cal cal' h
    simp only [settingsLoop, Except.ok.injEq] at h
    subst h
    exact ⟨rfl, fun i l r hi => ⟨fun _ => hi, fun s _ h _ => by simp at h⟩⟩
  | cons e rest ih =>
    obtain ⟨t, s⟩ := e
    intro cal cal' h
    simp only [settingsLoop] at h
    by_cases ht : t = str "ALL"
    · rw [if_pos ht] at h
      obtain ⟨h1, h2⟩ := ih _ _ h
      refine ⟨h1, fun i l r hi => ⟨fun hno => (h2 i l r hi).1 fun t' s' hm => hno t' s' (List.mem_cons_of_mem _ hm), ?_⟩⟩
      intro s' hnd hm hne
      rw [List.map_cons, List.nodup_cons] at hnd
      rcases List.mem_cons.1 hm with hm | hm
      · cases hm; exact absurd ht hne
      · exact (h2 i l r hi).2 s' hnd.2 hm hne
    · rw [if_neg ht] at h
      unfold parseSettings at h
      cases hp : parse table s with
      | error e => rw [hp] at h; simp at h
      | ok p =>
        rw [hp] at h
        simp only at h
        obtain ⟨h1, h2⟩ := ih _ _ h
        refine ⟨?_, ?_⟩
        · rw [h1, List.map_map]
          apply List.map_congr_left
          intro a _
          simp only [Function.comp]
          split <;> rfl
        · intro i l r hi
          have hi' : (cal.map fun r => if selects t r.1 then (r.1, update p r.2) else r)[i]? =
              some (if selects t l then (l, update p r) else (l, r)) := by
            rw [List.getElem?_map, hi]; rfl
          refine ⟨?_, ?_⟩
          · intro hno
            have hs : selects t l = false := by
              have := hno t s (by simp) ht
              simp [selects, ht, this]
            rw [hs] at hi'
            exact (h2 i l r hi').1 fun t' s' hm => hno t' s' (List.mem_cons_of_mem _ hm)
          · intro s' hnd hm hne
            rw [List.map_cons, List.nodup_cons] at hnd
            rcases List.mem_cons.1 hm with hm2 | hm2
            · obtain ⟨rfl, rfl⟩ := Prod.mk.inj hm2
              have hs : selects (baseType (typeOf l)) l = true := by simp [selects]
              rw [hs] at hi'
              refine ⟨p, hp, (h2 i l _ hi').1 ?_⟩
              intro t' s'' hm' _ heq
              exact hnd.1 (List.mem_map.2 ⟨(t', s''), hm', heq.symm⟩)
            · have hs : selects t l = false := by
                have : baseType (typeOf l) ≠ t := by
                  rintro rfl
                  exact hnd.1 (List.mem_map.2 ⟨_, hm2, rfl⟩)
                simp [selects, ht, this]
              rw [hs] at hi'
              exact (h2 i l r hi').2 s' hnd.2 hm2 hne

theorem calibrationSettings_row {table : Dict Str ℚ} {config : Dict Str Settings} {cols : List Label}
    {cal : List (Label × CalRow)} (hnd : config.NoDupKeys)
    (h : calibrationSettings table config cols = .ok cal) :
    ∃ all pa, config.get? (str "ALL") = some all ∧ parse table all = .ok pa ∧
      cal.map Prod.fst = cols ∧
      ∀ (i : Nat) (l : Label), cols[i]? = some l →
        (baseType (typeOf l) = str "ALL" ∨ config.get? (baseType (typeOf l)) = none →
          cal[i]? = some (l, update pa emptyRow)) ∧
        ∀ own, baseType (typeOf l) ≠ str "ALL" → config.get? (baseType (typeOf l)) = some own →
          ∃ po, parse table own = .ok po ∧ cal[i]? = some (l, update po (update pa emptyRow)) := by
  unfold calibrationSettings Dict.getE at h
  cases ha : config.get? (str "ALL") with
  | none => rw [ha] at h; simp at h
  | some all =>
    rw [ha] at h
    simp only [parseSettings] at h
    cases hp : parse table all with
    | error e => rw [hp] at h; simp at h
    | ok pa =>
      rw [hp] at h
      simp only at h
      obtain ⟨h1, h2⟩ := settingsLoop_row config _ _ h
      refine ⟨all, pa, rfl, hp, ?_, ?_⟩
      · rw [h1, List.map_map, List.map_map]
        have : ((Prod.fst ∘ fun r : Label × CalRow => if selects (str "ALL") r.1 then (r.1, update pa r.2) else r)
            ∘ fun l => (l, emptyRow)) = id := by
          funext l; simp [selects]
        rw [this, List.map_id]
      · intro i l hi
        have hi' : ((cols.map fun l => (l, emptyRow)).map fun r : Label × CalRow =>
            if selects (str "ALL") r.1 then (r.1, update pa r.2) else r)[i]? = some (l, update pa emptyRow) := by
          rw [List.getElem?_map, List.getElem?_map, hi]
          simp [selects]
        refine ⟨?_, ?_⟩
        · intro hor
          apply (h2 i l _ hi').1
          intro t s hm ht heq
          rcases hor with hor | hor
          · exact ht (heq.symm.trans hor)
          · rw [heq] at hor
            rw [Dict.get?_of_mem hnd hm] at hor
            cases hor
        · intro own hne hown
          exact (h2 i l _ hi').2 own hnd (Dict.mem_of_get? hown) hne

/-! ## C31 -/

/-- C31 for a demand whose type has no entry of its own: the settings under `ALL` are used. -/
theorem C31_all_entry (table : Dict Str ℚ) (config : Dict Str Settings) (cols : List Label)
    (cal : List (Label × CalRow)) (hnd : config.NoDupKeys)
    (h : calibrationSettings table config cols = .ok cal) (i : Nat) (l : Label) (hl : cols[i]? = some l)
    (t : Str) (ht : IsOfType l t) (hno : config.get? t = none) :
    ∃ all r, config.get? (str "ALL") = some all ∧ cal[i]? = some (l, r) ∧
      some r.family = all.family ∧
      Requested table (·.censorLower) all r.censorLower ∧
      Requested table (·.censorUpper) all r.censorUpper ∧
      Requested table (·.truncateLower) all r.truncateLower ∧
      Requested table (·.truncateUpper) all r.truncateUpper ∧
      RequestedUncertainty table all r.sigIncrease := by
  rw [← baseType_of ht] at hno
  obtain ⟨all, pa, h1, h2, _, h4⟩ := calibrationSettings_row hnd h
  obtain ⟨h5, _⟩ := h4 i l hl
  obtain ⟨p1, p2, p3, p4, p5, p6, p7⟩ := parse_spec h2
  refine ⟨all, _, h1, h5 (.inr hno), p1.symm, ?_, ?_, ?_, ?_, ?_⟩
  · exact ⟨_, _, (givenLimit_denotes p2).1, scaleFactor_spec p6, rfl⟩
  · exact ⟨_, _, (givenLimit_denotes p3).1, scaleFactor_spec p6, rfl⟩
  · exact ⟨_, _, (givenLimit_denotes p4).1, scaleFactor_spec p6, rfl⟩
  · exact ⟨_, _, (givenLimit_denotes p5).1, scaleFactor_spec p6, rfl⟩
  · rcases givenUncertainty_denotes p7 with ⟨hv, hx⟩ | ⟨y, _, hv, hx⟩
    · refine ⟨.nan, _, by rw [hv]; rfl, scaleFactor_spec p6, ?_⟩
      simp [update, emptyRow, hx, mulQ]
    · refine ⟨y, _, hv, scaleFactor_spec p6, ?_⟩
      simp [update, hx, p1]

theorem ownOrAll_of {table : Dict Str ℚ} {lim : Settings → Option SetVal} {own all : Settings}
    {po pa : Option PyFloat} {fo fa : ℚ} (h1 : givenLimit (lim own) = .ok po)
    (h2 : givenLimit (lim all) = .ok pa) (h3 : scaleFactor table own.unit = .ok fo)
    (h4 : scaleFactor table all.unit = .ok fa) (hone : fo = 1 ∨ pa = none) :
    OwnOrAll table lim own all (mulQ (po.getD (mulQ (pa.getD .nan) fa)) fo) := by
  obtain ⟨d1, n1⟩ := givenLimit_denotes h1
  obtain ⟨d2, n2⟩ := givenLimit_denotes h2
  refine ⟨_, _, _, _, d1, d2, scaleFactor_spec h3, scaleFactor_spec h4, ?_⟩
  cases po with
  | none =>
    simp only [Option.getD_none, if_true]
    rcases hone with rfl | rfl
    · cases mulQ (pa.getD .nan) fa <;> simp [mulQ]
    · simp [mulQ]
  | some v =>
    have hv : v ≠ .nan := fun hh => n1 (by rw [hh])
    simp only [Option.getD_some, if_neg hv]

/-- C31, the proved part: a demand whose type has an entry gets the family of that entry and the
limits of that entry, or those of `ALL` where that entry has none.  The hypothesis that the entry
has no unit, or that `ALL` has no limits, is needed: see `C31_inherited_limit_scaled_twice`. -/
theorem C31_own_entry_partial (table : Dict Str ℚ) (config : Dict Str Settings) (cols : List Label)
    (cal : List (Label × CalRow)) (hnd : config.NoDupKeys)
    (h : calibrationSettings table config cols = .ok cal) (i : Nat) (l : Label) (hl : cols[i]? = some l)
    (all own : Settings) (hall : config.get? (str "ALL") = some all) (t : Str) (ht : IsOfType l t)
    (hown : config.get? t = some own) (hne : t ≠ str "ALL")
    (hunit : own.unit = none ∨ (all.censorLower = none ∧ all.censorUpper = none ∧
      all.truncateLower = none ∧ all.truncateUpper = none)) :
    ∃ r, cal[i]? = some (l, r) ∧ some r.family = own.family ∧
      OwnOrAll table (·.censorLower) own all r.censorLower ∧
      OwnOrAll table (·.censorUpper) own all r.censorUpper ∧
      OwnOrAll table (·.truncateLower) own all r.truncateLower ∧
      OwnOrAll table (·.truncateUpper) own all r.truncateUpper ∧
      (own.addUncertainty ≠ none → RequestedUncertainty table own r.sigIncrease) ∧
      (own.addUncertainty = none → RequestedUncertainty table all r.sigIncrease) := by
  rw [← baseType_of ht] at hown hne
  obtain ⟨all', pa, h1, h2, _, h4⟩ := calibrationSettings_row hnd h
  rw [hall] at h1; cases h1
  obtain ⟨_, h5⟩ := h4 i l hl
  obtain ⟨po, hpo, hr⟩ := h5 own hne hown
  obtain ⟨a1, a2, a3, a4, a5, a6, a7⟩ := parse_spec h2
  obtain ⟨o1, o2, o3, o4, o5, o6, o7⟩ := parse_spec hpo
  have hf : own.unit = none → po.factor = 1 := by
    intro hu; rw [hu] at o6; simp [scaleFactor] at o6; exact o6.symm
  have hn : ∀ {v : Option SetVal} {x : Option PyFloat}, givenLimit v = .ok x → v = none → x = none := by
    intro v x hx hv; subst hv; simp [givenLimit] at hx; exact hx.symm
  refine ⟨_, hr, o1.symm, ?_, ?_, ?_, ?_, ?_, ?_⟩
  · exact ownOrAll_of o2 a2 o6 a6 (hunit.imp hf fun hu => hn a2 hu.1)
  · exact ownOrAll_of o3 a3 o6 a6 (hunit.imp hf fun hu => hn a3 hu.2.1)
  · exact ownOrAll_of o4 a4 o6 a6 (hunit.imp hf fun hu => hn a4 hu.2.2.1)
  · exact ownOrAll_of o5 a5 o6 a6 (hunit.imp hf fun hu => hn a5 hu.2.2.2)
  · intro hne
    rcases givenUncertainty_denotes o7 with ⟨hv, _⟩ | ⟨y, _, hv, hx⟩
    · exact absurd hv hne
    · refine ⟨y, _, hv, scaleFactor_spec o6, ?_⟩
      simp [update, hx, o1]
  · intro hnone
    have hox : po.sigIncrease = none := by
      rcases givenUncertainty_denotes o7 with ⟨_, hx⟩ | ⟨y, h0, _⟩
      · exact hx
      · exact absurd hnone h0
    rcases givenUncertainty_denotes a7 with ⟨hv, hx⟩ | ⟨y, _, hv, hx⟩
    · refine ⟨.nan, _, by rw [hv]; rfl, scaleFactor_spec a6, ?_⟩
      simp [update, emptyRow, hx, hox, mulQ]
    · refine ⟨y, _, hv, scaleFactor_spec a6, ?_⟩
      simp [update, hx, hox, a1]

/-- Violation of C31: a limit inherited from `ALL`, already in base units, is multiplied with the
unit of the specific entry, too: 2 (m) becomes 2·0.0254 when the entry for PFA is given in inch. -/
theorem C31_inherited_limit_scaled_twice :
    calibrationSettings [(str "inch", 254 / 10000)]
      [(str "ALL", { family := some (str "lognormal"), truncateUpper := some (.num 2) }),
       (str "PFA", { family := some (str "normal"), unit := some (str "inch") })]
      [[str "PFA", str "1", str "1"]] =
    .ok [([str "PFA", str "1", str "1"],
      ⟨str "normal", .nan, .nan, .nan, .fin (508 / 10000), .nan⟩)] := by
  decide +kernel

/-- C31: an entry for a subtype is read (so its errors are reported), but not applied to any
demand. -/
theorem C31_subtype_entry_ignored (table : Dict Str ℚ) (cal : List (Label × CalRow)) (s : Settings)
    (t : Str) (hne : t ≠ str "ALL") (hu : '_' ∈ t) (p : Parsed) (hp : parse table s = .ok p) :
    parseSettings table cal s t = .ok cal := by
  unfold parseSettings
  rw [hp]
  simp only
  have : (fun r : Label × CalRow => if selects t r.1 then (r.1, update p r.2) else r) = id := by
    funext r
    have hb : baseType (typeOf r.1) ≠ t := by
      intro heq
      have hmem : ∀ w ∈ splitChar '_' (typeOf r.1), '_' ∉ w := splitChar_parts_no_sep _ _
      unfold baseType at heq
      cases hs : splitChar '_' (typeOf r.1) with
      | nil => exact splitChar_ne_nil _ _ hs
      | cons w ws =>
        rw [hs] at heq hmem
        simp only [List.headD_cons] at heq
        exact hmem w (by simp) (heq ▸ hu)
    simp [selects, hne, hb]
  rw [this, List.map_id]

/-- C31: missing `ALL` settings, a missing family and an unknown unit are refused. -/
theorem C31_refused (table : Dict Str ℚ) (config : Dict Str Settings) (cols : List Label)
    (h : config.get? (str "ALL") = none ∨
      ∃ s, config.get? (str "ALL") = some s ∧ (s.family = none ∨ ∃ u, s.unit = some u ∧ table.get? u = none)) :
    ∃ e, calibrationSettings table config cols = .error e := by
  unfold calibrationSettings Dict.getE
  rcases h with h | ⟨s, hs, h⟩
  · rw [h]; exact ⟨_, rfl⟩
  · rw [hs]
    simp only [parseSettings]
    cases hp : parse table s with
    | error e => exact ⟨e, rfl⟩
    | ok p =>
      exfalso
      obtain ⟨p1, _, _, _, _, p6, _⟩ := parse_spec hp
      rcases h with h | ⟨u, hu, ht⟩
      · rw [h] at p1; cases p1
      · rw [hu] at p6; simp [scaleFactor, ht] at p6

/-- A configuration with a specific entry in a unit of its own and a subtype meets the hypotheses. -/
example : calibrationSettings [(str "inch", 254 / 10000)]
      [(str "ALL", { family := some (str "lognormal"), addUncertainty := some (.num (1 / 10)) }),
       (str "SA", { family := some (str "normal"), unit := some (str "inch"),
                    truncateUpper := some (.text (str "10")), censorLower := some (.text (str "N/A")) })]
      [[str "PFA", str "1", str "1"], [str "SA_1.0", str "0", str "1"]] =
    .ok [([str "PFA", str "1", str "1"], ⟨str "lognormal", .nan, .nan, .nan, .nan, .fin (1 / 10)⟩),
      ([str "SA_1.0", str "0", str "1"], ⟨str "normal", .nan, .nan, .nan, .fin (254 / 1000), .fin (1 / 10)⟩)] := by
  decide +kernel

/-! ## C32 -/

/-- A cell is strictly inside of a pair of limits, each of which may be missing or infinite. -/
def Inside (lower : PyFloat) (cell : Option ℚ) (upper : PyFloat) : Prop :=
  (upper = .nan ∨ ∃ x, cell = some x ∧ (upper = .inf false ∨ ∃ u, upper = .fin u ∧ x < u)) ∧
  (lower = .nan ∨ ∃ x, cell = some x ∧ (lower = .inf true ∨ ∃ u, lower = .fin u ∧ u < x))

/-- Every demand of the realization is strictly inside of its limits. -/
def AllInside (lower upper : CalRow → PyFloat) (cal : List CalRow) (row : List (Option ℚ)) : Prop :=
  ∀ (i : Nat) r c, cal[i]? = some r → row[i]? = some c → Inside (lower r) c (upper r)

theorem below_iff {c : Option ℚ} {u : PyFloat} : below c u = true ↔
    ∃ x, c = some x ∧ (u = .inf false ∨ ∃ q, u = .fin q ∧ x < q) := by
  cases c <;> cases u <;> simp [below]

theorem above_iff {c : Option ℚ} {u : PyFloat} : above c u = true ↔
    ∃ x, c = some x ∧ (u = .inf true ∨ ∃ q, u = .fin q ∧ q < x) := by
  cases c <;> cases u <;> simp [above]

theorem zip_all_iff {α β : Type} (l : List α) (m : List β) (p : α × β → Prop) :
    (∀ x ∈ l.zip m, p x) ↔ ∀ (i : Nat) a b, l[i]? = some a → m[i]? = some b → p (a, b) := by
  constructor
  · intro h i a b ha hb
    apply h
    rw [List.mem_iff_getElem?]
    exact ⟨i, by rw [List.getElem?_zip_eq_some]; exact ⟨ha, hb⟩⟩
  · rintro h ⟨a, b⟩ hx
    obtain ⟨i, hi⟩ := List.mem_iff_getElem?.1 hx
    rw [List.getElem?_zip_eq_some] at hi
    exact h i a b hi.1 hi.2

theorem inMask_iff (lower upper : CalRow → PyFloat) (cal : List CalRow) (row : List (Option ℚ)) :
    inMask row (cal.map lower) (cal.map upper) = true ↔ AllInside lower upper cal row := by
  unfold inMask AllInside
  rw [Bool.and_eq_true, List.all_eq_true, List.all_eq_true]
  simp only [List.mem_filter, decide_eq_true_eq, and_imp]
  rw [zip_all_iff (p := fun x => x.2 ≠ .nan → below x.1 x.2 = true),
    zip_all_iff (p := fun x => x.2 ≠ .nan → above x.1 x.2 = true)]
  constructor
  · rintro ⟨h1, h2⟩ i r c hr hc
    have hu := h1 i c (upper r) hc (by rw [List.getElem?_map, hr]; rfl)
    have hl := h2 i c (lower r) hc (by rw [List.getElem?_map, hr]; rfl)
    refine ⟨?_, ?_⟩
    · by_cases hn : upper r = .nan
      · exact .inl hn
      · exact .inr (below_iff.1 (hu hn))
    · by_cases hn : lower r = .nan
      · exact .inl hn
      · exact .inr (above_iff.1 (hl hn))
  · intro h
    refine ⟨?_, ?_⟩
    · intro i c u hc hu hn
      rw [List.getElem?_map] at hu
      cases hr : cal[i]? with
      | none => rw [hr] at hu; simp at hu
      | some r =>
        rw [hr] at hu; simp at hu; subst hu
        exact below_iff.2 ((h i r c hr hc).1.resolve_left hn)
    · intro i c u hc hu hn
      rw [List.getElem?_map] at hu
      cases hr : cal[i]? with
      | none => rw [hr] at hu; simp at hu
      | some r =>
        rw [hr] at hu; simp at hu; subst hu
        exact above_iff.2 ((h i r c hr hc).2.resolve_left hn)

theorem inMask_of_all_nan (lower upper : CalRow → PyFloat) (cal : List CalRow)
    (h : (cal.map upper ++ cal.map lower).all (· = .nan) = true) (row : List (Option ℚ)) :
    inMask row (cal.map lower) (cal.map upper) = true := by
  rw [inMask_iff]
  rw [List.all_eq_true] at h
  intro i r c hr _
  have hm := List.mem_of_getElem? hr
  refine ⟨.inl ?_, .inl ?_⟩
  · simpa using h (upper r) (List.mem_append_left _ (List.mem_map_of_mem hm))
  · simpa using h (lower r) (List.mem_append_right _ (List.mem_map_of_mem hm))

theorem censor_eq (cal : List CalRow) (rows : List (List (Option ℚ))) :
    censor cal rows =
      (rows.filter fun r => inMask r (cal.map (·.censorLower)) (cal.map (·.censorUpper)),
       (rows.filter fun r => !inMask r (cal.map (·.censorLower)) (cal.map (·.censorUpper))).length) := by
  unfold censor
  simp only
  by_cases h : ((cal.map (·.censorUpper)) ++ (cal.map (·.censorLower))).all (· = .nan) = true
  · rw [if_pos h]
    have := inMask_of_all_nan (·.censorLower) (·.censorUpper) cal h
    simp only [this, List.filter_true, Bool.not_true, List.filter_false, List.length_nil]
  · rw [if_neg h]

theorem truncate_eq (cal : List CalRow) (rows : List (List (Option ℚ))) :
    truncate cal rows =
      rows.filter fun r => inMask r (cal.map (·.truncateLower)) (cal.map (·.truncateUpper)) := by
  unfold truncate
  simp only
  by_cases h : ((cal.map (·.truncateUpper)) ++ (cal.map (·.truncateLower))).all (· = .nan) = true
  · rw [if_pos h]
    have := inMask_of_all_nan (·.truncateLower) (·.truncateUpper) cal h
    simp only [this, List.filter_true]
  · rw [if_neg h]
    by_cases h2 : 0 < (rows.filter fun r => !inMask r (cal.map (·.truncateLower)) (cal.map (·.truncateUpper))).length
    · rw [if_pos h2]
    · rw [if_neg h2]
      symm
      rw [List.filter_eq_self]
      intro a ha
      by_contra hc
      apply h2
      apply List.length_pos_of_mem (a := a)
      exact List.mem_filter.2 ⟨ha, by simpa using hc⟩

/-- The cells of a realization in the columns whose demand satisfies `p`, in order. -/
def columnsWhere (p : CalRow → Prop) [DecidablePred p] (cal : List CalRow) (row : List (Option ℚ)) : List (Option ℚ) :=
  (List.range row.length).filterMap fun i =>
    match cal[i]?, row[i]? with
    | some r, some c => if p r then some c else none
    | _, _ => none

theorem pick_eq (p : CalRow → Prop) [DecidablePred p] (cal : List CalRow) (row : List (Option ℚ)) :
    pick (cal.map fun r => decide (p r)) row = columnsWhere p cal row := by
  unfold columnsWhere
  induction row generalizing cal with
  | nil => simp [pick]
  | cons c row ih =>
    cases cal with
    | nil => simp [pick]
    | cons r cal =>
      rw [List.length_cons, List.range_succ_eq_map, List.filterMap_cons, List.filterMap_map]
      have hrest : (List.range row.length).filterMap ((fun i =>
          match (r :: cal)[i]?, (c :: row)[i]? with
          | some r, some c => if p r then some c else none
          | _, _ => none) ∘ Nat.succ) = pick (cal.map fun r => decide (p r)) row := by
        rw [ih]; rfl
      rw [hrest]
      by_cases hp : p r
      · simp [pick, hp]
      · simp [pick, hp]

open Classical in
/-- C32: the realizations used in the calibration (fitted and empirical demands alike) are, in
order, exactly those in which every demand is strictly inside of its censoring and truncation
limits, and the reported number of censored realizations is that of the realizations with a
demand on or outside of its censoring limits. -/
theorem C32_filtered (cal : List CalRow) (rows : List (List (Option ℚ))) :
    let kept := rows.filter fun r => decide (AllInside (·.censorLower) (·.censorUpper) cal r ∧
      AllInside (·.truncateLower) (·.truncateUpper) cal r)
    (fitData cal rows).rows = kept.map (columnsWhere (fun r => r.family ≠ str "empirical") cal) ∧
    (fitData cal rows).empirical = kept.map (columnsWhere (fun r => r.family = str "empirical") cal) ∧
    (fitData cal rows).censored =
      (rows.filter fun r => decide (¬ AllInside (·.censorLower) (·.censorUpper) cal r)).length := by
  intro kept
  have hm : ∀ (lo up : CalRow → PyFloat) (r : List (Option ℚ)),
      inMask r (cal.map lo) (cal.map up) = decide (AllInside lo up cal r) := by
    intro lo up r
    rw [Bool.eq_iff_iff, inMask_iff, decide_eq_true_eq]
  have hk : truncate cal (censor cal rows).1 = kept := by
    rw [truncate_eq, censor_eq]
    simp only [List.filter_filter, hm, kept]
    apply List.filter_congr
    intro r _
    rw [← Bool.decide_and]
    congr 1
    exact propext and_comm
  refine ⟨?_, ?_, ?_⟩
  · show (truncate cal (censor cal rows).1).map _ = _
    rw [hk]
    refine List.map_congr_left fun r _ => ?_
    rw [← pick_eq, List.map_map]
    congr 1
    refine List.map_congr_left fun a _ => ?_
    simp
  · show (truncate cal (censor cal rows).1).map _ = _
    rw [hk]
    refine List.map_congr_left fun r _ => ?_
    rw [← pick_eq]
  · show (censor cal rows).2 = _
    rw [censor_eq]
    simp only [hm]
    congr 1
    apply List.filter_congr
    intro r _
    simp

/-- A realization on a limit is removed, one with a missing value in a limited column, too, and
the empirical demand of the kept realization is separated. -/
example : fitData [⟨str "normal", .nan, .fin 5, .fin 0, .nan, .nan⟩, ⟨str "empirical", .nan, .nan, .nan, .inf false, .nan⟩]
    [[some 1, some 7], [some 5, some 1], [some 0, some 1], [none, some 2], [some 3, none]] =
    ⟨[[some 1]], 2, [[some 7]]⟩ := by decide +kernel

end Verif.DemandCalib
