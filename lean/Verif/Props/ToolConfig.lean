import Verif.Lemmas.ToolConfigDone

/-!
# Property C106: the configuration of a calculation

The specification is in `Verif.Props.ToolConfigSpec`.
-/

namespace Verif.ToolConfig

open Config

section
variable {np22 : Bool} {ds : Defaults} {a : Call} {c c1 c2 c3 c5 c' : Fields}

/-- The steps after the options are filled in. -/
theorem same_end (h6 : stories np22 (legacyStep c3) = .ok c5) (h8 : collapse np22 c5 = .ok c') :
    SameOutside ["DL/Losses/Repair", "DL/Outputs/Loss/Repair", "DL/Asset/NumberOfStories",
      "DL/Damage/CollapseFragility/CapacityDistribution", "DL/Damage/CollapseFragility/Theta_1"] c3 c' :=
  (same_legacy c3).trans ((same_stories h6).trans (same_collapse h8))

theorem done_options (h : finish np22 ds a c = .ok c') :
    KeptOr np22 c c' "DL/Options/LogFile" (text (str "pelicun_log.txt")) ∧ KeptOr np22 c c' "DL/Options/Verbose" (bool true) ∧
    KeptOr np22 c c' "DL/Options/ListAllDamageStates" (bool true) ∧
    KeptOr np22 c c' "DL/Demands/DemandFilePath" (text a.responseFile) := by
  obtain ⟨c1, c2, c3, c5, h1, h2, _, _, h5, h6, _, h8, _⟩ := (finish_ok ..).1 h
  have k2 := (same_sampleSize h1).trans (same_outputDefaults h2)
  have ke := same_end h6 h8
  obtain ⟨b1, b2, b3, b4, d1, d2, d3, u1, e1, u2, e2, u3, e3, u4, e4⟩ := (optionDefaults_ok ..).1 h5
  have s1 : SameOutside ["DL/Options/LogFile"] c2 d1 := e1 ▸ same_if _ _ _ _
  have s2 : SameOutside ["DL/Options/Verbose"] d1 d2 := e2 ▸ same_if _ _ _ _
  have s3 : SameOutside ["DL/Options/ListAllDamageStates"] d2 d3 := e3 ▸ same_if _ _ _ _
  have s4 : SameOutside ["DL/Demands/DemandFilePath"] d3 c3 := e4 ▸ same_if _ _ _ _
  refine ⟨?_, ?_, ?_, ?_⟩
  · exact kept_or _ _ k2 (by decide +kernel) u1 e1 (s2.trans (s3.trans (s4.trans ke))) (by decide +kernel)
  · exact kept_or _ _ (k2.trans s1) (by decide +kernel) u2 e2 (s3.trans (s4.trans ke)) (by decide +kernel)
  · exact kept_or _ _ (k2.trans (s1.trans s2)) (by decide +kernel) u3 e3 (s4.trans ke) (by decide +kernel)
  · exact kept_or _ _ (k2.trans (s1.trans (s2.trans s3))) (by decide +kernel) u4 e4 ke (by decide +kernel)

theorem done_size (h : finish np22 ds a c = .ok c') :
    ∃ n : Int, AsksForSize c n ∧ val c' "DL/Options/Sampling/SampleSize" = number n := by
  obtain ⟨c1, c2, c3, c5, h1, h2, _, _, h5, h6, _, h8, _⟩ := (finish_ok ..).1 h
  obtain ⟨n, ht, hn, e1⟩ := (sampleSize_ok ..).1 h1
  refine ⟨n, (sizeEntry_iff c n).2 ⟨ht, hn⟩, ?_⟩
  rw [((same_outputDefaults h2).trans (same_after h5 h6 h8)).val "DL/Options/Sampling/SampleSize" (by decide +kernel), e1, val_set_same]

theorem done_stories (h : finish np22 ds a c = .ok c') :
    (Missing np22 c "DL/Asset/NumberOfStories" → val c' "DL/Asset/NumberOfStories" = val c "DL/Asset/NumberOfStories") ∧
    (Given np22 c "DL/Asset/NumberOfStories" → ∃ n : Int, toInt (val c "DL/Asset/NumberOfStories") = .ok n ∧
      val c' "DL/Asset/NumberOfStories" = number n) := by
  obtain ⟨c1, c2, c3, c5, h1, h2, _, _, h5, h6, _, h8, _⟩ := (finish_ok ..).1 h
  have before := same_before h1 h2 h5
  rw [(same_collapse h8).val "DL/Asset/NumberOfStories" (by decide +kernel), given_iff, missing_iff]
  have hs := (stories_ok ..).1 h6
  rw [before.unspec np22 "DL/Asset/NumberOfStories" (by decide +kernel), before.val "DL/Asset/NumberOfStories" (by decide +kernel)] at hs
  rcases hs with ⟨hm, rfl⟩ | ⟨hg, n, hn, rfl⟩
  · refine ⟨fun _ => before.val "DL/Asset/NumberOfStories" (by decide +kernel), fun h => ?_⟩
    rw [hm] at h; cases h
  · refine ⟨fun h => ?_, fun _ => ⟨n, hn, val_set_same _ _ _⟩⟩
    rw [hg] at h; cases h

theorem done_collapse (h : finish np22 ds a c = .ok c') :
    (Given np22 c "DL/Damage/CollapseFragility" → Missing np22 c "DL/Damage/CollapseFragility/CapacityDistribution" →
      val c' "DL/Damage/CollapseFragility/CapacityDistribution" = text (str "deterministic") ∧
      val c' "DL/Damage/CollapseFragility/Theta_1" = text (str "N/A")) ∧
    (Missing np22 c "DL/Damage/CollapseFragility" ∨ Given np22 c "DL/Damage/CollapseFragility/CapacityDistribution" →
      val c' "DL/Damage/CollapseFragility/CapacityDistribution" = val c "DL/Damage/CollapseFragility/CapacityDistribution" ∧
      val c' "DL/Damage/CollapseFragility/Theta_1" = val c "DL/Damage/CollapseFragility/Theta_1") := by
  obtain ⟨c1, c2, c3, c5, h1, h2, _, _, h5, h6, _, h8, _⟩ := (finish_ok ..).1 h
  have bc := same_before_collapse h1 h2 h5 h6
  have e1 := bc.val "DL/Damage/CollapseFragility/CapacityDistribution" (by decide +kernel)
  have e2 := bc.val "DL/Damage/CollapseFragility/Theta_1" (by decide +kernel)
  have u1 := bc.unspec np22 "DL/Damage/CollapseFragility" (by decide +kernel)
  have u2 : unspec np22 c5 "DL/Damage/CollapseFragility/CapacityDistribution" = unspec np22 c "DL/Damage/CollapseFragility/CapacityDistribution" := by
    rw [unspec_eq, unspec_eq, e1]
  rw [given_iff, given_iff, missing_iff, missing_iff, ← u1, ← u2, ← e1, ← e2]
  rcases (collapse_ok ..).1 h8 with ⟨hm, rfl⟩ | ⟨hg, hd, _⟩
  · refine ⟨fun hg => ?_, fun _ => ⟨rfl, rfl⟩⟩
    rw [hm] at hg; cases hg
  · rcases hd with ⟨hm, _, rfl⟩ | ⟨hg', rfl⟩
    · refine ⟨fun _ _ => ⟨?_, val_set_same _ _ _⟩, ?_⟩
      · rw [val_set_apart _ _ _ _ (by decide +kernel), val_set_same]
      · rintro (hx | hx)
        · rw [hg] at hx; cases hx
        · rw [hm] at hx; cases hx
    · refine ⟨fun _ hm => ?_, fun _ => ⟨rfl, rfl⟩⟩
      rw [hg'] at hm; cases hm

theorem legacy_losses (d : Fields) : val (legacyStep d) "DL/Losses/Repair" =
    if truthy (val d "DL/Losses/BldgRepair") then val d "DL/Losses/BldgRepair" else val d "DL/Losses/Repair" := by
  unfold legacyStep
  dsimp only
  rw [(same_if "DL/Outputs/Loss/Repair" _ _ _).val "DL/Losses/Repair" (by decide +kernel)]
  split
  · exact val_set_same _ _ _
  · rfl

theorem legacy_outputs (d : Fields) : val (legacyStep d) "DL/Outputs/Loss/Repair" =
    if truthy (val d "DL/Outputs/Loss/BldgRepair") then val d "DL/Outputs/Loss/BldgRepair" else val d "DL/Outputs/Loss/Repair" := by
  have h1 : SameOutside ["DL/Losses/Repair"] d (if truthy (val d "DL/Losses/BldgRepair") = true then
      setPath "DL/Losses/Repair" (val d "DL/Losses/BldgRepair") d else d) := same_if _ _ _ _
  unfold legacyStep
  dsimp only
  rw [← h1.val "DL/Outputs/Loss/BldgRepair" (by decide +kernel), ← h1.val "DL/Outputs/Loss/Repair" (by decide +kernel)]
  generalize (if truthy (val d "DL/Losses/BldgRepair") = true then
      setPath "DL/Losses/Repair" (val d "DL/Losses/BldgRepair") d else d) = e
  split
  · exact val_set_same _ _ _
  · rfl

theorem done_repair (h : finish np22 ds a c = .ok c') : val c' "DL/Losses/Repair" =
    if truthy (val c "DL/Losses/BldgRepair") then val c "DL/Losses/BldgRepair" else val c "DL/Losses/Repair" := by
  obtain ⟨c1, c2, c3, c5, h1, h2, _, _, h5, h6, _, h8, _⟩ := (finish_ok ..).1 h
  have k3 := (same_sampleSize h1).trans ((same_outputDefaults h2).trans (same_optionDefaults h5))
  rw [((same_stories h6).trans (same_collapse h8)).val "DL/Losses/Repair" (by decide +kernel), legacy_losses,
    k3.val "DL/Losses/BldgRepair" (by decide +kernel), k3.val "DL/Losses/Repair" (by decide +kernel)]

set_option maxHeartbeats 1000000 in
theorem done_outputs (h : finish np22 ds a c = .ok c') (o : Js) (ho : Outputs np22 ds c o) :
    val c' "DL/Outputs/Demand" = entry o "Demand" ∧ val c' "DL/Outputs/Asset" = entry o "Asset" ∧
    val c' "DL/Outputs/Damage" = entry o "Damage" ∧
    val c' "DL/Outputs/Loss/Repair" =
      (if truthy (entry o "Loss/BldgRepair") then entry o "Loss/BldgRepair" else entry o "Loss/Repair") ∧
    (match a.format with
      | some l => val c' "DL/Outputs/Format" = formatValue (decide (str "csv" ∈ l)) (decide (str "json" ∈ l))
      | none => (valueUnspecified np22 (entry o "Format") = .ok false → val c' "DL/Outputs/Format" = entry o "Format") ∧
        (valueUnspecified np22 (entry o "Format") = .ok true → val c' "DL/Outputs/Format" = formatValue true false)) ∧
    (valueUnspecified np22 (entry o "Settings") = .ok false → val c' "DL/Outputs/Settings" = entry o "Settings") ∧
    (valueUnspecified np22 (entry o "Settings") = .ok true → val c' "DL/Outputs/Settings" = .dict ds.pbe) := by
  obtain ⟨c1, c2, c3, c5, h1, h2, _, _, h5, h6, _, h8, _⟩ := (finish_ok ..).1 h
  have k1 := same_sampleSize h1
  have ka := same_after h5 h6 h8
  have k3 := same_optionDefaults h5
  have ho1 := outputs_same k1 o ho
  refine ⟨?_, ?_, ?_, ?_, ?_⟩
  · rw [ka.val "DL/Outputs/Demand" (by decide +kernel),
      out_entry_done k1 h2 o ho "Demand" "DL/Outputs/Demand" (by decide +kernel) (by decide +kernel)]
  · rw [ka.val "DL/Outputs/Asset" (by decide +kernel),
      out_entry_done k1 h2 o ho "Asset" "DL/Outputs/Asset" (by decide +kernel) (by decide +kernel)]
  · rw [ka.val "DL/Outputs/Damage" (by decide +kernel),
      out_entry_done k1 h2 o ho "Damage" "DL/Outputs/Damage" (by decide +kernel) (by decide +kernel)]
  · rw [((same_stories h6).trans (same_collapse h8)).val "DL/Outputs/Loss/Repair" (by decide +kernel), legacy_outputs,
      k3.val "DL/Outputs/Loss/BldgRepair" (by decide +kernel), k3.val "DL/Outputs/Loss/Repair" (by decide +kernel),
      out_entry_done k1 h2 o ho "Loss/BldgRepair" "DL/Outputs/Loss/BldgRepair" (by decide +kernel) (by decide +kernel),
      out_entry_done k1 h2 o ho "Loss/Repair" "DL/Outputs/Loss/Repair" (by decide +kernel) (by decide +kernel)]
  · rw [ka.val "DL/Outputs/Format" (by decide +kernel), ka.val "DL/Outputs/Settings" (by decide +kernel)]
    obtain ⟨b1, b2, b3, d1, d2, d3, u1, e1, u2, e2, e3, u3, e4⟩ := (outputDefaults_ok ..).1 h2
    have f1 : val d1 "DL/Outputs/Format" = entry o "Format" := by
      rw [e1]; exact out_entry o b1 u1 ho1 "Format" "DL/Outputs/Format" (by decide +kernel)
    have g1 : val d1 "DL/Outputs/Settings" = entry o "Settings" := by
      rw [e1]; exact out_entry o b1 u1 ho1 "Settings" "DL/Outputs/Settings" (by decide +kernel)
    have s2 : SameOutside ["DL/Outputs/Format"] d1 d2 := e2 ▸ same_if _ _ _ _
    have s3 : SameOutside ["DL/Outputs/Format"] d2 d3 := by
      subst e3
      cases a.format with
      | none => exact .refl _ _
      | some l => exact .set _ _ _
    have s4 : SameOutside ["DL/Outputs/Settings"] d3 c2 := e4 ▸ same_if _ _ _ _
    have g3 : val d3 "DL/Outputs/Settings" = entry o "Settings" := by
      rw [(s2.trans s3).val "DL/Outputs/Settings" (by decide +kernel), g1]
    rw [unspec_eq, f1] at u2
    rw [unspec_eq, g3] at u3
    refine ⟨?_, ?_, ?_⟩
    · rw [s4.val "DL/Outputs/Format" (by decide +kernel), e3]
      cases a.format with
      | some l => exact val_set_same _ _ _
      | none =>
        dsimp only
        rw [u2, e2]
        constructor
        · intro hb; cases hb; exact f1
        · intro hb; cases hb; exact val_set_same _ _ _
    · rw [u3, e4]
      intro hb; cases hb; exact g3
    · rw [u3, e4]
      intro hb; cases hb; exact val_set_same _ _ _

/-- The configuration with the demand file of the call. -/
def Filled (np22 : Bool) (a : Call) (c c0 : Fields) : Prop :=
  (Given np22 c "DL/Demands/DemandFilePath" ∧ c0 = c) ∨
  (Missing np22 c "DL/Demands/DemandFilePath" ∧ update np22 c (str "DL/Demands/DemandFilePath") a.demand false = .ok c0)

theorem filled_set {c0 : Fields} (h : Filled np22 a c c0) : (Given np22 c "DL/Demands/DemandFilePath" ∧ c0 = c) ∨
    (Missing np22 c "DL/Demands/DemandFilePath" ∧ c0 = setPath "DL/Demands/DemandFilePath" a.demand c) := by
  rcases h with h | ⟨hm, h⟩
  · exact .inl h
  · refine .inr ⟨hm, ?_⟩
    have := put_eq np22 "DL/Demands/DemandFilePath" a.demand c
    unfold put at this
    rw [h] at this
    exact Except.ok.inj this

theorem fillDemand_ok (hDL : Given np22 c "DL") (c0 : Fields) : fillDemand np22 a c = .ok c0 ↔ Filled np22 a c c0 := by
  have e : fillDemand np22 a c = putIf np22 "DL/Demands/DemandFilePath" a.demand c := by
    unfold fillDemand
    rw [given_iff] at hDL
    rw [hDL]; rfl
  rw [e, putIf_ok]
  constructor
  · rintro ⟨b, hb, rfl⟩
    cases b
    · exact .inl ⟨hb, rfl⟩
    · exact .inr ⟨hb, put_eq np22 "DL/Demands/DemandFilePath" a.demand c⟩
  · intro h
    rcases filled_set h with ⟨hg, rfl⟩ | ⟨hm, rfl⟩
    · exact ⟨false, hg, rfl⟩
    · exact ⟨true, hm, rfl⟩

theorem filled_given {c0 : Fields} (hDL : Given np22 c "DL") (h : Filled np22 a c c0) : Given np22 c0 "DL" := by
  rcases filled_set h with ⟨_, rfl⟩ | ⟨_, rfl⟩
  · exact hDL
  · exact given_set_below np22 _ "DL" [str "Demands", str "DemandFilePath"] _ _ (by decide +kernel) (by simp)

theorem filled_same {c0 : Fields} (h : Filled np22 a c c0) : SameOutside ["DL/Demands/DemandFilePath"] c c0 := by
  rcases filled_set h with ⟨_, rfl⟩ | ⟨_, rfl⟩
  · exact .refl _ _
  · exact .set _ _ _

variable {fmt : Js → Str} {scripts : Except PyErr ((Fields → Except PyErr Fields) × List (Fields → Except PyErr Fields))}

theorem parse_given (hDL : Given np22 c "DL") (r : Option Fields) :
    parseConfig np22 ds a fmt scripts c = .ok r ↔ ∃ c0 c', Filled np22 a c c0 ∧ conforms inputSchema (.dict c0) = true ∧
      finish np22 ds a c0 = .ok c' ∧ r = some c' := by
  unfold parseConfig
  rw [bind_ok]
  constructor
  · rintro ⟨c0, h0, h⟩
    have hf := (fillDemand_ok hDL c0).1 h0
    split at h
    · rename_i hc
      have hg := filled_given hDL hf
      rw [given_iff] at hg
      rw [hg] at h
      simp only [bind, Except.bind, Bool.false_eq_true, if_false] at h
      cases hfin : finish np22 ds a c0 with
      | error e => rw [hfin] at h; cases h
      | ok c' => rw [hfin] at h; cases h; exact ⟨c0, c', hf, hc, hfin, rfl⟩
    · cases h
  · rintro ⟨c0, c', hf, hc, hfin, rfl⟩
    refine ⟨c0, (fillDemand_ok hDL c0).2 hf, ?_⟩
    have hg := filled_given hDL hf
    rw [given_iff] at hg
    rw [if_pos hc, hg]
    simp only [bind, Except.bind, Bool.false_eq_true, if_false, hfin]
    rfl

/-- The demand file is there if the configuration conforms to the schema. -/
theorem filled_demand {c0 : Fields} (h : Filled np22 a c c0) (hs : conforms inputSchema (.dict c0) = true) :
    Given np22 c0 "DL/Demands/DemandFilePath" ∧ (Missing np22 c "DL/Demands/DemandFilePath" → ∃ s, a.demandFile = some s ∧
      val c0 "DL/Demands/DemandFilePath" = text s) := by
  rcases filled_set h with ⟨hg, rfl⟩ | ⟨_, rfl⟩
  · exact ⟨hg, fun hm => (given_or_missing_exclusive _ hg hm).elim⟩
  · have ht := conforms_at _ inputSchema _ (.dict _) _ hs (show schemaAt inputSchema (pathKeys (str "DL/Demands/DemandFilePath")) = some .text from rfl)
      (look_set_same _ _ _)
    unfold Call.demand at ht ⊢
    cases hd : a.demandFile with
    | none => rw [hd] at ht; cases ht
    | some s =>
      refine ⟨?_, fun _ => ⟨s, rfl, val_set_same _ _ _⟩⟩
      rw [given_iff, unspec_eq, val_set_same]; rfl

end

/-! ## The property -/

/-- **C106 (which configurations are accepted).** A configuration with an entry `DL` is accepted exactly if it is
complete, after the demand file of the call is filled in.  Missing: configurations with a file of component samples
instead of one with components (`C106_sample_file_refused`) and without any demand file
(`C106_response_file_not_used`). -/
theorem C106_accepted_partial (np22 : Bool) (ds : Defaults) (a : Call) (fmt : Js → Str)
    (scripts : Except PyErr ((Fields → Except PyErr Fields) × List (Fields → Except PyErr Fields))) (c c0 : Fields)
    (hds : GoodDefaults ds) (hDL : Given np22 c "DL") (h0 : Filled np22 a c c0) :
    (∃ c', parseConfig np22 ds a fmt scripts c = .ok (some c')) ↔ Complete np22 ds c0 := by
  constructor
  · rintro ⟨c', h⟩
    obtain ⟨d, e, hd, hs, hf, _⟩ := (parse_given hDL _).1 h
    have : d = c0 := by
      have h1 := (fillDemand_ok hDL d).2 hd
      have h2 := (fillDemand_ok hDL c0).2 h0
      rw [h1] at h2; exact Except.ok.inj h2
    subst this
    exact finish_complete hs hf
  · intro h
    obtain ⟨c', hc⟩ := complete_finish (a := a) hds (filled_demand h0 h.schema).1 h
    exact ⟨c', (parse_given hDL _).2 ⟨c0, c', h0, h.schema, hc, rfl⟩⟩

/-- The entries of an object. -/
def entriesOf : Fields → List (Str × Js)
  | .nil => []
  | .cons k v f => (k, v) :: entriesOf f

/-- What a schema says: a text, a number, an integer, a truth value, one of two things, an object with required entries and with entries of
given forms, or an object with all entries of the same form. -/
inductive ValidFor : Schema → Js → Prop
  | text (s : Str) : ValidFor .text (text s)
  | number (q : ℚ) : ValidFor .number (number q)
  | nan : ValidFor .number (.leaf (.atom .nan))
  | integer (z : ℤ) : ValidFor .integer (number z)
  | boolean (b : Bool) : ValidFor .boolean (bool b)
  | left (a b : Schema) (v : Js) : ValidFor a v → ValidFor (.either a b) v
  | right (a b : Schema) (v : Js) : ValidFor b v → ValidFor (.either a b) v
  | object (required : List Str) (props : List (Str × Schema)) (f : Fields) : (∀ k ∈ required, ∃ v, f.get? k = some v) →
      (∀ k s, (k, s) ∈ props → ∀ v, f.get? k = some v → ValidFor s v) → ValidFor (.object required props) (.dict f)
  | mapOf (s : Schema) (f : Fields) : (∀ k v, (k, v) ∈ entriesOf f → ValidFor s v) → ValidFor (.mapOf s) (.dict f)

theorem allValues_iff (p : Js → Bool) (f : Fields) : allValues p f = true ↔ ∀ k v, (k, v) ∈ entriesOf f → p v = true := by
  match f with
  | .nil => simp [allValues, entriesOf]
  | .cons k v f =>
    have ih := allValues_iff p f
    rw [allValues, Bool.and_eq_true, ih]
    simp only [entriesOf, List.mem_cons, Prod.mk.injEq]
    constructor
    · rintro ⟨h1, h2⟩ k' v' (⟨rfl, rfl⟩ | h)
      · exact h1
      · exact h2 _ _ h
    · intro h
      exact ⟨h k v (Or.inl ⟨rfl, rfl⟩), fun k' v' h' => h _ _ (Or.inr h')⟩

mutual
theorem conforms_iff : ∀ (s : Schema) (v : Js), conforms s v = true ↔ ValidFor s v
  | .text, v => by
    constructor
    · intro h
      unfold conforms at h
      split at h <;> first | cases h | (simp_all; done) | skip
      all_goals first | exact ValidFor.text _ | simp_all
    · rintro ⟨⟩; rfl
  | .number, v => by
    constructor
    · intro h
      unfold conforms at h
      split at h <;> first | exact ValidFor.number _ | exact ValidFor.nan | simp_all
    · intro h
      cases h <;> rfl
  | .integer, v => by
    constructor
    · intro h
      unfold conforms at h
      split at h <;> first | (rename_i q _; have e : q = ((q.num : ℤ) : ℚ) := (Rat.den_eq_one_iff q).1 (by simpa using h) |>.symm; rw [e]; exact ValidFor.integer _) | simp_all
    · intro h
      cases h
      simp [conforms, number]
  | .boolean, v => by
    constructor
    · intro h
      unfold conforms at h
      split at h <;> first | exact ValidFor.boolean _ | simp_all
    · rintro ⟨⟩; rfl
  | .either a b, v => by
    rw [conforms, Bool.or_eq_true, conforms_iff a v, conforms_iff b v]
    constructor
    · rintro (h | h)
      · exact .left a b v h
      · exact .right a b v h
    · intro h
      cases h with
      | left _ _ _ h => exact Or.inl h
      | right _ _ _ h => exact Or.inr h
  | .object req props, v => by
    match v with
    | .leaf x => constructor <;> intro h <;> first | cases h | skip
    | .dict f =>
      rw [conforms, Bool.and_eq_true, List.all_eq_true, conformsAll_iff props f]
      constructor
      · rintro ⟨h1, h2⟩
        exact .object req props f (fun k hk => Option.isSome_iff_exists.1 (h1 k hk)) h2
      · intro h
        cases h with
        | object _ _ _ h1 h2 => exact ⟨fun k hk => Option.isSome_iff_exists.2 (h1 k hk), h2⟩
  | .mapOf s, v => by
    match v with
    | .leaf x => constructor <;> intro h <;> first | cases h | skip
    | .dict f =>
      rw [conforms, allValues_iff]
      constructor
      · intro h
        exact .mapOf s f (fun k v hv => (conforms_iff s v).1 (h k v hv))
      · intro h
        cases h with
        | mapOf _ _ h => exact fun k v hv => (conforms_iff s v).2 (h k v hv)
theorem conformsAll_iff : ∀ (props : List (Str × Schema)) (f : Fields),
    conformsAll props f = true ↔ ∀ k s, (k, s) ∈ props → ∀ v, f.get? k = some v → ValidFor s v
  | [], f => by simp [conformsAll]
  | (k, s) :: rest, f => by
    have hs := conforms_iff s
    have ih := conformsAll_iff rest f
    rw [conformsAll, Bool.and_eq_true, ih]
    constructor
    · rintro ⟨h1, h2⟩ k' s' h v hv
      rcases List.mem_cons.1 h with e | h
      · cases e
        rw [hv] at h1
        exact (hs v).1 h1
      · exact h2 k' s' h v hv
    · intro h
      refine ⟨?_, fun k' s' h' => h k' s' (List.mem_cons_of_mem _ h')⟩
      cases hv : f.get? k with
      | none => rfl
      | some v => exact (hs v).2 (h k s (by simp) v hv)
end

/-- C106: a configuration conforms to the schema exactly if it has the form that the schema describes. -/
theorem C106_schema (s : Schema) (v : Js) : conforms s v = true ↔ ValidFor s v := conforms_iff s v

theorem valid_object {req : List Str} {props : List (Str × Schema)} {v : Js} (h : ValidFor (.object req props) v) :
    ∃ f, v = .dict f ∧ (∀ k ∈ req, ∃ x, f.get? k = some x) ∧ ∀ k s, (k, s) ∈ props → ∀ x, f.get? k = some x → ValidFor s x := by
  cases h with
  | object _ _ f h1 h2 => exact ⟨f, rfl, h1, h2⟩

theorem valid_text {v : Js} (h : ValidFor .text v) : ∃ s, v = text s := by
  cases h with
  | text s => exact ⟨s, rfl⟩

/-- A required text of an object. -/
theorem valid_required {req : List Str} {props : List (Str × Schema)} {v : Js} (h : ValidFor (.object req props) v) {k : Str}
    (hk : k ∈ req) (hp : (k, Schema.text) ∈ props) : ∃ f s, v = .dict f ∧ f.get? k = some (text s) := by
  obtain ⟨f, rfl, h1, h2⟩ := valid_object h
  obtain ⟨x, hx⟩ := h1 k hk
  obtain ⟨s, rfl⟩ := valid_text (h2 k _ hp x hx)
  exact ⟨f, s, rfl, hx⟩

/-- C106: what has to be there: the unit of length, and in the sections that are given the demand file, the component file and the damage
process. -/
theorem C106_required (c : Fields) (h : conforms inputSchema (.dict c) = true) :
    (∃ gi us u, c.get? (str "GeneralInformation") = some (.dict gi) ∧ gi.get? (str "units") = some (.dict us) ∧
      us.get? (str "length") = some (text u)) ∧
    ∀ dl, c.get? (str "DL") = some dl → ∃ d, dl = .dict d ∧
      (∀ x, d.get? (str "Demands") = some x → ∃ f p, x = .dict f ∧ f.get? (str "DemandFilePath") = some (text p)) ∧
      (∀ x, d.get? (str "Asset") = some x → ∃ f p, x = .dict f ∧ f.get? (str "ComponentAssignmentFile") = some (text p)) ∧
      (∀ x, d.get? (str "Damage") = some x → ∃ f p, x = .dict f ∧ f.get? (str "DamageProcess") = some (text p)) := by
  have hv := (C106_schema _ _).1 h
  unfold inputSchema at hv
  obtain ⟨f, hf, h1, h2⟩ := valid_object hv
  cases hf
  refine ⟨?_, fun dl hdl => ?_⟩
  · obtain ⟨g, hg⟩ := h1 (str "GeneralInformation") (by simp)
    obtain ⟨gi, rfl, g1, g2⟩ := valid_object (h2 (str "GeneralInformation") _ (List.mem_cons_self ..) g hg)
    obtain ⟨u, hu⟩ := g1 (str "units") (by simp)
    obtain ⟨us, l, rfl, hl⟩ := valid_required (g2 (str "units") _ (List.mem_cons_of_mem _ (List.mem_cons_of_mem _ (List.mem_cons_of_mem _ (List.mem_cons_self ..)))) u hu)
      (k := str "length") (by simp) (by simp)
    exact ⟨gi, us, l, hg, hu, hl⟩
  · obtain ⟨d, rfl, _, d2⟩ := valid_object (h2 (str "DL") _ (List.mem_cons_of_mem _ (List.mem_cons_of_mem _ (List.mem_cons_self ..))) dl hdl)
    refine ⟨d, rfl, fun x hx => ?_, fun x hx => ?_, fun x hx => ?_⟩
    · exact valid_required (d2 (str "Demands") _ (List.mem_cons_self ..) x hx) (by simp) (List.mem_cons_self ..)
    · exact valid_required (d2 (str "Asset") _ (List.mem_cons_of_mem _ (List.mem_cons_self ..)) x hx) (by simp) (List.mem_cons_self ..)
    · exact valid_required (d2 (str "Damage") _ (List.mem_cons_of_mem _ (List.mem_cons_of_mem _ (List.mem_cons_self ..))) x hx) (by simp)
        (List.mem_cons_of_mem _ (List.mem_cons_self ..))

/-- C106: every section of the entry `DL` may be left out: if a configuration has the form that the schema asks for, so has
the same configuration without some of these sections. -/
theorem C106_sections_optional (c c' dl dl' : Fields) (h : conforms inputSchema (.dict c) = true)
    (h1 : c.get? (str "DL") = some (.dict dl)) (h2 : c'.get? (str "DL") = some (.dict dl'))
    (h3 : ∀ k, k ≠ str "DL" → c'.get? k = c.get? k) (h4 : ∀ k, dl'.get? k = dl.get? k ∨ dl'.get? k = none) :
    conforms inputSchema (.dict c') = true := by
  have hsub : ∀ props f g, (∀ k, g.get? k = f.get? k ∨ g.get? k = none) → conformsAll props f = true → conformsAll props g = true := by
    intro props f g hg
    induction props with
    | nil => intro _; rw [conformsAll]
    | cons x props ih =>
      obtain ⟨k, s⟩ := x
      rw [conformsAll, conformsAll, Bool.and_eq_true, Bool.and_eq_true]
      rintro ⟨g1, g2⟩
      refine ⟨?_, ih g2⟩
      rcases hg k with e | e
      · rw [e]; exact g1
      · rw [e]
  have g1 : c'.get? (str "GeneralInformation") = c.get? (str "GeneralInformation") := h3 _ (by decide)
  have g2 : c'.get? (str "assetType") = c.get? (str "assetType") := h3 _ (by decide)
  have g3 : c'.get? (str "Applications") = c.get? (str "Applications") := h3 _ (by decide)
  have g4 : c'.get? (str "auto_script_path") = c.get? (str "auto_script_path") := h3 _ (by decide)
  unfold inputSchema at h ⊢
  rw [conforms, Bool.and_eq_true] at h ⊢
  refine ⟨by simpa [g1] using h.1, ?_⟩
  have hall := h.2
  simp only [conformsAll, g1, g2, g3, g4, h1, h2, Bool.and_eq_true] at hall ⊢
  refine ⟨hall.1, hall.2.1, ?_, hall.2.2.2⟩
  have hdl := hall.2.2.1
  rw [conforms, Bool.and_eq_true] at hdl ⊢
  exact ⟨rfl, hsub _ _ _ h4 hdl.2⟩

theorem same_get {ps : List String} {c c' : Fields} (h : SameOutside ps c c') (path : Str) (default : Js)
    (hp : ∀ p ∈ ps, Apart (pathKeys (str p)) (pathKeys path)) : get (some (.dict c')) path default = get (some (.dict c)) path default := by
  show (look c' _).getD default = (look c _).getD default
  rw [h _ hp]

theorem prefix_apart {a b q : List Str} (h : a <+: b) (hq : ¬ a <+: q ∧ ¬ q <+: a) : Apart b q := by
  refine ⟨fun hb => hq.1 (h.trans hb), fun hb => ?_⟩
  rcases List.prefix_or_prefix_of_prefix h hb with h' | h'
  · exact hq.1 h'
  · exact hq.2 h'

/-- **C106 (what the calculation uses).** Of a configuration that is accepted, the calculation uses what the user
wrote: all entries that are given are kept, numbers are read, and the entries that are missing have the documented
values.  Exceptions: the second parameter of a collapse fragility without a distribution is lost, and entries with the
name of earlier versions replace the others. -/
theorem C106_completed (np22 : Bool) (ds : Defaults) (a : Call) (fmt : Js → Str)
    (scripts : Except PyErr ((Fields → Except PyErr Fields) × List (Fields → Except PyErr Fields))) (c c' : Fields)
    (hDL : Given np22 c "DL") (h : parseConfig np22 ds a fmt scripts c = .ok (some c')) : Completed np22 ds a c c' := by
  obtain ⟨c0, d, h0, hs, hf, hr⟩ := (parse_given hDL _).1 h
  cases hr
  have hd := filled_demand h0 hs
  have k0 := filled_same h0
  have hsame := k0.trans (finish_same hf)
  obtain ⟨o1, o2, o3, o4⟩ := done_options hf
  obtain ⟨n, hn, hsz⟩ := done_size hf
  refine ⟨?_, ⟨?_, ?_⟩, ⟨n, ?_, hsz⟩, ?_, ?_, ?_, ?_, ?_, ?_, ?_⟩
  · intro path default hp
    apply same_get hsame
    intro p hpm
    have : ∀ p ∈ "DL/Demands/DemandFilePath" :: touched, ∃ q ∈ changedEntries, pathKeys (str q) <+: pathKeys (str p) := by decide +kernel
    obtain ⟨q, hq, hqp⟩ := this p hpm
    exact prefix_apart hqp (hp q hq)
  · intro hg
    rcases filled_set h0 with ⟨_, rfl⟩ | ⟨hm, _⟩
    · exact o4.1 hd.1
    · exact (given_or_missing_exclusive _ hg hm).elim
  · intro hm
    obtain ⟨s, hsome, hv⟩ := hd.2 hm
    exact ⟨s, hsome, by rw [o4.1 hd.1, hv]⟩
  · unfold AsksForSize at *
    rw [k0.val "DL/Options/Sampling/SampleSize" (by decide +kernel), k0.val "DL/Demands/SampleSize" (by decide +kernel)] at hn
    exact hn
  · unfold KeptOr Given Missing at *
    have u := k0.unspec np22 "DL/Options/LogFile" (by decide +kernel)
    have v := k0.val "DL/Options/LogFile" (by decide +kernel)
    unfold unspec at u
    rw [u, v] at o1
    exact o1
  · unfold KeptOr Given Missing at *
    have u := k0.unspec np22 "DL/Options/Verbose" (by decide +kernel)
    have v := k0.val "DL/Options/Verbose" (by decide +kernel)
    unfold unspec at u
    rw [u, v] at o2
    exact o2
  · unfold KeptOr Given Missing at *
    have u := k0.unspec np22 "DL/Options/ListAllDamageStates" (by decide +kernel)
    have v := k0.val "DL/Options/ListAllDamageStates" (by decide +kernel)
    unfold unspec at u
    rw [u, v] at o3
    exact o3
  · have e := done_stories hf
    rw [given_iff, missing_iff, k0.unspec np22 "DL/Asset/NumberOfStories" (by decide +kernel), k0.val "DL/Asset/NumberOfStories" (by decide +kernel)] at e
    exact e
  · have e := done_collapse hf
    rw [given_iff, missing_iff, given_iff, missing_iff, k0.unspec np22 "DL/Damage/CollapseFragility" (by decide +kernel),
      k0.unspec np22 "DL/Damage/CollapseFragility/CapacityDistribution" (by decide +kernel),
      k0.val "DL/Damage/CollapseFragility/CapacityDistribution" (by decide +kernel),
      k0.val "DL/Damage/CollapseFragility/Theta_1" (by decide +kernel)] at e
    exact e
  · have e := done_repair hf
    rw [k0.val "DL/Losses/BldgRepair" (by decide +kernel), k0.val "DL/Losses/Repair" (by decide +kernel)] at e
    exact e
  · intro o ho
    refine done_outputs hf o ?_
    unfold Outputs at *
    rw [given_iff, missing_iff, k0.unspec np22 "DL/Outputs" (by decide +kernel), k0.val "DL/Outputs" (by decide +kernel)]
    exact ho

/-- **C106 does not hold (1).** No configuration with a file of component samples is accepted: with a file of
components it is refused because there are two files, and without one it does not conform to the schema. -/
theorem C106_sample_file_refused (np22 : Bool) (ds : Defaults) (a : Call) (fmt : Js → Str)
    (scripts : Except PyErr ((Fields → Except PyErr Fields) × List (Fields → Except PyErr Fields))) (c : Fields)
    (hDL : Given np22 c "DL") (hfile : val c "DL/Asset/ComponentSampleFile" ≠ null) :
    ¬ ∃ r, parseConfig np22 ds a fmt scripts c = .ok r := by
  rintro ⟨r, h⟩
  obtain ⟨c0, d, h0, hs, hf, _⟩ := (parse_given hDL _).1 h
  have := (finish_complete hs hf).noSampleFile
  rw [(filled_same h0).val "DL/Asset/ComponentSampleFile" (by decide +kernel)] at this
  exact hfile this

/-- **C106 does not hold (2).** Without a demand file in the configuration and in the call the file `response.csv`
next to the configuration is meant to be used; instead every such configuration is refused. -/
theorem C106_response_file_not_used (np22 : Bool) (ds : Defaults) (a : Call) (fmt : Js → Str)
    (scripts : Except PyErr ((Fields → Except PyErr Fields) × List (Fields → Except PyErr Fields))) (c : Fields)
    (hDL : Given np22 c "DL") (hd : Missing np22 c "DL/Demands/DemandFilePath") (ha : a.demandFile = none) :
    parseConfig np22 ds a fmt scripts c = .error .invalidConfigError := by
  have h0 : Filled np22 a c (setPath "DL/Demands/DemandFilePath" a.demand c) := .inr ⟨hd, put_eq np22 "DL/Demands/DemandFilePath" a.demand c⟩
  unfold parseConfig
  rw [(fillDemand_ok hDL _).2 h0]
  simp only [bind, Except.bind]
  rw [if_neg]
  · rfl
  · intro hs
    obtain ⟨s, hs, _⟩ := (filled_demand h0 hs).2 hd
    rw [ha] at hs; cases hs

/-! ## Generated configurations -/

section
variable {np22 : Bool} {ds : Defaults} {a : Call} {c c' ap ap' : Fields}

theorem same_lossOutputs (h : lossOutputs np22 ds a ap = .ok ap') :
    SameOutside ["DL/Outputs", "DL/Outputs/Settings", "DL/Outputs/Settings", "DL/Outputs/Loss"] ap ap' := by
  unfold lossOutputs at h
  rw [bind_ok] at h
  obtain ⟨m, hm, h⟩ := h
  have k1 : SameOutside ["DL/Outputs", "DL/Outputs/Settings", "DL/Outputs/Settings"] ap m := by
    split at hm
    · unfold fullOutputs at hm
      simp only [bind_ok, put_eq] at hm
      obtain ⟨m1, h1, m2, h2, h3⟩ := hm
      cases h1
      obtain ⟨b, hb, rfl⟩ := (putIf_ok ..).1 h2
      refine ((SameOutside.set "DL/Outputs" (.dict ds.full) ap).trans (same_if "DL/Outputs/Settings" (.dict .nil) _ b)).trans
        (qs := ["DL/Outputs/Settings"]) ?_
      split at h3
      · cases h3; exact .set _ _ _
      · cases h3
      · cases h3
      · cases h3
    · rw [put_eq] at hm
      cases hm
      exact (SameOutside.set _ _ _).mono (by simp)
  refine k1.trans (?_ : SameOutside ["DL/Outputs/Loss"] m ap')
  rw [bind_ok] at h
  obtain ⟨b, _, h⟩ := h
  split at h
  · rw [put_eq] at h; cases h; exact .set _ _ _
  · cases h; exact .refl _ _

theorem same_dropIf {b : Bool} {p : String} (h : dropIf np22 b p ap = .ok ap') : SameOutside [p] ap ap' := by
  unfold dropIf at h
  split at h
  · rw [put_eq] at h; cases h; exact .set _ _ _
  · cases h; exact .refl _ _

theorem same_wantedOutputs (h : wantedOutputs np22 c ap = .ok ap') :
    SameOutside ["DL/Outputs/Demand", "DL/Outputs/Damage", "DL/Outputs/Loss"] ap ap' := by
  unfold wantedOutputs at h
  rw [bind_ok] at h
  obtain ⟨b, _, h⟩ := h
  split at h
  · cases h; exact .refl _ _
  · simp only [bind_ok] at h
    obtain ⟨no, _, d1, h1, dm, _, d2, h2, dv, _, h3⟩ := h
    exact (same_dropIf h1).trans ((same_dropIf h2).trans (same_dropIf h3))

/-- The entries that the call determines in a generated configuration. -/
structure FromCall (a : Call) (ap : Fields) : Prop where
  demand : val ap "DL/Demands/DemandFilePath" = a.demand
  size : val ap "DL/Demands/SampleSize" = text a.realizations
  coupled : a.coupled = true → val ap "DL/Demands/CoupledDemands" = bool true
  calibration : a.coupled = false → val ap "DL/Demands/Calibration" = lognormalAll
  file : val ap "DL/Asset/ComponentAssignmentFile" = text a.componentFile

theorem fromCall_same {ps : List String} (h : SameOutside ps ap ap')
    (hp : ∀ p ∈ ps, ∀ q ∈ ["DL/Demands/DemandFilePath", "DL/Demands/SampleSize", "DL/Demands/CoupledDemands", "DL/Demands/Calibration",
      "DL/Asset/ComponentAssignmentFile"], Apart (pathKeys (str p)) (pathKeys (str q))) (hf : FromCall a ap) : FromCall a ap' := by
  have e : ∀ q ∈ ["DL/Demands/DemandFilePath", "DL/Demands/SampleSize", "DL/Demands/CoupledDemands", "DL/Demands/Calibration",
      "DL/Asset/ComponentAssignmentFile"], val ap' q = val ap q := fun q hq => h.val q fun p hpp => hp p hpp q hq
  exact ⟨by rw [e _ (by simp)]; exact hf.demand, by rw [e _ (by simp)]; exact hf.size,
    fun hc => by rw [e _ (by simp)]; exact hf.coupled hc, fun hc => by rw [e _ (by simp)]; exact hf.calibration hc,
    by rw [e _ (by simp)]; exact hf.file⟩

theorem addDemands_fromCall (h : addDemands np22 a ap = .ok ap') :
    FromCall a (setPath "DL/Asset/ComponentAssignmentFile" (text a.componentFile) ap') := by
  unfold addDemands at h
  simp only [bind_ok, put_eq] at h
  obtain ⟨d1, h1, d2, h2, h3⟩ := h
  cases h1
  cases h2
  have eP : ∀ v d, setPath "/DL/Demands/DemandFilePath" v d = setPath "DL/Demands/DemandFilePath" v d := by
    intro v d; unfold setPath
    rw [show pathKeys (str "/DL/Demands/DemandFilePath") = pathKeys (str "DL/Demands/DemandFilePath") by decide +kernel]
  have eS : ∀ v d, setPath "/DL/Demands/SampleSize" v d = setPath "DL/Demands/SampleSize" v d := by
    intro v d; unfold setPath
    rw [show pathKeys (str "/DL/Demands/SampleSize") = pathKeys (str "DL/Demands/SampleSize") by decide +kernel]
  rw [eP, eS] at h3
  by_cases hc : a.coupled = true
  · rw [if_pos hc] at h3
    cases h3
    refine ⟨?_, ?_, fun _ => ?_, fun h => ?_, val_set_same _ _ _⟩
    · rw [val_set_apart _ _ _ _ (by decide +kernel), val_set_apart _ _ _ _ (by decide +kernel), val_set_apart _ _ _ _ (by decide +kernel), val_set_same]
    · rw [val_set_apart _ _ _ _ (by decide +kernel), val_set_apart _ _ _ _ (by decide +kernel), val_set_same]
    · rw [val_set_apart _ _ _ _ (by decide +kernel), val_set_same]
    · rw [hc] at h; cases h
  · rw [if_neg hc] at h3
    cases h3
    refine ⟨?_, ?_, fun h => absurd h hc, fun _ => ?_, val_set_same _ _ _⟩
    · rw [val_set_apart _ _ _ _ (by decide +kernel), val_set_apart _ _ _ _ (by decide +kernel), val_set_apart _ _ _ _ (by decide +kernel), val_set_same]
    · rw [val_set_apart _ _ _ _ (by decide +kernel), val_set_apart _ _ _ _ (by decide +kernel), val_set_same]
    · rw [val_set_apart _ _ _ _ (by decide +kernel), val_set_same]

variable {fmt : Js → Str} {scripts : Except PyErr ((Fields → Except PyErr Fields) × List (Fields → Except PyErr Fields))}

theorem generate_fromCall (h : generate np22 ds a fmt scripts c = .ok (some c')) : FromCall a c' ∧ SameOutside ["DL"] c c' := by
  unfold generate at h
  rw [bind_ok] at h
  obtain ⟨⟨first, rest⟩, _, h⟩ := h
  simp only [bind_ok, put_eq] at h
  obtain ⟨d1, h1, d2, h2, ap0, _, ap1, _, _, _, h⟩ := h
  cases h1
  cases h2
  split at h
  · cases h
  · simp only [bind_ok] at h
    obtain ⟨p1, _, p2, g2, p3, g3, p4, g4, p5, g5, d3, g6, h⟩ := h
    cases g3
    cases g6
    cases h
    have f2 := addDemands_fromCall g2
    have f5 := fromCall_same (same_wantedOutputs g5) (by decide +kernel) (fromCall_same (same_lossOutputs g4) (by decide +kernel) f2)
    have e : ∀ q pq : String, pathKeys (str pq) = pathKeys (str "DL") ++ pathKeys (str q) →
        ∀ d, val (setPath "DL" (val p5 "DL") d) pq = val p5 pq := by
      intro q pq h d
      rw [val_set_below "DL" q pq _ d h, val_inside p5 "DL" q pq h]
    refine ⟨⟨?_, ?_, fun hc => ?_, fun hc => ?_, ?_⟩, ?_⟩
    · rw [e "Demands/DemandFilePath" _ (by decide +kernel)]; exact f5.demand
    · rw [e "Demands/SampleSize" _ (by decide +kernel)]; exact f5.size
    · rw [e "Demands/CoupledDemands" _ (by decide +kernel)]; exact f5.coupled hc
    · rw [e "Demands/Calibration" _ (by decide +kernel)]; exact f5.calibration hc
    · rw [e "Asset/ComponentAssignmentFile" _ (by decide +kernel)]; exact f5.file
    · intro q hq
      have hq' := hq "DL" (by simp)
      have ha : ∀ p : String, pathKeys (str "DL") <+: pathKeys (str p) → Apart (pathKeys (str p)) q := fun p hp => prefix_apart hp hq'
      rw [look_set_apart _ _ _ q hq', look_set_apart _ _ _ q (ha _ (by decide +kernel)), look_set_apart _ _ _ q (ha _ (by decide +kernel))]

end

/-- **C106 (generated configurations).** If the configuration has no entry `DL`, it is generated by scripts.  Whatever
they return, the demand file (or else `response.csv` next to the configuration) and the number of samples are those of
the call, the demands are coupled or else lognormal, the components are those that the scripts found, and entries
outside of `DL` are as the user wrote them. -/
theorem C106_generated (np22 : Bool) (ds : Defaults) (a : Call) (fmt : Js → Str)
    (scripts : Except PyErr ((Fields → Except PyErr Fields) × List (Fields → Except PyErr Fields))) (c c' : Fields)
    (hDL : Missing np22 c "DL") (h : parseConfig np22 ds a fmt scripts c = .ok (some c')) :
    val c' "DL/Demands/DemandFilePath" = text (a.demandFile.getD a.responseFile) ∧
    val c' "DL/Demands/SampleSize" = text a.realizations ∧
    (a.coupled = true → val c' "DL/Demands/CoupledDemands" = bool true) ∧
    (a.coupled = false → val c' "DL/Demands/Calibration/ALL/DistributionFamily" = text (str "lognormal")) ∧
    val c' "DL/Asset/ComponentAssignmentFile" = text a.componentFile ∧ val c' "DL/Asset/ComponentSampleFile" = null ∧
    (∀ (path : Str) (default : Js), ¬ pathKeys (str "DL") <+: pathKeys path ∧ ¬ pathKeys path <+: pathKeys (str "DL") →
      get (some (.dict c')) path default = get (some (.dict c)) path default) := by
  unfold parseConfig at h
  rw [bind_ok] at h
  obtain ⟨c0, h0, h⟩ := h
  have hu : unspec np22 c "DL" = .ok true := hDL
  have hc0 : c0 = c := by
    unfold fillDemand at h0
    rw [hu] at h0
    exact (Except.ok.inj h0).symm
  subst hc0
  split at h
  swap
  · cases h
  rw [hu] at h
  simp only [bind, Except.bind, if_true] at h
  cases hg : generate np22 ds a fmt scripts c0 with
  | error e => rw [hg] at h; cases h
  | ok g =>
    rw [hg] at h
    cases g with
    | none => cases h
    | some d =>
      dsimp only at h
      cases hf : finish np22 ds a d with
      | error e => rw [hf] at h; cases h
      | ok d' =>
        rw [hf] at h
        cases h
        obtain ⟨hcall, hout⟩ := generate_fromCall hg
        have hsame := finish_same hf
        obtain ⟨_, _, _, o4⟩ := done_options hf
        have hfile : val c' "DL/Asset/ComponentAssignmentFile" = text a.componentFile := by
          rw [hsame.val "DL/Asset/ComponentAssignmentFile" (by decide +kernel)]; exact hcall.file
        refine ⟨?_, ?_, fun hc => ?_, fun hc => ?_, hfile, ?_, ?_⟩
        · have hd := hcall.demand
          unfold Call.demand at hd
          cases ha : a.demandFile with
          | none =>
            rw [ha] at hd
            exact o4.2 (by rw [missing_iff, unspec_eq, hd]; rfl)
          | some s =>
            rw [ha] at hd
            rw [o4.1 (by rw [given_iff, unspec_eq, hd]; rfl), hd]; rfl
        · rw [hsame.val "DL/Demands/SampleSize" (by decide +kernel)]; exact hcall.size
        · rw [hsame.val "DL/Demands/CoupledDemands" (by decide +kernel)]; exact hcall.coupled hc
        · rw [hsame.val "DL/Demands/Calibration/ALL/DistributionFamily" (by decide +kernel),
            val_inside d "DL/Demands/Calibration" "ALL/DistributionFamily" _ (by decide +kernel), hcall.calibration hc]
          decide +kernel
        · obtain ⟨c1, c2, c3, c5, h1, h2, h3, h4, h5, h6, h7, h8, h9, h10, h11, h12, h13, h14⟩ := (finish_ok ..).1 hf
          rcases (checkFiles_ok ..).1 h14 with hx | ⟨_, hx⟩
          · rw [asset_given h4 h5 h6 h8] at hx; cases hx
          · rw [hfile] at hx
            have : ¬ text a.componentFile = null := by intro h; cases h
            tauto
        · intro path default hp
          have hk : ∀ p ∈ "DL" :: touched, pathKeys (str "DL") <+: pathKeys (str p) := by decide +kernel
          exact same_get (hout.trans hsame) path default fun p hpm => prefix_apart (hk p hpm) hp

section
variable {np22 : Bool} {ds : Defaults} {a : Call} {c c' ap ap' : Fields}

/-- The outputs that a generated configuration starts with. -/
def baseOutputs (ds : Defaults) (a : Call) : Fields := if a.detailed then ds.full else ds.regional

theorem lossOutputs_base (h : lossOutputs np22 ds a ap = .ok ap') : ∃ m, SameOutside ["DL/Outputs/Settings", "DL/Outputs/Settings", "DL/Outputs/Loss"]
    (setPath "DL/Outputs" (.dict (baseOutputs ds a)) m) ap' := by
  unfold lossOutputs at h
  rw [bind_ok] at h
  obtain ⟨m, hm, h⟩ := h
  refine ⟨ap, ?_⟩
  have k1 : SameOutside ["DL/Outputs/Settings", "DL/Outputs/Settings"] (setPath "DL/Outputs" (.dict (baseOutputs ds a)) ap) m := by
    unfold baseOutputs
    split at hm
    · rename_i hd
      rw [if_pos hd]
      unfold fullOutputs at hm
      simp only [bind_ok, put_eq] at hm
      obtain ⟨m1, h1, m2, h2, h3⟩ := hm
      cases h1
      obtain ⟨b, hb, rfl⟩ := (putIf_ok ..).1 h2
      refine (same_if "DL/Outputs/Settings" (.dict .nil) _ b).trans (qs := ["DL/Outputs/Settings"]) ?_
      split at h3
      · cases h3; exact .set _ _ _
      · cases h3
      · cases h3
      · cases h3
    · rename_i hd
      rw [if_neg hd]
      rw [put_eq] at hm
      cases hm
      exact .refl _ _
  refine k1.trans (?_ : SameOutside ["DL/Outputs/Loss"] m ap')
  rw [bind_ok] at h
  obtain ⟨b, _, h⟩ := h
  split at h
  · rw [put_eq] at h; cases h; exact .set _ _ _
  · cases h; exact .refl _ _

theorem index_at (v w : Js) (ks : List Str) (h : index v ks = .ok w) : Js.at v ks = some w := by
  induction ks generalizing v with
  | nil => cases h; rfl
  | cons k ks ih =>
    match v with
    | .leaf _ => cases h
    | .dict f =>
      simp only [index] at h
      split at h
      · cases h
      · rename_i x hx
        simp only [Js.at, hx]
        exact ih x h

theorem dropIf_val {b : Bool} {p : String} (h : dropIf np22 b p ap = .ok ap') : val ap' p = if b then .dict .nil else val ap p := by
  unfold dropIf at h
  split at h
  · rename_i hb
    rw [put_eq] at h; cases h; rw [if_pos hb]; exact val_set_same _ _ _
  · rename_i hb
    cases h; rw [if_neg hb]

theorem wantedOutputs_val (h : wantedOutputs np22 c ap = .ok ap') :
    (unspec np22 c "outputs" = .ok true → ap' = ap) ∧ (unspec np22 c "outputs" = .ok false →
      val ap' "DL/Outputs/Demand" = (if truthy (val c "outputs/IM") || truthy (val c "outputs/EDP") then val ap "DL/Outputs/Demand" else .dict .nil) ∧
      val ap' "DL/Outputs/Damage" = (if truthy (val c "outputs/DM") then val ap "DL/Outputs/Damage" else .dict .nil) ∧
      val ap' "DL/Outputs/Loss" = (if truthy (val c "outputs/DV") then val ap "DL/Outputs/Loss" else .dict .nil)) := by
  unfold wantedOutputs at h
  rw [bind_ok] at h
  obtain ⟨b, hb, h⟩ := h
  cases b with
  | true =>
    rw [if_pos rfl] at h
    cases h
    exact ⟨fun _ => rfl, fun hx => by rw [hb] at hx; cases hx⟩
  | false =>
    refine ⟨fun hx => by (rw [hb] at hx; cases hx), fun _ => ?_⟩
    simp only [Bool.false_eq_true, if_false, bind_ok] at h
    obtain ⟨no, hno, d1, h1, dm, hdm, d2, h2, dv, hdv, h3⟩ := h
    have e : ∀ (k : String) (w : Js), index (.dict c) [str "outputs", str k] = .ok w → pathKeys (str ("outputs/" ++ k)) = [str "outputs", str k] →
        val c ("outputs/" ++ k) = w := by
      intro k w hk hp
      rw [val_eq, hp]
      unfold look
      rw [index_at _ _ _ hk]; rfl
    have edm := e "DM" dm hdm (by decide +kernel)
    have edv := e "DV" dv hdv (by decide +kernel)
    have eno : no = !(truthy (val c "outputs/IM") || truthy (val c "outputs/EDP")) := by
      unfold noDemand at hno
      rw [bind_ok] at hno
      obtain ⟨im, him, hno⟩ := hno
      have eim := e "IM" im him (by decide +kernel)
      rw [show val c "outputs/IM" = im from eim]
      split at hno
      · rename_i ht
        cases hno; rw [ht]; rfl
      · rename_i ht
        cases hedp : index (.dict c) [str "outputs", str "EDP"] with
        | error x => rw [hedp] at hno; cases hno
        | ok edp =>
          rw [hedp] at hno
          cases hno
          rw [show val c "outputs/EDP" = edp from e "EDP" edp hedp (by decide +kernel), Bool.eq_false_iff.2 ht]
          rfl
    have k1 := same_dropIf h1
    have k2 := same_dropIf h2
    have k3 := same_dropIf h3
    refine ⟨?_, ?_, ?_⟩
    · rw [(k2.trans k3).val "DL/Outputs/Demand" (by decide +kernel), dropIf_val h1, eno]
      cases truthy (val c "outputs/IM") || truthy (val c "outputs/EDP") <;> rfl
    · rw [k3.val "DL/Outputs/Damage" (by decide +kernel), dropIf_val h2, k1.val "DL/Outputs/Damage" (by decide +kernel),
        show val c "outputs/DM" = dm from edm]
      cases truthy dm <;> rfl
    · rw [dropIf_val h3, (k1.trans k2).val "DL/Outputs/Loss" (by decide +kernel), show val c "outputs/DV" = dv from edv]
      cases truthy dv <;> rfl

variable {fmt : Js → Str} {scripts : Except PyErr ((Fields → Except PyErr Fields) × List (Fields → Except PyErr Fields))}

theorem generate_outputs (h : generate np22 ds a fmt scripts c = .ok (some c')) :
    val c' "DL/Outputs/Asset" = entry (.dict (baseOutputs ds a)) "Asset" ∧
    (unspec np22 c "outputs" = .ok true → val c' "DL/Outputs/Demand" = entry (.dict (baseOutputs ds a)) "Demand" ∧
      val c' "DL/Outputs/Damage" = entry (.dict (baseOutputs ds a)) "Damage") ∧
    (unspec np22 c "outputs" = .ok false →
      val c' "DL/Outputs/Demand" =
        (if truthy (val c "outputs/IM") || truthy (val c "outputs/EDP") then entry (.dict (baseOutputs ds a)) "Demand" else .dict .nil) ∧
      val c' "DL/Outputs/Damage" = (if truthy (val c "outputs/DM") then entry (.dict (baseOutputs ds a)) "Damage" else .dict .nil) ∧
      (truthy (val c "outputs/DV") = false → val c' "DL/Outputs/Loss" = .dict .nil)) := by
  unfold generate at h
  rw [bind_ok] at h
  obtain ⟨⟨first, rest⟩, _, h⟩ := h
  simp only [bind_ok, put_eq] at h
  obtain ⟨d1, h1, d2, h2, ap0, _, ap1, _, _, _, h⟩ := h
  cases h1
  cases h2
  split at h
  · cases h
  · simp only [bind_ok] at h
    obtain ⟨p1, _, p2, g2, p3, g3, p4, g4, p5, g5, d3, g6, h⟩ := h
    cases g3
    cases g6
    cases h
    obtain ⟨m, hm⟩ := lossOutputs_base g4
    have e : ∀ q pq : String, pathKeys (str pq) = pathKeys (str "DL") ++ pathKeys (str q) →
        ∀ d, val (setPath "DL" (val p5 "DL") d) pq = val p5 pq := by
      intro q pq h d
      rw [val_set_below "DL" q pq _ d h, val_inside p5 "DL" q pq h]
    have cc : SameOutside ["/DL/Demands/DemandFilePath", "/DL/Demands/SampleSize"] c
        (setPath "/DL/Demands/SampleSize" (text a.realizations) (setPath "/DL/Demands/DemandFilePath" a.demand c)) := (SameOutside.set "/DL/Demands/DemandFilePath" a.demand c).trans
      (SameOutside.set "/DL/Demands/SampleSize" (text a.realizations) _)
    have w := wantedOutputs_val g5
    rw [cc.unspec np22 "outputs" (by decide +kernel), cc.val "outputs/IM" (by decide +kernel), cc.val "outputs/EDP" (by decide +kernel),
      cc.val "outputs/DM" (by decide +kernel), cc.val "outputs/DV" (by decide +kernel)] at w
    have b : ∀ q pq : String, pathKeys (str pq) = pathKeys (str "DL/Outputs") ++ pathKeys (str q) →
        (∀ p ∈ ["DL/Outputs/Settings", "DL/Outputs/Settings", "DL/Outputs/Loss"], Apart (pathKeys (str p)) (pathKeys (str pq))) →
        val p4 pq = entry (.dict (baseOutputs ds a)) q := by
      intro q pq h1 h2
      rw [hm.val pq h2, val_set_below "DL/Outputs" q pq _ _ h1]
      rfl
    have bd := b "Demand" "DL/Outputs/Demand" (by decide +kernel) (by decide +kernel)
    have bm := b "Damage" "DL/Outputs/Damage" (by decide +kernel) (by decide +kernel)
    have ba := b "Asset" "DL/Outputs/Asset" (by decide +kernel) (by decide +kernel)
    rw [e "Outputs/Asset" _ (by decide +kernel), e "Outputs/Demand" _ (by decide +kernel), e "Outputs/Damage" _ (by decide +kernel),
      e "Outputs/Loss" _ (by decide +kernel), (same_wantedOutputs g5).val "DL/Outputs/Asset" (by decide +kernel), ba]
    refine ⟨rfl, fun hu => ?_, fun hu => ?_⟩
    · rw [w.1 hu]; exact ⟨bd, bm⟩
    · obtain ⟨w1, w2, w3⟩ := w.2 hu
      rw [bd] at w1
      rw [bm] at w2
      exact ⟨w1, w2, fun hv => by rw [w3, hv]; exact if_neg (by simp)⟩

end

/-- **C106 (outputs of generated configurations).** A generated configuration asks for the outputs for regional
simulations, or for all outputs if detailed results are asked for, without those of the demands, the damage and the
losses that the entry `outputs` of the configuration declines. -/
theorem C106_generated_outputs (np22 : Bool) (ds : Defaults) (a : Call) (fmt : Js → Str)
    (scripts : Except PyErr ((Fields → Except PyErr Fields) × List (Fields → Except PyErr Fields))) (c c' : Fields)
    (hDL : Missing np22 c "DL") (h : parseConfig np22 ds a fmt scripts c = .ok (some c'))
    (o : Fields) (ho : o = if a.detailed then ds.full else ds.regional) (hasset : entry (.dict o) "Asset" ≠ null) :
    val c' "DL/Outputs/Asset" = entry (.dict o) "Asset" ∧
    (Missing np22 c "outputs" → val c' "DL/Outputs/Demand" = entry (.dict o) "Demand" ∧ val c' "DL/Outputs/Damage" = entry (.dict o) "Damage") ∧
    (Given np22 c "outputs" →
      val c' "DL/Outputs/Demand" =
        (if truthy (val c "outputs/IM") || truthy (val c "outputs/EDP") then entry (.dict o) "Demand" else .dict .nil) ∧
      val c' "DL/Outputs/Damage" = (if truthy (val c "outputs/DM") then entry (.dict o) "Damage" else .dict .nil) ∧
      (truthy (val c "outputs/DV") = false → val c' "DL/Outputs/Loss/Repair" = null)) := by
  unfold parseConfig at h
  rw [bind_ok] at h
  obtain ⟨c0, h0, h⟩ := h
  have hu : unspec np22 c "DL" = .ok true := hDL
  have hc0 : c0 = c := by
    unfold fillDemand at h0
    rw [hu] at h0
    exact (Except.ok.inj h0).symm
  subst hc0
  split at h
  swap
  · cases h
  rw [hu] at h
  simp only [bind, Except.bind, if_true] at h
  cases hg : generate np22 ds a fmt scripts c0 with
  | error e => rw [hg] at h; cases h
  | ok g =>
    rw [hg] at h
    cases g with
    | none => cases h
    | some d =>
      dsimp only at h
      cases hf : finish np22 ds a d with
      | error e => rw [hf] at h; cases h
      | ok d' =>
        rw [hf] at h
        cases h
        obtain ⟨g1, g2, g3⟩ := generate_outputs hg
        rw [show baseOutputs ds a = o from ho.symm] at g1 g2 g3
        have hgiven : Given np22 d "DL/Outputs" := by
          rw [given_iff]
          cases hl : look d (pathKeys (str "DL/Outputs/Asset")) with
          | none =>
            rw [val_eq, hl] at g1
            exact absurd g1.symm hasset
          | some x =>
            rw [show pathKeys (str "DL/Outputs/Asset") = pathKeys (str "DL/Outputs") ++ [str "Asset"] by decide +kernel] at hl
            exact unspec_above np22 d "DL/Outputs" _ x hl (by simp)
        obtain ⟨e1, e2, e3, e4, _⟩ := done_outputs hf _ (.inl ⟨hgiven, rfl⟩)
        have v : ∀ q pq : String, pathKeys (str pq) = pathKeys (str "DL/Outputs") ++ pathKeys (str q) →
            entry (val d "DL/Outputs") q = val d pq := fun q pq hq => (val_inside d "DL/Outputs" q pq hq).symm
        rw [v "Demand" "DL/Outputs/Demand" (by decide +kernel)] at e1
        rw [v "Asset" "DL/Outputs/Asset" (by decide +kernel)] at e2
        rw [v "Damage" "DL/Outputs/Damage" (by decide +kernel)] at e3
        rw [v "Loss/BldgRepair" "DL/Outputs/Loss/BldgRepair" (by decide +kernel), v "Loss/Repair" "DL/Outputs/Loss/Repair" (by decide +kernel),
          val_inside d "DL/Outputs/Loss" "BldgRepair" "DL/Outputs/Loss/BldgRepair" (by decide +kernel),
          val_inside d "DL/Outputs/Loss" "Repair" "DL/Outputs/Loss/Repair" (by decide +kernel)] at e4
        refine ⟨e2.trans g1, fun hm => ?_, fun hm => ?_⟩
        · obtain ⟨x1, x2⟩ := g2 hm
          exact ⟨e1.trans x1, e3.trans x2⟩
        · obtain ⟨x1, x2, x3⟩ := g3 hm
          refine ⟨e1.trans x1, e3.trans x2, fun hv => ?_⟩
          rw [e4, x3 hv]
          decide +kernel

/-! ## Examples -/

namespace Examples

instance (np22 : Bool) (c : Fields) (p : String) : Decidable (Given np22 c p) := by unfold Given; infer_instance
instance (np22 : Bool) (c : Fields) (p : String) : Decidable (Missing np22 c p) := by unfold Missing; infer_instance

/-- an object -/
def obj : List (String × Js) → Fields
  | [] => .nil
  | (k, v) :: rest => .cons (str k) v (obj rest)

def t (s : String) : Js := text (str s)
def d (l : List (String × Js)) : Js := .dict (obj l)
def flags (l : List (String × Bool)) : Js := d (l.map fun x => (x.1, bool x.2))

/-- the dictionaries of DL_calculation.py:124-178, before any run -/
def defaults : Defaults where
  full := obj [("Demand", flags [("Sample", true), ("Statistics", true)]), ("Asset", flags [("Sample", true), ("Statistics", true)]),
    ("Damage", flags [("Sample", true), ("Statistics", true), ("GroupedSample", true), ("GroupedStatistics", true)]),
    ("Loss", d [("Repair", flags [("Sample", true), ("Statistics", true), ("GroupedSample", true), ("GroupedStatistics", true),
      ("AggregateSample", true), ("AggregateStatistics", true)])]),
    ("Format", flags [("CSV", true), ("JSON", true)])]
  regional := obj [("Demand", flags [("Sample", true), ("Statistics", false)]), ("Asset", flags [("Sample", true), ("Statistics", false)]),
    ("Damage", flags [("Sample", false), ("Statistics", false), ("GroupedSample", true), ("GroupedStatistics", true)]),
    ("Loss", d [("Repair", flags [("Sample", true), ("Statistics", true), ("GroupedSample", true), ("GroupedStatistics", true),
      ("AggregateSample", true), ("AggregateStatistics", true)])]),
    ("Format", flags [("CSV", false), ("JSON", true)]),
    ("Settings", flags [("CondenseDS", true), ("SimpleIndexInJSON", true), ("AggregateColocatedComponentResults", true)])]
  pbe := obj [("CondenseDS", bool false), ("SimpleIndexInJSON", bool false), ("AggregateColocatedComponentResults", bool true)]

def call : Call where
  demandFile := some (str "d.csv")
  realizations := str "200"
  format := none
  coupled := false
  detailed := false
  responseFile := str "response.csv"
  componentFile := str "CMP_QNT.csv"

def info : String × Js := ("GeneralInformation", d [("units", d [("length", t "m")])])

/-- a configuration with a collapse fragility without distribution, and losses -/
def config : Fields := obj [info, ("DL", d [
  ("Demands", d [("SampleSize", t "500")]),
  ("Asset", d [("ComponentAssignmentFile", t "a.csv"), ("NumberOfStories", t "3")]),
  ("Damage", d [("DamageProcess", t "None"), ("CollapseFragility", d [("DemandType", t "SA"), ("CapacityMedian", t "1.5")])]),
  ("Losses", d [("BldgRepair", d [("ConsequenceDatabase", t "x")])])])]

def sampleFile : Fields := obj [info, ("DL", d [
  ("Demands", d [("SampleSize", t "500")]), ("Asset", d [("ComponentAssignmentFile", null), ("ComponentSampleFile", t "s.csv")])])]

/-- what a script returns -/
def script : Fields := obj [("DL", d [
  ("Asset", d [("ComponentDatabase", t "x")]), ("Options", d [("Seed", t "1")]),
  ("Damage", d [("DamageProcess", t "None")]), ("Losses", d [("Repair", d [("ConsequenceDatabase", t "x")])])])]

/-- a configuration without `DL` that declines the outputs of the demands -/
def regionalConfig : Fields := obj [info,
  ("outputs", d [("IM", bool false), ("EDP", bool false), ("DM", bool true), ("DV", bool true)])]

def noFile : Call := { call with demandFile := none }

def isOk {α : Type} : Except PyErr (Option α) → Bool
  | .ok (some _) => true
  | _ => false

theorem isOk_elim {α : Type} {x : Except PyErr (Option α)} (h : isOk x = true) : ∃ y, x = .ok (some y) := by
  match x with
  | .ok (some y) => exact ⟨y, rfl⟩
  | .ok none => cases h
  | .error _ => cases h

end Examples

open Examples in
/-- the default outputs conform to the schema -/
example : GoodDefaults defaults := ⟨_, rfl, by decide +kernel⟩

open Examples in
/-- C106_accepted_partial, C106_completed: an accepted configuration; the number of samples is read, the distribution
and the settings are added, the earlier name is replaced -/
example : Given true config "DL" ∧ (∃ c', parseConfig true defaults call (fun _ => []) (.error .invalidConfigError) config = .ok (some c') ∧
    val c' "DL/Options/Sampling/SampleSize" = number 500 ∧ val c' "DL/Asset/NumberOfStories" = number 3 ∧
    val c' "DL/Damage/CollapseFragility/CapacityDistribution" = t "deterministic" ∧
    val c' "DL/Losses/Repair/ConsequenceDatabase" = t "x" ∧ val c' "DL/Demands/DemandFilePath" = t "d.csv" ∧
    val c' "DL/Outputs/Settings/CondenseDS" = bool false) := by
  refine ⟨by decide +kernel, ?_⟩
  obtain ⟨c', h⟩ := isOk_elim (show isOk (parseConfig true defaults call (fun _ => []) (.error .invalidConfigError) config) = true by decide +kernel)
  refine ⟨c', h, ?_⟩
  have : (match parseConfig true defaults call (fun _ => []) (.error .invalidConfigError) config with
    | .ok (some c') => decide (val c' "DL/Options/Sampling/SampleSize" = number 500 ∧ val c' "DL/Asset/NumberOfStories" = number 3 ∧
      val c' "DL/Damage/CollapseFragility/CapacityDistribution" = t "deterministic" ∧
      val c' "DL/Losses/Repair/ConsequenceDatabase" = t "x" ∧ val c' "DL/Demands/DemandFilePath" = t "d.csv" ∧
      val c' "DL/Outputs/Settings/CondenseDS" = bool false)
    | _ => false) = true := by decide +kernel
  rw [h] at this
  exact of_decide_eq_true this

open Examples in
/-- C106_schema, C106_required: the configuration with a demand file has the form of the schema; without the unit of length it has not. -/
example : conforms inputSchema (d [info, ("DL", d [("Demands", d [("DemandFilePath", t "d.csv"), ("SampleSize", number 500),
      ("CollapseLimits", d [("PID", number (1 / 10)), ("PFA", t "2")])]),
      ("Asset", d [("ComponentAssignmentFile", t "a.csv")]), ("Damage", d [("DamageProcess", t "None")])])]) = true ∧
    conforms inputSchema (d [("GeneralInformation", d [("units", d [])])]) = false := by decide +kernel

open Examples in
/-- C106_sample_file_refused -/
example : Given true sampleFile "DL" ∧ val sampleFile "DL/Asset/ComponentSampleFile" ≠ null := by decide +kernel

open Examples in
/-- C106_response_file_not_used: the configuration that is accepted with a demand file in the call -/
example : Given true config "DL" ∧ Missing true config "DL/Demands/DemandFilePath" ∧ noFile.demandFile = none := by decide +kernel

open Examples in
/-- C106_generated, C106_generated_outputs: an accepted configuration without `DL` -/
example : Missing true regionalConfig "DL" ∧ Given true regionalConfig "outputs" ∧ entry (.dict defaults.regional) "Asset" ≠ null ∧
    ∃ c', parseConfig true defaults call (fun _ => []) (.ok (fun _ => .ok script, [])) regionalConfig = .ok (some c') :=
  ⟨by decide +kernel, by decide +kernel, by decide +kernel, isOk_elim (by decide +kernel)⟩

end Verif.ToolConfig
