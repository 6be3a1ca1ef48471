import Verif.Lemmas.ToolConfig

/-!
# Acceptance of configurations
-/

namespace Verif.ToolConfig

open Config

theorem sizeEntry_iff (c : Fields) (n : Int) : AsksForSize c n ↔ truthy (sizeEntry c) = true ∧ toInt (sizeEntry c) = .ok n := by
  unfold AsksForSize sizeEntry
  by_cases h : truthy (val c "DL/Options/Sampling/SampleSize") = true
  · simp [h]
  · have h' : truthy (val c "DL/Options/Sampling/SampleSize") = false := by simpa using h
    simp [h']

section
variable {np22 : Bool} {ds : Defaults} {a : Call} {c c1 c2 c3 c5 c' : Fields}

/-- Everything that is changed. -/
def touched : List String :=
  ["DL/Options/Sampling/SampleSize", "DL/Outputs", "DL/Outputs/Format", "DL/Outputs/Format", "DL/Outputs/Settings",
   "DL/Options/LogFile", "DL/Options/Verbose", "DL/Options/ListAllDamageStates", "DL/Demands/DemandFilePath",
   "DL/Losses/Repair", "DL/Outputs/Loss/Repair", "DL/Asset/NumberOfStories",
   "DL/Damage/CollapseFragility/CapacityDistribution", "DL/Damage/CollapseFragility/Theta_1"]

theorem finish_same (h : finish np22 ds a c = .ok c') : SameOutside touched c c' := by
  obtain ⟨c1, c2, c3, c5, h1, h2, _, _, h5, h6, _, h8, _⟩ := (finish_ok ..).1 h
  exact (same_sampleSize h1).trans ((same_outputDefaults h2).trans ((same_optionDefaults h5).trans ((same_legacy c3).trans
    ((same_stories h6).trans (same_collapse h8)))))

theorem given_iff (p : String) : Given np22 c p ↔ unspec np22 c p = .ok false := Iff.rfl

theorem missing_iff (p : String) : Missing np22 c p ↔ unspec np22 c p = .ok true := Iff.rfl

theorem readable (p : String) (h : conforms inputSchema (.dict c) = true) (hs : (schemaAt inputSchema (pathKeys (str p))).isSome = true) :
    Given np22 c p ∨ Missing np22 c p := by
  obtain ⟨t, ht⟩ := Option.isSome_iff_exists.mp hs
  obtain ⟨b, hb⟩ := schema_readable np22 c p t h ht
  cases b
  · exact .inl hb
  · exact .inr hb

theorem given_or_missing_exclusive (p : String) (h : Given np22 c p) (h' : Missing np22 c p) : False := by
  unfold Given Missing at *; rw [h] at h'; cases h'

/-- The outputs are there in one of the two ways. -/
theorem outputs_exist (h : conforms inputSchema (.dict c) = true) : ∃ o, Outputs np22 ds c o := by
  rcases readable (np22 := np22) "DL/Outputs" h (by decide +kernel) with h | h
  · exact ⟨_, .inl ⟨h, rfl⟩⟩
  · exact ⟨_, .inr ⟨h, rfl⟩⟩

theorem given_look (p : String) (h : Given np22 c p) : look c (pathKeys (str p)) = some (val c p) := by
  rw [given_iff, unspec_eq, val_eq] at h
  rw [val_eq]
  cases hl : look c (pathKeys (str p)) with
  | some w => rfl
  | none => rw [hl] at h; cases h

theorem out_readable (h : conforms inputSchema (.dict c) = true) (hds : GoodDefaults ds) (o : Js) (ho : Outputs np22 ds c o) (q : String)
    (hq : ∀ s, schemaAt inputSchema [str "DL", str "Outputs"] = some s → (schemaAt s (pathKeys (str q))).isSome = true) :
    ∃ b, valueUnspecified np22 (entry o q) = .ok b := by
  obtain ⟨s, hs, hf⟩ := hds
  obtain ⟨t, ht⟩ := Option.isSome_iff_exists.mp (hq s hs)
  have hc : conforms s o = true := by
    rcases ho with ⟨hg, rfl⟩ | ⟨_, rfl⟩
    · exact conforms_at _ inputSchema s (.dict c) _ h (by rw [← hs]; congr 1) (given_look "DL/Outputs" hg)
    · exact hf
  exact at_readable np22 s t o _ hc ht

/-- An entry of the outputs after the first step of `outputDefaults`. -/
theorem out_entry (o : Js) (b : Bool) (hb : unspec np22 c "DL/Outputs" = .ok b) (ho : Outputs np22 ds c o) (q pq : String)
    (h : pathKeys (str pq) = pathKeys (str "DL/Outputs") ++ pathKeys (str q)) :
    val (if b then setPath "DL/Outputs" (.dict ds.full) c else c) pq = entry o q := by
  rcases ho with ⟨hg, rfl⟩ | ⟨hm, rfl⟩
  · rw [given_iff, hb] at hg
    cases hg
    exact val_inside c _ q pq h
  · rw [missing_iff, hb] at hm
    cases hm
    exact val_set_below _ q pq _ c h

theorem outputs_same (h : SameOutside ["DL/Options/Sampling/SampleSize"] c c1) (o : Js) (ho : Outputs np22 ds c o) : Outputs np22 ds c1 o := by
  unfold Outputs at *
  rw [given_iff, missing_iff, h.unspec np22 "DL/Outputs" (by decide +kernel), h.val "DL/Outputs" (by decide +kernel)]
  exact ho

theorem out_entry_done (h1 : SameOutside ["DL/Options/Sampling/SampleSize"] c c1) (h2 : outputDefaults np22 ds a c1 = .ok c2) (o : Js)
    (ho : Outputs np22 ds c o) (q pq : String) (h : pathKeys (str pq) = pathKeys (str "DL/Outputs") ++ pathKeys (str q))
    (hq : ∀ p ∈ ["DL/Outputs/Format", "DL/Outputs/Format", "DL/Outputs/Settings"], Apart (pathKeys (str p)) (pathKeys (str pq))) :
    val c2 pq = entry o q := by
  obtain ⟨b1, b2, b3, d1, d2, d3, hb, e1, _, e2, e3, _, e4⟩ := (outputDefaults_ok ..).1 h2
  have k2 : SameOutside ["DL/Outputs/Format"] d1 d2 := e2 ▸ same_if _ _ _ _
  have k3 : SameOutside ["DL/Outputs/Format"] d2 d3 := by
    subst e3
    cases a.format with
    | none => exact .refl _ _
    | some l => exact .set _ _ _
  have k4 : SameOutside ["DL/Outputs/Settings"] d3 c2 := e4 ▸ same_if _ _ _ _
  rw [(k2.trans (k3.trans k4)).val pq hq, e1]
  exact out_entry o b1 hb (outputs_same h1 o ho) q pq h

theorem asset_given (h2 : unspec np22 c2 "DL/Asset" = .ok false) (h5 : optionDefaults np22 a c2 = .ok c3)
    (h6 : stories np22 (legacyStep c3) = .ok c5) (h8 : collapse np22 c5 = .ok c') : unspec np22 c' "DL/Asset" = .ok false := by
  rw [(same_collapse h8).unspec np22 "DL/Asset" (by decide +kernel)]
  have h3 : unspec np22 (legacyStep c3) "DL/Asset" = .ok false := by
    rw [((same_optionDefaults h5).trans (same_legacy c3)).unspec np22 "DL/Asset" (by decide +kernel)]; exact h2
  rcases (stories_ok ..).1 h6 with ⟨_, rfl⟩ | ⟨_, n, _, rfl⟩
  · exact h3
  · exact given_set_below np22 _ _ [str "NumberOfStories"] _ _ (by decide +kernel) (by simp)

/-- Below an entry that is given there are objects. -/
theorem given_above (p q : String) (r : List Str) (h : pathKeys (str p) = pathKeys (str q) ++ r) (hr : r ≠ []) (hp : Given np22 c p) :
    Given np22 c q :=
  unspec_above np22 c q r (val c p) (by rw [← h]; exact given_look p hp) hr

theorem truthy_look (p : String) (h : truthy (val c p) = true) : look c (pathKeys (str p)) = some (val c p) := by
  rw [val_eq] at *
  cases hl : look c (pathKeys (str p)) with
  | some w => rfl
  | none => rw [hl] at h; cases h

theorem damage_iff (h8 : collapse np22 c5 = .ok c') : unspec np22 c' "DL/Damage" = unspec np22 c5 "DL/Damage" := by
  rcases (collapse_ok ..).1 h8 with ⟨_, rfl⟩ | ⟨hg, ⟨_, _, rfl⟩ | ⟨_, rfl⟩, _⟩
  · rfl
  · rw [given_set_below np22 _ "DL/Damage" [str "CollapseFragility", str "Theta_1"] _ _ (by decide +kernel) (by simp)]
    exact (given_above "DL/Damage/CollapseFragility" "DL/Damage" [str "CollapseFragility"] (by decide +kernel) (by simp) hg).symm
  · rfl

theorem losses_legacy : unspec np22 (legacyStep c3) "DL/Losses" = unspec np22 c3 "DL/Losses" := by
  have h2 : ∀ d : Fields, unspec np22 (if truthy (val d "DL/Outputs/Loss/BldgRepair") = true then
      setPath "DL/Outputs/Loss/Repair" (val d "DL/Outputs/Loss/BldgRepair") d else d) "DL/Losses" = unspec np22 d "DL/Losses" := by
    intro d
    exact (same_if "DL/Outputs/Loss/Repair" _ d _).unspec np22 "DL/Losses" (by decide +kernel)
  unfold legacyStep
  dsimp only
  rw [h2]
  by_cases h : truthy (val c3 "DL/Losses/BldgRepair") = true
  · rw [if_pos h, given_set_below np22 _ "DL/Losses" [str "Repair"] _ _ (by decide +kernel) (by simp)]
    have := truthy_look _ h
    exact (unspec_above np22 c3 "DL/Losses" [str "BldgRepair"] _ (by rw [← this]; congr 1) (by simp)).symm
  · rw [if_neg h]

theorem loss_outputs_legacy : unspec np22 (legacyStep c3) "DL/Outputs/Loss" = unspec np22 c3 "DL/Outputs/Loss" := by
  have h1 : SameOutside ["DL/Losses/Repair"] c3 (if truthy (val c3 "DL/Losses/BldgRepair") = true then
      setPath "DL/Losses/Repair" (val c3 "DL/Losses/BldgRepair") c3 else c3) := same_if _ _ _ _
  unfold legacyStep
  dsimp only
  rw [← h1.unspec np22 "DL/Outputs/Loss" (by decide +kernel)]
  generalize (if truthy (val c3 "DL/Losses/BldgRepair") = true then
      setPath "DL/Losses/Repair" (val c3 "DL/Losses/BldgRepair") c3 else c3) = d
  by_cases h : truthy (val d "DL/Outputs/Loss/BldgRepair") = true
  · rw [if_pos h, given_set_below np22 _ "DL/Outputs/Loss" [str "Repair"] _ _ (by decide +kernel) (by simp)]
    have := truthy_look _ h
    exact (unspec_above np22 d "DL/Outputs/Loss" [str "BldgRepair"] _ (by rw [← this]; congr 1) (by simp)).symm
  · rw [if_neg h]

/-- In a configuration that conforms to the schema an asset that is given has a file. -/
theorem file_there (h : conforms inputSchema (.dict c) = true) (hg : Given np22 c "DL/Asset") :
    ∃ s, val c "DL/Asset/ComponentAssignmentFile" = text s := by
  have hl := given_look _ hg
  obtain ⟨x, hx⟩ := conforms_required inputSchema (.dict c) [str "DL", str "Asset"] [str "ComponentAssignmentFile"] _ (str "ComponentAssignmentFile") h rfl
    _ (by rw [← hl]; unfold look; congr 1) (by simp)
  have ht := conforms_at _ inputSchema .text (.dict c) x h (by rfl) hx
  match x, ht with
  | .leaf (.atom (.str s)), _ =>
    refine ⟨s, ?_⟩
    rw [val_eq, show pathKeys (str "DL/Asset/ComponentAssignmentFile") = [str "DL", str "Asset"] ++ [str "ComponentAssignmentFile"] by decide +kernel]
    unfold look
    rw [hx]; rfl

/-- The entries that are the same until the number of stories is read. -/
theorem same_before (h1 : sampleSize np22 c = .ok c1) (h2 : outputDefaults np22 ds a c1 = .ok c2) (h5 : optionDefaults np22 a c2 = .ok c3) :
    SameOutside ["DL/Options/Sampling/SampleSize", "DL/Outputs", "DL/Outputs/Format", "DL/Outputs/Format", "DL/Outputs/Settings",
   "DL/Options/LogFile", "DL/Options/Verbose", "DL/Options/ListAllDamageStates", "DL/Demands/DemandFilePath",
   "DL/Losses/Repair", "DL/Outputs/Loss/Repair"] c (legacyStep c3) :=
  (same_sampleSize h1).trans ((same_outputDefaults h2).trans ((same_optionDefaults h5).trans (same_legacy c3)))

theorem same_before_collapse (h1 : sampleSize np22 c = .ok c1) (h2 : outputDefaults np22 ds a c1 = .ok c2)
    (h5 : optionDefaults np22 a c2 = .ok c3) (h6 : stories np22 (legacyStep c3) = .ok c5) :
    SameOutside ["DL/Options/Sampling/SampleSize", "DL/Outputs", "DL/Outputs/Format", "DL/Outputs/Format", "DL/Outputs/Settings",
   "DL/Options/LogFile", "DL/Options/Verbose", "DL/Options/ListAllDamageStates", "DL/Demands/DemandFilePath",
   "DL/Losses/Repair", "DL/Outputs/Loss/Repair", "DL/Asset/NumberOfStories"] c c5 :=
  (same_before h1 h2 h5).trans (same_stories h6)

/-- From the outputs to the end. -/
theorem same_after (h5 : optionDefaults np22 a c2 = .ok c3) (h6 : stories np22 (legacyStep c3) = .ok c5) (h8 : collapse np22 c5 = .ok c') :
    SameOutside ["DL/Options/LogFile", "DL/Options/Verbose", "DL/Options/ListAllDamageStates", "DL/Demands/DemandFilePath",
   "DL/Losses/Repair", "DL/Outputs/Loss/Repair", "DL/Asset/NumberOfStories",
   "DL/Damage/CollapseFragility/CapacityDistribution", "DL/Damage/CollapseFragility/Theta_1"] c2 c' :=
  (same_optionDefaults h5).trans ((same_legacy c3).trans ((same_stories h6).trans (same_collapse h8)))

theorem loss_outputs_after (h5 : optionDefaults np22 a c2 = .ok c3) (h6 : stories np22 (legacyStep c3) = .ok c5)
    (h8 : collapse np22 c5 = .ok c') : unspec np22 c' "DL/Outputs/Loss" = unspec np22 c2 "DL/Outputs/Loss" := by
  rw [((same_stories h6).trans (same_collapse h8)).unspec np22 "DL/Outputs/Loss" (by decide +kernel), loss_outputs_legacy,
    (same_optionDefaults h5).unspec np22 "DL/Outputs/Loss" (by decide +kernel)]

theorem losses_after (h1 : sampleSize np22 c = .ok c1) (h2 : outputDefaults np22 ds a c1 = .ok c2)
    (h5 : optionDefaults np22 a c2 = .ok c3) (h6 : stories np22 (legacyStep c3) = .ok c5)
    (h8 : collapse np22 c5 = .ok c') : unspec np22 c' "DL/Losses" = unspec np22 c "DL/Losses" := by
  rw [((same_stories h6).trans (same_collapse h8)).unspec np22 "DL/Losses" (by decide +kernel), losses_legacy,
    ((same_sampleSize h1).trans ((same_outputDefaults h2).trans (same_optionDefaults h5))).unspec np22 "DL/Losses" (by decide +kernel)]

theorem damage_after (h1 : sampleSize np22 c = .ok c1) (h2 : outputDefaults np22 ds a c1 = .ok c2)
    (h5 : optionDefaults np22 a c2 = .ok c3) (h6 : stories np22 (legacyStep c3) = .ok c5)
    (h8 : collapse np22 c5 = .ok c') : unspec np22 c' "DL/Damage" = unspec np22 c "DL/Damage" := by
  rw [damage_iff h8, (same_before_collapse h1 h2 h5 h6).unspec np22 "DL/Damage" (by decide +kernel)]

set_option maxHeartbeats 4000000 in
theorem finish_complete (hs : conforms inputSchema (.dict c) = true) (h : finish np22 ds a c = .ok c') : Complete np22 ds c := by
  have hsame := finish_same h
  obtain ⟨c1, c2, c3, c5, h1, h2, h3, h4, h5, h6, h7, h8, h9, h10, h11, h12, h13, h14⟩ := (finish_ok ..).1 h
  have hasset : Given np22 c "DL/Asset" := by
    rw [given_iff, ← ((same_sampleSize h1).trans (same_outputDefaults h2)).unspec np22 "DL/Asset" (by decide +kernel)]
    exact h4
  have before := same_before h1 h2 h5
  have bc := same_before_collapse h1 h2 h5 h6
  refine ⟨hs, ?_, hasset, ?_, ?_, ?_, ?_, ?_, ?_, ?_, ?_⟩
  · obtain ⟨n, ht, hn, _⟩ := (sampleSize_ok ..).1 h1
    exact ⟨n, (sizeEntry_iff c n).2 ⟨ht, hn⟩⟩
  · have ha := asset_given h4 h5 h6 h8
    rcases (checkFiles_ok ..).1 h14 with h' | ⟨_, h'⟩
    · rw [ha] at h'; cases h'
    · rw [hsame.val "DL/Asset/ComponentAssignmentFile" (by decide +kernel), hsame.val "DL/Asset/ComponentSampleFile" (by decide +kernel)] at h'
      obtain ⟨s, hf⟩ := file_there hs hasset
      rw [hf] at h'
      have : ¬ text s = null := by intro h; cases h
      tauto
  · intro hg
    rw [given_iff, ← before.unspec np22 "DL/Asset/NumberOfStories" (by decide +kernel)] at hg
    rcases (stories_ok ..).1 h6 with ⟨hm, _⟩ | ⟨_, n, hn, _⟩
    · rw [hg] at hm; cases hm
    · rw [before.val "DL/Asset/NumberOfStories" (by decide +kernel)] at hn
      exact ⟨n, hn⟩
  · intro hg
    rw [given_iff, ← bc.unspec np22 "DL/Damage/CollapseFragility" (by decide +kernel)] at hg
    rcases (collapse_ok ..).1 h8 with ⟨hm, _⟩ | ⟨_, hd, _, hm, ht⟩
    · rw [hg] at hm; cases hm
    · refine ⟨?_, fun hd' => ?_⟩
      · rw [given_iff, ← hsame.unspec np22 "DL/Damage/CollapseFragility/CapacityMedian" (by decide +kernel)]
        exact hm
      · rw [given_iff, ← bc.unspec np22 "DL/Damage/CollapseFragility/CapacityDistribution" (by decide +kernel)] at hd'
        rcases hd with ⟨hd, _⟩ | ⟨_, rfl⟩
        · rw [hd] at hd'; cases hd'
        · rw [given_iff, ← bc.unspec np22 "DL/Damage/CollapseFragility/Theta_1" (by decide +kernel)]
          exact ht
  · intro hg
    rw [given_iff, ← hsame.unspec np22 "DL/Damage/IrreparableDamage" (by decide +kernel)] at hg
    rcases (checkIrreparable_ok ..).1 h9 with hm | ⟨_, i1, i2⟩
    · rw [hg] at hm; cases hm
    · rw [hsame.unspec np22 "DL/Damage/IrreparableDamage/DriftCapacityMedian" (by decide +kernel)] at i1
      rw [hsame.unspec np22 "DL/Damage/IrreparableDamage/DriftCapacityLogStd" (by decide +kernel)] at i2
      exact ⟨i1, i2⟩
  · intro hg
    rw [← hsame.val "DL/Damage/DamageProcess" (by decide +kernel)] at hg
    have := (checkProcess_ok ..).1 h10 hg
    rw [hsame.unspec np22 "DL/Damage/DamageProcessFilePath" (by decide +kernel)] at this
    exact this
  · intro o ho hg
    have e : unspec np22 c' "DL/Outputs/Damage" = .ok false := by
      rw [(same_after h5 h6 h8).unspec np22 "DL/Outputs/Damage" (by decide +kernel), unspec_eq,
        out_entry_done (same_sampleSize h1) h2 o ho "Damage" "DL/Outputs/Damage" (by decide +kernel) (by decide +kernel)]
      exact hg
    rcases (checkOutput_ok ..).1 h12 with hm | ⟨_, hm⟩
    · rw [e] at hm; cases hm
    · rw [damage_after h1 h2 h5 h6 h8] at hm
      exact hm
  · intro o ho hg
    have e : unspec np22 c' "DL/Outputs/Loss" = .ok false := by
      rw [loss_outputs_after h5 h6 h8, unspec_eq,
        out_entry_done (same_sampleSize h1) h2 o ho "Loss" "DL/Outputs/Loss" (by decide +kernel) (by decide +kernel)]
      exact hg
    rcases (checkOutput_ok ..).1 h13 with hm | ⟨_, hm⟩
    · rw [e] at hm; cases hm
    · rw [losses_after h1 h2 h5 h6 h8] at hm
      exact hm
  · obtain ⟨b1, b2, b3, b4, d1, d2, d3, _, e1, hv, _⟩ := (optionDefaults_ok ..).1 h5
    have k1 : SameOutside ["DL/Options/LogFile"] c2 d1 := e1 ▸ same_if _ _ _ _
    refine ⟨b2, ?_⟩
    rw [((same_sampleSize h1).trans ((same_outputDefaults h2).trans k1)).unspec np22 "DL/Options/Verbose" (by decide +kernel)] at hv
    exact hv

/-- An object of the schema with a required entry that is there is given. -/
theorem demands_given (hs : conforms inputSchema (.dict c) = true) (hd : Given np22 c "DL/Demands/DemandFilePath") : Given np22 c "DL/Demands" :=
  given_above "DL/Demands/DemandFilePath" "DL/Demands" [str "DemandFilePath"] (by decide +kernel) (by simp) hd

theorem ok_or (p : String) (h : Given np22 c p ∨ Missing np22 c p) : ∃ b, unspec np22 c p = .ok b := by
  rcases h with h | h
  · exact ⟨_, h⟩
  · exact ⟨_, h⟩

set_option maxHeartbeats 4000000 in
theorem complete_finish (hds : GoodDefaults ds) (hdem : Given np22 c "DL/Demands/DemandFilePath") (h : Complete np22 ds c) :
    ∃ c', finish np22 ds a c = .ok c' := by
  have hs := h.schema
  obtain ⟨n, hn⟩ := h.size
  obtain ⟨ht, hn⟩ := (sizeEntry_iff c n).1 hn
  obtain ⟨c1, h1⟩ : ∃ c1, sampleSize np22 c = .ok c1 := ⟨_, (sampleSize_ok ..).2 ⟨n, ht, hn, rfl⟩⟩
  have k1 := same_sampleSize h1
  obtain ⟨o, ho⟩ := outputs_exist (np22 := np22) (ds := ds) hs
  have ho1 := outputs_same k1 o ho
  -- the outputs
  obtain ⟨c2, h2⟩ : ∃ c2, outputDefaults np22 ds a c1 = .ok c2 := by
    obtain ⟨b1, hb1⟩ := ok_or (np22 := np22) "DL/Outputs" (readable "DL/Outputs" hs (by decide +kernel))
    rw [← k1.unspec np22 "DL/Outputs" (by decide +kernel)] at hb1
    obtain ⟨b2, hb2⟩ := out_readable hs hds o ho "Format" (by
      intro s hs; cases hs; decide +kernel)
    have e2 := out_entry o b1 hb1 ho1 "Format" "DL/Outputs/Format" (by decide +kernel)
    obtain ⟨b3, hb3⟩ := out_readable hs hds o ho "Settings" (by
      intro s hs; cases hs; decide +kernel)
    have e3 := out_entry o b1 hb1 ho1 "Settings" "DL/Outputs/Settings" (by decide +kernel)
    refine ⟨_, (outputDefaults_ok ..).2 ⟨b1, b2, b3, _, _, _, hb1, rfl, ?_, rfl, rfl, ?_, rfl⟩⟩
    · rw [unspec_eq, e2]; exact hb2
    · rw [← hb3, ← e3, ← unspec_eq]
      have k2 := same_if "DL/Outputs/Format" (formatValue true false) (if b1 = true then setPath "DL/Outputs" (Js.dict ds.full) c1 else c1) b2
      rw [← k2.unspec np22 "DL/Outputs/Settings" (by decide +kernel)]
      cases a.format with
      | none => rfl
      | some l => exact unspec_set_apart _ _ _ _ _ (by decide +kernel)
  have k2 := k1.trans (same_outputDefaults h2)
  have g3 : unspec np22 c2 "DL/Demands" = .ok false := by
    rw [k2.unspec np22 "DL/Demands" (by decide +kernel)]; exact demands_given hs hdem
  have g4 : unspec np22 c2 "DL/Asset" = .ok false := by
    rw [k2.unspec np22 "DL/Asset" (by decide +kernel)]; exact h.asset
  -- the options
  obtain ⟨c3, h5⟩ : ∃ c3, optionDefaults np22 a c2 = .ok c3 := by
    obtain ⟨b1, hb1⟩ := ok_or (np22 := np22) "DL/Options/LogFile" (readable _ hs (by decide +kernel))
    obtain ⟨b2, hb2⟩ := h.verbose
    obtain ⟨b3, hb3⟩ := ok_or (np22 := np22) "DL/Options/ListAllDamageStates" (readable _ hs (by decide +kernel))
    have s1 := same_if "DL/Options/LogFile" (text (str "pelicun_log.txt")) c2 b1
    have s2 := same_if "DL/Options/Verbose" (bool true) (if b1 = true then setPath "DL/Options/LogFile" (text (str "pelicun_log.txt")) c2 else c2) b2
    have s3 := same_if "DL/Options/ListAllDamageStates" (bool true) (if b2 = true then setPath "DL/Options/Verbose" (bool true)
      (if b1 = true then setPath "DL/Options/LogFile" (text (str "pelicun_log.txt")) c2 else c2) else
      (if b1 = true then setPath "DL/Options/LogFile" (text (str "pelicun_log.txt")) c2 else c2)) b3
    refine ⟨_, (optionDefaults_ok ..).2 ⟨b1, b2, b3, false, _, _, _, ?_, rfl, ?_, rfl, ?_, rfl, ?_, rfl⟩⟩
    · rw [k2.unspec np22 _ (by decide +kernel)]; exact hb1
    · rw [(k2.trans s1).unspec np22 _ (by decide +kernel)]; exact hb2
    · rw [(k2.trans (s1.trans s2)).unspec np22 _ (by decide +kernel)]; exact hb3
    · rw [(k2.trans (s1.trans (s2.trans s3))).unspec np22 _ (by decide +kernel)]; exact hdem
  have before := same_before h1 h2 h5
  obtain ⟨c5, h6⟩ : ∃ c5, stories np22 (legacyStep c3) = .ok c5 := by
    rcases readable (np22 := np22) "DL/Asset/NumberOfStories" hs (by decide +kernel) with hg | hm
    · obtain ⟨n, hn⟩ := h.stories hg
      refine ⟨_, (stories_ok ..).2 (.inr ⟨?_, n, ?_, rfl⟩)⟩
      · rw [before.unspec np22 _ (by decide +kernel)]; exact hg
      · rw [before.val _ (by decide +kernel)]; exact hn
    · refine ⟨_, (stories_ok ..).2 (.inl ⟨?_, rfl⟩)⟩
      rw [before.unspec np22 _ (by decide +kernel)]; exact hm
  have bc := same_before_collapse h1 h2 h5 h6
  have g7 : checkDrift np22 c5 = .ok () := by
    rw [checkDrift_ok, bc.unspec np22 _ (by decide +kernel), bc.unspec np22 _ (by decide +kernel)]
    rcases readable (np22 := np22) "DL/Demands/InferResidualDrift" hs (by decide +kernel) with hg | hm
    · refine .inr ⟨hg, ?_⟩
      have hl := given_look _ hg
      obtain ⟨x, hx⟩ := conforms_required inputSchema (.dict c) [str "DL", str "Demands", str "InferResidualDrift"] [str "method"] _ (str "method") hs rfl
        _ (by rw [← hl]; unfold look; congr 1) (by simp)
      have ht := conforms_at _ inputSchema .text (.dict c) x hs (by rfl) hx
      match x, ht with
      | .leaf (.atom (.str s)), _ =>
        rw [unspec_eq, val_eq, show pathKeys (str "DL/Demands/InferResidualDrift/method") =
          [str "DL", str "Demands", str "InferResidualDrift"] ++ [str "method"] by decide +kernel]
        unfold look
        rw [hx]; rfl
    · exact .inl hm
  obtain ⟨c', h8⟩ : ∃ c', collapse np22 c5 = .ok c' := by
    rcases readable (np22 := np22) "DL/Damage/CollapseFragility" hs (by decide +kernel) with hg | hm
    · obtain ⟨hmed, hth⟩ := h.collapse hg
      have hg5 : unspec np22 c5 "DL/Damage/CollapseFragility" = .ok false := by
        rw [bc.unspec np22 _ (by decide +kernel)]; exact hg
      rcases readable (np22 := np22) "DL/Damage/CollapseFragility/CapacityDistribution" hs (by decide +kernel) with hd | hd
      · refine ⟨c5, (collapse_ok ..).2 (.inr ⟨hg5, .inr ⟨?_, rfl⟩, ?_, ?_, ?_⟩)⟩
        · rw [bc.unspec np22 _ (by decide +kernel)]; exact hd
        · rw [bc.unspec np22 _ (by decide +kernel)]; exact hd
        · rw [bc.unspec np22 _ (by decide +kernel)]; exact hmed
        · rw [bc.unspec np22 _ (by decide +kernel)]; exact hth hd
      · refine ⟨_, (collapse_ok ..).2 (.inr ⟨hg5, .inl ⟨?_, ?_, rfl⟩, ?_, ?_, ?_⟩)⟩
        · rw [bc.unspec np22 _ (by decide +kernel)]; exact hd
        · rw [bc.val _ (by decide +kernel)]
          have ht := conforms_at _ inputSchema _ (.dict c) _ hs (show schemaAt inputSchema (pathKeys (str "DL/Damage/CollapseFragility")) = some _ from rfl)
            (given_look _ hg)
          cases hv : val c "DL/Damage/CollapseFragility" with
          | leaf l => rw [hv] at ht; simp [conforms] at ht
          | dict f => exact ⟨f, rfl⟩
        · rw [unspec_set_apart _ _ _ _ _ (by decide +kernel), unspec_eq, val_set_same]; rfl
        · rw [unspec_set_apart _ _ _ _ _ (by decide +kernel), unspec_set_apart _ _ _ _ _ (by decide +kernel),
            bc.unspec np22 _ (by decide +kernel)]; exact hmed
        · rw [unspec_eq, val_set_same]; rfl
    · refine ⟨c5, (collapse_ok ..).2 (.inl ⟨?_, rfl⟩)⟩
      rw [bc.unspec np22 _ (by decide +kernel)]; exact hm
  have hsame : SameOutside touched c c' := bc.trans (same_collapse h8)
  refine ⟨c', (finish_ok ..).2 ⟨c1, c2, c3, c5, h1, h2, g3, g4, h5, h6, g7, h8, ?_, ?_, ?_, ?_, ?_, ?_⟩⟩
  · rw [checkIrreparable_ok, hsame.unspec np22 _ (by decide +kernel), hsame.unspec np22 _ (by decide +kernel), hsame.unspec np22 _ (by decide +kernel)]
    rcases readable (np22 := np22) "DL/Damage/IrreparableDamage" hs (by decide +kernel) with hg | hm
    · exact .inr ⟨hg, h.irreparable hg⟩
    · exact .inl hm
  · rw [checkProcess_ok, hsame.val _ (by decide +kernel), hsame.unspec np22 _ (by decide +kernel)]
    exact h.process
  · rw [checkOutput_ok, asset_given g4 h5 h6 h8, (same_after h5 h6 h8).unspec np22 "DL/Outputs/Asset" (by decide +kernel), unspec_eq,
        out_entry_done k1 h2 o ho "Asset" "DL/Outputs/Asset" (by decide +kernel) (by decide +kernel)]
    obtain ⟨b, hb⟩ := out_readable hs hds o ho "Asset" (by intro s hs; cases hs; decide +kernel)
    rw [hb]; cases b <;> simp
  · rw [checkOutput_ok, damage_after h1 h2 h5 h6 h8, (same_after h5 h6 h8).unspec np22 "DL/Outputs/Damage" (by decide +kernel), unspec_eq,
        out_entry_done k1 h2 o ho "Damage" "DL/Outputs/Damage" (by decide +kernel) (by decide +kernel)]
    obtain ⟨b, hb⟩ := out_readable hs hds o ho "Damage" (by intro s hs; cases hs; decide +kernel)
    rw [hb]
    cases b
    · exact .inr ⟨rfl, h.damage o ho hb⟩
    · exact .inl rfl
  · rw [checkOutput_ok, losses_after h1 h2 h5 h6 h8, loss_outputs_after h5 h6 h8, unspec_eq,
        out_entry_done k1 h2 o ho "Loss" "DL/Outputs/Loss" (by decide +kernel) (by decide +kernel)]
    obtain ⟨b, hb⟩ := out_readable hs hds o ho "Loss" (by intro s hs; cases hs; decide +kernel)
    rw [hb]
    cases b
    · exact .inr ⟨rfl, h.losses o ho hb⟩
    · exact .inl rfl
  · rw [checkFiles_ok, asset_given g4 h5 h6 h8, hsame.val _ (by decide +kernel), hsame.val _ (by decide +kernel), h.noSampleFile]
    obtain ⟨s, hf⟩ := file_there hs h.asset
    rw [hf]
    refine .inr ⟨rfl, fun hh => ?_⟩
    have := hh.2 rfl
    cases this

/-! ## What is in the configuration -/

theorem kept_or {ca cb : Fields} {ps qs : List String} {b : Bool} (p : String) (v : Js) (h1 : SameOutside ps c ca)
    (hp : ∀ x ∈ ps, Apart (pathKeys (str x)) (pathKeys (str p))) (hb : unspec np22 ca p = .ok b) (hcb : cb = if b then setPath p v ca else ca)
    (h2 : SameOutside qs cb c') (hq : ∀ x ∈ qs, Apart (pathKeys (str x)) (pathKeys (str p))) : KeptOr np22 c c' p v := by
  rw [h1.unspec np22 p hp] at hb
  unfold KeptOr
  rw [given_iff, missing_iff, hb, h2.val p hq, hcb]
  constructor
  · intro hb; cases hb; exact h1.val p hp
  · intro hb; cases hb; exact val_set_same p v ca

end

end Verif.ToolConfig
