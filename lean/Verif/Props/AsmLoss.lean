import Verif.Model.AsmLoss
import Verif.Props.LossParams

/-! # C60, C61, C81: replacement consequences and loss maps of an assessment -/

namespace Verif.AsmLoss

open DmgParams (Cell Row)
open LossParams (LossMap Key Source PlainIds loadParams HasRow)

/-! ## C60 -/

theorem setCell_keys (t : Table) (k : Key) (c : Str × Str) (v : Option Cell) :
    (setCell t k c v).map (·.1) = t.map (·.1) := by
  unfold setCell
  rw [List.map_map]
  refine List.map_congr_left fun r _ => ?_
  by_cases h : r.1 = k
  · simp [h]
  · simp [h]

theorem setCell_mem_ne (t : Table) (k : Key) (c : Str × Str) (v : Option Cell) (k' : Key) (row : Row) (h : k' ≠ k)
    (hm : (k', row) ∈ t) : (k', row) ∈ setCell t k c v := by
  unfold setCell
  refine List.mem_map.mpr ⟨(k', row), hm, ?_⟩
  simp [h]

theorem setThree_mem_ne (t : Table) (k : Key) (u m : Option Cell) (k' : Key) (row : Row) (h : k' ≠ k)
    (hm : (k', row) ∈ t) : (k', row) ∈ setThree t k u m :=
  setCell_mem_ne _ _ _ _ _ _ h (setCell_mem_ne _ _ _ _ _ _ h (setCell_mem_ne _ _ _ _ _ _ h hm))

theorem setGiven_mem_ne (t : Table) (k : Key) (r : Repl) (m : ℚ) (k' : Key) (row : Row) (h : k' ≠ k)
    (hm : (k', row) ∈ t) : (k', row) ∈ setGiven t k r m := by
  unfold setGiven
  cases r.distribution with
  | none => exact setThree_mem_ne _ _ _ _ _ _ h hm
  | some d => exact setCell_mem_ne _ _ _ _ _ _ h (setCell_mem_ne _ _ _ _ _ _ h (setThree_mem_ne _ _ _ _ _ _ h hm))

theorem setThree_keys (t : Table) (k : Key) (u m : Option Cell) : (setThree t k u m).map (·.1) = t.map (·.1) := by
  simp [setThree, setCell_keys]

theorem setGiven_keys (t : Table) (k : Key) (r : Repl) (m : ℚ) : (setGiven t k r m).map (·.1) = t.map (·.1) := by
  unfold setGiven
  cases r.distribution <;> simp [setCell_keys, setThree_keys]

theorem addOptional_mem_ne (t : Table) (a dv u : Str) (r : Repl) (k' : Key) (row : Row) (h : k' ≠ (str "replacement", dv))
    (hm : (k', row) ∈ t) : (k', row) ∈ addOptional t a dv u r := by
  unfold addOptional
  cases r.median with
  | some m => exact setGiven_mem_ne _ _ _ _ _ _ h hm
  | none =>
    simp only
    by_cases ha : a = str "FEMA P-58"
    · rw [if_pos ha]; exact setThree_mem_ne _ _ _ _ _ _ h hm
    · rw [if_neg ha]; exact hm

theorem addOptional_keys (t : Table) (a dv u : Str) (r : Repl) : (addOptional t a dv u r).map (·.1) = t.map (·.1) := by
  unfold addOptional
  cases r.median with
  | some m => exact setGiven_keys _ _ _ _
  | none =>
    simp only
    by_cases ha : a = str "FEMA P-58"
    · rw [if_pos ha]; exact setThree_keys _ _ _ _
    · rw [if_neg ha]

theorem addCost_mem_ne (t : Table) (a : Str) (r : Repl) (k' : Key) (row : Row) (h : k' ≠ (str "replacement", str "Cost"))
    (hm : (k', row) ∈ t) : (k', row) ∈ addCost t a r := by
  unfold addCost
  cases r.median with
  | some m => exact setGiven_mem_ne _ _ _ _ _ _ h hm
  | none =>
    simp only
    by_cases ha : a = str "FEMA P-58"
    · rw [if_pos ha]; exact setThree_mem_ne _ _ _ _ _ _ h hm
    · rw [if_neg ha]; exact setThree_mem_ne _ _ _ _ _ _ h hm

theorem addCost_keys (t : Table) (a : Str) (r : Repl) : (addCost t a r).map (·.1) = t.map (·.1) := by
  unfold addCost
  cases r.median with
  | some m => exact setGiven_keys _ _ _ _
  | none =>
    simp only
    by_cases ha : a = str "FEMA P-58"
    · rw [if_pos ha]; exact setThree_keys _ _ _ _
    · rw [if_neg ha]; exact setThree_keys _ _ _ _

/-- Every outcome of `addTime` is one of the two ways to fill the row. -/
theorem addTime_cases (t : Table) (a : Str) (q : Table) (occ : Str) (r : Repl) (t' : Table) (h : addTime t a q occ r = .ok t') :
    (∃ m, t' = setGiven t (str "replacement", str "Time") r m) ∨ ∃ u m, t' = setThree t (str "replacement", str "Time") u m := by
  unfold addTime at h
  cases hm : r.median with
  | some m => simp only [hm, Except.ok.injEq] at h; exact Or.inl ⟨m, h.symm⟩
  | none =>
    simp only [hm] at h
    by_cases h1 : a = str "FEMA P-58"
    · rw [if_pos h1] at h; exact Or.inr ⟨_, _, (Except.ok.inj h).symm⟩
    · rw [if_neg h1] at h
      by_cases h2 : a = str "Hazus Earthquake - Buildings"
      · rw [if_pos h2] at h
        cases hl : lookupDs5 q (str "STR." ++ occ) with
        | error e => simp [hl] at h
        | ok v => rw [hl] at h; exact Or.inr ⟨_, _, (Except.ok.inj h).symm⟩
      · rw [if_neg h2] at h
        by_cases h3 : a = str "Hazus Earthquake - Lifeline Facilities"
        · rw [if_pos h3] at h
          cases hl : lookupDs5 q (str "LF." ++ occ) with
          | error e => simp [hl] at h
          | ok v => rw [hl] at h; exact Or.inr ⟨_, _, (Except.ok.inj h).symm⟩
        · rw [if_neg h3] at h; exact Or.inr ⟨_, _, (Except.ok.inj h).symm⟩

theorem addTime_mem_ne (t : Table) (a : Str) (q : Table) (occ : Str) (r : Repl) (t' : Table) (h : addTime t a q occ r = .ok t')
    (k' : Key) (row : Row) (hk : k' ≠ (str "replacement", str "Time")) (hm : (k', row) ∈ t) : (k', row) ∈ t' := by
  rcases addTime_cases _ _ _ _ _ _ h with ⟨m, rfl⟩ | ⟨u, m, rfl⟩
  · exact setGiven_mem_ne _ _ _ _ _ _ hk hm
  · exact setThree_mem_ne _ _ _ _ _ _ hk hm

theorem addTime_keys (t : Table) (a : Str) (q : Table) (occ : Str) (r : Repl) (t' : Table) (h : addTime t a q occ r = .ok t') :
    t'.map (·.1) = t.map (·.1) := by
  rcases addTime_cases _ _ _ _ _ _ h with ⟨m, rfl⟩ | ⟨u, m, rfl⟩
  · exact setGiven_keys _ _ _ _
  · exact setThree_keys _ _ _ _

theorem replacementTable_keys (conseq : Table) (c : Config) (t : Table) (h : replacementTable conseq c = .ok t) :
    t.map (·.1) = emptyTable.map (·.1) := by
  unfold replacementTable at h
  cases ht : addTime (addCost emptyTable c.approach c.cost) c.approach conseq c.occupancy c.time with
  | error e => simp [ht] at h
  | ok t1 =>
    rw [ht] at h
    simp only [Except.ok.injEq] at h
    rw [← h, addOptional_keys, addOptional_keys, addTime_keys _ _ _ _ _ _ ht, addCost_keys]

/-- The row of a decision variable that is not Cost or Time before the carbon and energy steps. -/
theorem empty_rows (conseq : Table) (c : Config) (t1 : Table)
    (ht : addTime (addCost emptyTable c.approach c.cost) c.approach conseq c.occupancy c.time = .ok t1) :
    ((str "replacement", str "Carbon"), fun _ => none) ∈ t1 ∧ ((str "replacement", str "Energy"), fun _ => none) ∈ t1 :=
  ⟨addTime_mem_ne _ _ _ _ _ _ ht _ _ (by decide) (addCost_mem_ne _ _ _ _ _ (by decide) (by simp [emptyTable])),
   addTime_mem_ne _ _ _ _ _ _ ht _ _ (by decide) (addCost_mem_ne _ _ _ _ _ (by decide) (by simp [emptyTable]))⟩

/-- **C60 does not hold.** With any approach other than FEMA P-58 and no replacement carbon (energy)
in the configuration the entry is not removed: the table has a row for it that contains no data. -/
theorem C60_entry_stays (conseq : Table) (c : Config) (t : Table) (h : replacementTable conseq c = .ok t)
    (ha : c.approach ≠ str "FEMA P-58") :
    (c.carbon.median = none → ((str "replacement", str "Carbon"), fun _ => none) ∈ t) ∧
    (c.energy.median = none → ((str "replacement", str "Energy"), fun _ => none) ∈ t) := by
  unfold replacementTable at h
  cases ht : addTime (addCost emptyTable c.approach c.cost) c.approach conseq c.occupancy c.time with
  | error e => simp [ht] at h
  | ok t1 =>
    rw [ht] at h
    simp only [Except.ok.injEq] at h
    obtain ⟨h1, h2⟩ := empty_rows conseq c t1 ht
    constructor
    · intro hc
      rw [← h]
      refine addOptional_mem_ne _ _ _ _ _ _ _ (by decide) ?_
      simpa [addOptional, hc, ha] using h1
    · intro he
      rw [← h]
      have := addOptional_mem_ne t1 c.approach (str "Carbon") (str "kg") c.carbon _ _ (by decide) h2
      generalize addOptional t1 c.approach (str "Carbon") (str "kg") c.carbon = t2 at this ⊢
      simpa [addOptional, he, ha] using this

/-- **C60 does not hold (effect).** The loss model takes the empty entry for a consequence definition:
if no other source defines replacement carbon it has parameters without any data, and the calculation
does not list it among the missing definitions. -/
theorem C60_empty_entry_is_loaded (conseq : Table) (c : Config) (t : Table) (h : replacementTable conseq c = .ok t)
    (ha : c.approach ≠ str "FEMA P-58") (hc : c.carbon.median = none)
    (sources : List Source) (cols : List (Str × Str)) (hds : (str "DS1", str "Theta_0") ∈ cols)
    (hother : ∀ s ∈ sources, (str "replacement", str "Carbon") ∉ s.rows.map (·.1))
    (m : LossMap) (dvs : List Str) (p : LossParams.Params) (missing : List Key)
    (hl : loadParams (sources ++ [⟨cols, t⟩]) m dvs = .ok (p, missing)) (hm : ∃ x, (x, str "replacement") ∈ m) :
    HasRow p.ds (str "replacement", str "Carbon") (fun _ => none) ∧ (str "replacement", str "Carbon") ∉ missing := by
  have hrow := (C60_entry_stays conseq c t h ha).1 hc
  have hnd : (t.map (·.1)).Nodup := by rw [replacementTable_keys _ _ _ h]; decide
  have huniq : ∀ r, ((str "replacement", str "Carbon"), r) ∈ t → r = fun _ => none := by
    intro r hr
    have := List.inj_on_of_nodup_map hnd hr hrow rfl
    simpa using this
  have htab : LossParams.dsTables (sources ++ [⟨cols, t⟩]) = LossParams.dsTables sources ++ [t] := by
    have hd : (cols.any fun c => c.1 == str "DS1") = true := by
      rw [List.any_eq_true]
      exact ⟨_, hds, by simp⟩
    simp [LossParams.dsTables, List.filter_append, hd]
  have hcell := (LossParams.C50_cellwise _ _ _ _ _ hl (str "replacement", str "Carbon") (fun _ => none)).1
  have hHas : HasRow p.ds (str "replacement", str "Carbon") (fun _ => none) := by
    refine hcell.mpr ⟨hm, ⟨⟨t, by rw [htab]; simp, _, hrow⟩, fun c x => ?_⟩, by simp⟩
    constructor
    · intro hx; simp at hx
    · rintro ⟨before, row, after, h1, h2, _⟩
      exfalso
      have hin : ((str "replacement", str "Carbon"), row) ∈ (LossParams.dsTables (sources ++ [⟨cols, t⟩])).flatten := by
        rw [h1]; simp
      rw [htab, List.flatten_append, List.mem_append] at hin
      rcases hin with hin | hin
      · obtain ⟨tab, ht, hin⟩ := List.mem_flatten.mp hin
        obtain ⟨s, hs, rfl⟩ := List.mem_map.mp ht
        exact hother s (List.mem_filter.mp hs).1 (List.mem_map.mpr ⟨_, hin, rfl⟩)
      · have := huniq row (by simpa using hin)
        rw [this] at h2
        simp at h2
  refine ⟨hHas, fun hmiss => ?_⟩
  have := ((LossParams.C57_missing_exact _ _ _ _ _ hl).2 _ _).mp hmiss
  exact this.2.2.1 _ hHas

/-- What a consequence table says about one consequence. -/
def Says (t : Table) (k : Key) (c : Str × Str) (v : Option Cell) : Prop := ∃ row, (k, row) ∈ t ∧ row c = v

theorem says_setCell (t : Table) (k : Key) (c c' : Str × Str) (v w : Option Cell) (h : Says t k c' w) :
    Says (setCell t k c v) k c' (if c' = c then v else w) := by
  obtain ⟨row, hr, hw⟩ := h
  refine ⟨fun x => if x = c then v else row x, List.mem_map.mpr ⟨(k, row), hr, by simp⟩, ?_⟩
  simp only [hw]

theorem says_of_key (t : Table) (k : Key) (h : k ∈ t.map (·.1)) (c : Str × Str) : ∃ w, Says t k c w := by
  obtain ⟨r, hr, rfl⟩ := List.mem_map.mp h
  exact ⟨r.2 c, r.2, hr, rfl⟩

theorem says_setThree (t : Table) (k : Key) (u m : Option Cell) (h : k ∈ t.map (·.1)) :
    Says (setThree t k u m) k cQuantityUnit (some (.text (str "1 EA"))) ∧ Says (setThree t k u m) k cDvUnit u ∧
    Says (setThree t k u m) k cTheta0 m := by
  unfold setThree
  refine ⟨?_, ?_, ?_⟩
  · obtain ⟨w, hw⟩ := says_of_key t k h cQuantityUnit
    have := says_setCell _ k cTheta0 _ m _ (says_setCell _ k cDvUnit _ u _ (says_setCell t k cQuantityUnit _ (some (.text (str "1 EA"))) _ hw))
    exact this
  · obtain ⟨w, hw⟩ := says_of_key t k h cDvUnit
    have := says_setCell _ k cTheta0 _ m _ (says_setCell _ k cDvUnit _ u _ (says_setCell t k cQuantityUnit _ (some (.text (str "1 EA"))) _ hw))
    exact this
  · obtain ⟨w, hw⟩ := says_of_key t k h cTheta0
    have := says_setCell _ k cTheta0 _ m _ (says_setCell _ k cDvUnit _ u _ (says_setCell t k cQuantityUnit _ (some (.text (str "1 EA"))) _ hw))
    exact this

/-- What the configuration says about the replacement consequence of one decision variable: the
median, the unit and, if there is a distribution, its family and parameter. -/
def Configured (t : Table) (dv : Str) (r : Repl) (m : ℚ) : Prop :=
  Says t (str "replacement", dv) (str "Quantity", str "Unit") (some (.text (str "1 EA"))) ∧
  Says t (str "replacement", dv) (str "DV", str "Unit") (r.unit.map .text) ∧
  Says t (str "replacement", dv) (str "DS1", str "Theta_0") (some (.num m)) ∧
  ∀ d, r.distribution = some d → Says t (str "replacement", dv) (str "DS1", str "Family") (some (.text d)) ∧
    Says t (str "replacement", dv) (str "DS1", str "Theta_1") (r.theta1.map .num)

/-- A default for a decision variable that is not configured. -/
def Default (t : Table) (dv unit : Str) (m : ℚ) : Prop :=
  Says t (str "replacement", dv) (str "Quantity", str "Unit") (some (.text (str "1 EA"))) ∧
  Says t (str "replacement", dv) (str "DV", str "Unit") (some (.text unit)) ∧
  Says t (str "replacement", dv) (str "DS1", str "Theta_0") (some (.num m))

theorem configured_setGiven (t : Table) (dv : Str) (r : Repl) (m : ℚ) (h : (str "replacement", dv) ∈ t.map (·.1)) :
    Configured (setGiven t (str "replacement", dv) r m) dv r m := by
  obtain ⟨h1, h2, h3⟩ := says_setThree t (str "replacement", dv) (r.unit.map .text) (some (.num m)) h
  unfold setGiven
  cases hd : r.distribution with
  | none => exact ⟨h1, h2, h3, by simp [hd]⟩
  | some d =>
    have step : ∀ c w, Says (setThree t (str "replacement", dv) (r.unit.map .text) (some (.num m))) (str "replacement", dv) c w →
        Says (setCell (setCell (setThree t (str "replacement", dv) (r.unit.map .text) (some (.num m))) (str "replacement", dv) cFamily (some (.text d)))
          (str "replacement", dv) cTheta1 (r.theta1.map .num)) (str "replacement", dv) c
          (if c = cTheta1 then r.theta1.map .num else if c = cFamily then some (.text d) else w) := by
      intro c w hw
      exact says_setCell _ _ _ _ _ _ (says_setCell _ _ _ _ _ _ hw)
    have hkey : (str "replacement", dv) ∈ (setThree t (str "replacement", dv) (r.unit.map .text) (some (.num m))).map (·.1) := by
      rw [setThree_keys]; exact h
    refine ⟨step _ _ h1, step _ _ h2, step _ _ h3, ?_⟩
    intro d' hd'
    rw [hd] at hd'
    obtain rfl := Option.some.inj hd'
    obtain ⟨w, hw⟩ := says_of_key _ _ hkey cFamily
    obtain ⟨w', hw'⟩ := says_of_key _ _ hkey cTheta1
    exact ⟨step _ _ hw, step _ _ hw'⟩

theorem says_mono (t t' : Table) (k : Key) (h : ∀ row, (k, row) ∈ t → (k, row) ∈ t') (c : Str × Str) (v : Option Cell)
    (hs : Says t k c v) : Says t' k c v := by
  obtain ⟨row, h1, h2⟩ := hs
  exact ⟨row, h row h1, h2⟩

theorem configured_mono (t t' : Table) (dv : Str) (r : Repl) (m : ℚ)
    (h : ∀ row, ((str "replacement", dv), row) ∈ t → ((str "replacement", dv), row) ∈ t') (hc : Configured t dv r m) :
    Configured t' dv r m := by
  obtain ⟨h1, h2, h3, h4⟩ := hc
  refine ⟨says_mono _ _ _ h _ _ h1, says_mono _ _ _ h _ _ h2, says_mono _ _ _ h _ _ h3, fun d hd => ?_⟩
  obtain ⟨h5, h6⟩ := h4 d hd
  exact ⟨says_mono _ _ _ h _ _ h5, says_mono _ _ _ h _ _ h6⟩

theorem default_mono (t t' : Table) (dv u : Str) (m : ℚ)
    (h : ∀ row, ((str "replacement", dv), row) ∈ t → ((str "replacement", dv), row) ∈ t') (hc : Default t dv u m) :
    Default t' dv u m := by
  obtain ⟨h1, h2, h3⟩ := hc
  exact ⟨says_mono _ _ _ h _ _ h1, says_mono _ _ _ h _ _ h2, says_mono _ _ _ h _ _ h3⟩

/-- **C60, what does hold.** The table has exactly one row for each of the four decision variables;
a configured replacement consequence has the configured values; with the FEMA P-58 approach one that
is not configured is zero; with other approaches cost and (outside the Hazus earthquake approaches)
time are one, as a loss ratio.  Missing: the removal of the entries for carbon and energy. -/
theorem C60_values_partial (conseq : Table) (c : Config) (t : Table) (h : replacementTable conseq c = .ok t) :
    t.map (·.1) = [(str "replacement", str "Cost"), (str "replacement", str "Time"),
      (str "replacement", str "Carbon"), (str "replacement", str "Energy")] ∧
    (∀ m, c.cost.median = some m → Configured t (str "Cost") c.cost m) ∧
    (∀ m, c.time.median = some m → Configured t (str "Time") c.time m) ∧
    (∀ m, c.carbon.median = some m → Configured t (str "Carbon") c.carbon m) ∧
    (∀ m, c.energy.median = some m → Configured t (str "Energy") c.energy m) ∧
    (c.approach = str "FEMA P-58" →
      (c.cost.median = none → Default t (str "Cost") (str "USD_2011") 0) ∧
      (c.time.median = none → Default t (str "Time") (str "worker_day") 0) ∧
      (c.carbon.median = none → Default t (str "Carbon") (str "kg") 0) ∧
      (c.energy.median = none → Default t (str "Energy") (str "MJ") 0)) ∧
    (c.approach ≠ str "FEMA P-58" → c.cost.median = none → Default t (str "Cost") (str "loss_ratio") 1) ∧
    (c.approach ≠ str "FEMA P-58" → c.approach ≠ str "Hazus Earthquake - Buildings" →
      c.approach ≠ str "Hazus Earthquake - Lifeline Facilities" → c.time.median = none →
      Default t (str "Time") (str "loss_ratio") 1) := by
  have hkeys := replacementTable_keys _ _ _ h
  unfold replacementTable at h
  cases ht : addTime (addCost emptyTable c.approach c.cost) c.approach conseq c.occupancy c.time with
  | error e => simp [ht] at h
  | ok t1 =>
    rw [ht] at h
    simp only [Except.ok.injEq] at h
    have ck : ∀ t : Table, t.map (·.1) = emptyTable.map (·.1) → ∀ k ∈ emptyTable.map (·.1), k ∈ t.map (·.1) := by
      intro t e k hk; rw [e]; exact hk
    have e0 : (addCost emptyTable c.approach c.cost).map (·.1) = emptyTable.map (·.1) := addCost_keys _ _ _
    have e1 : t1.map (·.1) = emptyTable.map (·.1) := by rw [addTime_keys _ _ _ _ _ _ ht, e0]
    have e2 : (addOptional t1 c.approach (str "Carbon") (str "kg") c.carbon).map (·.1) = emptyTable.map (·.1) := by
      rw [addOptional_keys, e1]
    have mCost : ∀ row, ((str "replacement", str "Cost"), row) ∈ addCost emptyTable c.approach c.cost →
        ((str "replacement", str "Cost"), row) ∈ t := by
      intro row hr
      rw [← h]
      exact addOptional_mem_ne _ _ _ _ _ _ _ (by decide) (addOptional_mem_ne _ _ _ _ _ _ _ (by decide)
        (addTime_mem_ne _ _ _ _ _ _ ht _ _ (by decide) hr))
    have mTime : ∀ row, ((str "replacement", str "Time"), row) ∈ t1 → ((str "replacement", str "Time"), row) ∈ t := by
      intro row hr
      rw [← h]
      exact addOptional_mem_ne _ _ _ _ _ _ _ (by decide) (addOptional_mem_ne _ _ _ _ _ _ _ (by decide) hr)
    have mCarbon : ∀ row, ((str "replacement", str "Carbon"), row) ∈ addOptional t1 c.approach (str "Carbon") (str "kg") c.carbon →
        ((str "replacement", str "Carbon"), row) ∈ t := by
      intro row hr
      rw [← h]
      exact addOptional_mem_ne _ _ _ _ _ _ _ (by decide) hr
    refine ⟨hkeys, ?_, ?_, ?_, ?_, ?_, ?_, ?_⟩
    · intro m hm
      refine configured_mono _ _ _ _ _ mCost ?_
      simp only [addCost, hm]
      exact configured_setGiven _ _ _ _ (by decide)
    · intro m hm
      refine configured_mono _ _ _ _ _ mTime ?_
      simp only [addTime, hm, Except.ok.injEq] at ht
      rw [← ht]
      exact configured_setGiven _ _ _ _ (ck _ e0 _ (by decide))
    · intro m hm
      refine configured_mono _ _ _ _ _ mCarbon ?_
      simp only [addOptional, hm]
      exact configured_setGiven _ _ _ _ (ck _ e1 _ (by decide))
    · intro m hm
      rw [← h]
      generalize addOptional t1 c.approach (str "Carbon") (str "kg") c.carbon = t2 at e2
      simp only [addOptional, hm]
      exact configured_setGiven _ _ _ _ (ck _ e2 _ (by decide))
    · intro ha
      refine ⟨fun hm => ?_, fun hm => ?_, fun hm => ?_, fun hm => ?_⟩
      · refine default_mono _ _ _ _ _ mCost ?_
        simp only [addCost, hm, ha, if_true]
        exact says_setThree _ _ _ _ (by decide)
      · refine default_mono _ _ _ _ _ mTime ?_
        simp only [addTime, hm, ha, if_true, Except.ok.injEq] at ht
        rw [← ht]
        refine says_setThree _ _ _ _ (ck _ ?_ _ (by decide))
        rw [← ha]; exact e0
      · refine default_mono _ _ _ _ _ mCarbon ?_
        simp only [addOptional, hm, ha, if_true]
        exact says_setThree _ _ _ _ (ck _ e1 _ (by decide))
      · rw [← h]
        generalize addOptional t1 c.approach (str "Carbon") (str "kg") c.carbon = t2 at e2
        simp only [addOptional, hm, ha, if_true]
        exact says_setThree _ _ _ _ (ck _ e2 _ (by decide))
    · intro ha hm
      refine default_mono _ _ _ _ _ mCost ?_
      simp only [addCost, hm, if_neg ha]
      exact says_setThree _ _ _ _ (by decide)
    · intro ha hb hl hm
      refine default_mono _ _ _ _ _ mTime ?_
      simp only [addTime, hm, if_neg ha, if_neg hb, if_neg hl, Except.ok.injEq] at ht
      rw [← ht]
      exact says_setThree _ _ _ _ (ck _ e0 _ (by decide))

/-- Not vacuous: a Hazus hurricane assessment with a configured cost only. -/
example : ∃ t, replacementTable [] ⟨str "Hazus Hurricane", str "RES1", ⟨some (str "USD_2011"), some 5, some (str "lognormal"), some (2/5)⟩,
    ⟨none, none, none, none⟩, ⟨none, none, none, none⟩, ⟨none, none, none, none⟩⟩ = .ok t := ⟨_, rfl⟩

/-- A row of the table of replacement consequences. -/
def row (unit median family theta1 : Option Cell) : Row := fun c =>
  if c = (str "Quantity", str "Unit") then some (.text (str "1 EA"))
  else if c = (str "DV", str "Unit") then unit
  else if c = (str "DS1", str "Theta_0") then median
  else if c = (str "DS1", str "Family") then family
  else if c = (str "DS1", str "Theta_1") then theta1
  else none

/-- The row for the values in the configuration: without a distribution the second parameter is not used. -/
def givenRow (r : Repl) (m : ℚ) : Row :=
  row (r.unit.map .text) (some (.num m)) (r.distribution.map .text)
    (match r.distribution with | none => none | some _ => r.theta1.map .num)

/-- The row for the cost. -/
def CostRow (c : Config) (x : Row) : Prop :=
  (∃ m, c.cost.median = some m ∧ x = givenRow c.cost m) ∨
  (c.cost.median = none ∧ c.approach = str "FEMA P-58" ∧ x = row (some (.text (str "USD_2011"))) (some (.num 0)) none none) ∨
  (c.cost.median = none ∧ c.approach ≠ str "FEMA P-58" ∧ x = row (some (.text (str "loss_ratio"))) (some (.num 1)) none none)

/-- The table has exactly one row for the consequence, this one. -/
def OnlyRow (t : Table) (k : Key) (d : Row) : Prop :=
  ∃ before after, t = before ++ (k, d) :: after ∧ ∀ r ∈ before ++ after, r.1 ≠ k

theorem onlyRow_iff (t : Table) (k : Key) (d : Row) :
    OnlyRow t k d ↔ (t.filter fun r => decide (r.1 = k)) = [(k, d)] := by
  unfold OnlyRow
  constructor
  · rintro ⟨b, a, rfl, h⟩
    have h1 : (b.filter fun r => decide (r.1 = k)) = [] := List.filter_eq_nil_iff.2 fun r hr => by simp [h r (by simp [hr])]
    have h2 : (a.filter fun r => decide (r.1 = k)) = [] := List.filter_eq_nil_iff.2 fun r hr => by simp [h r (by simp [hr])]
    rw [List.filter_append, h1, List.filter_cons_of_pos (by simp), h2]
    rfl
  · intro h
    induction t with
    | nil => simp at h
    | cons x t ih =>
      by_cases hx : x.1 = k
      · rw [List.filter_cons_of_pos (by simp [hx])] at h
        simp only [List.cons.injEq] at h
        refine ⟨[], t, by rw [h.1]; rfl, fun r hr => ?_⟩
        have := List.filter_eq_nil_iff.1 h.2 r (by simpa using hr)
        simpa using this
      · rw [List.filter_cons_of_neg (by simp [hx])] at h
        obtain ⟨b, a, rfl, h2⟩ := ih h
        refine ⟨x :: b, a, rfl, fun r hr => ?_⟩
        rcases List.mem_cons.1 hr with rfl | hr
        · exact hx
        · exact h2 r hr

theorem lookupDs5_ok (t : Table) (id : Str) (v : Option Cell) :
    lookupDs5 t id = .ok v ↔ ∃ d, OnlyRow t (id, str "Time") d ∧ v = d (str "DS5", str "Theta_0") := by
  simp only [onlyRow_iff]
  unfold lookupDs5
  have hall : ∀ r ∈ t.filter (fun r => decide (r.1 = (id, str "Time"))), r.1 = (id, str "Time") := by
    intro r hr
    simpa using (List.mem_filter.1 hr).2
  cases hf : t.filter (fun r => decide (r.1 = (id, str "Time"))) with
  | nil => simp
  | cons r l =>
    rw [hf] at hall
    have hr := hall r (by simp)
    obtain ⟨k, d⟩ := r
    cases l with
    | cons => simp
    | nil =>
      simp only at hr
      subst hr
      simp [eq_comm]

/-- The row for the time; the Hazus approaches use the time of the last damage state of the structure
(the facility) in the databases, which must have exactly one row for it. -/
def TimeRow (conseq : Table) (c : Config) (x : Row) : Prop :=
  (∃ m, c.time.median = some m ∧ x = givenRow c.time m) ∨
  (c.time.median = none ∧
    ((c.approach = str "FEMA P-58" ∧ x = row (some (.text (str "worker_day"))) (some (.num 0)) none none) ∨
     (c.approach = str "Hazus Earthquake - Buildings" ∧ ∃ d, OnlyRow conseq (str "STR." ++ c.occupancy, str "Time") d ∧
        x = row (some (.text (str "day"))) (d (str "DS5", str "Theta_0")) none none) ∨
     (c.approach = str "Hazus Earthquake - Lifeline Facilities" ∧ ∃ d, OnlyRow conseq (str "LF." ++ c.occupancy, str "Time") d ∧
        x = row (some (.text (str "day"))) (d (str "DS5", str "Theta_0")) none none) ∨
     (c.approach ∉ [str "FEMA P-58", str "Hazus Earthquake - Buildings", str "Hazus Earthquake - Lifeline Facilities"] ∧
        x = row (some (.text (str "loss_ratio"))) (some (.num 1)) none none)))

/-- The row for carbon or energy. -/
def OptionalRow (approach unit : Str) (r : Repl) (x : Row) : Prop :=
  (∃ m, r.median = some m ∧ x = givenRow r m) ∨
  (r.median = none ∧ approach = str "FEMA P-58" ∧ x = row (some (.text unit)) (some (.num 0)) none none) ∨
  (r.median = none ∧ approach ≠ str "FEMA P-58" ∧ x = fun _ => none)

theorem setThree_row (u m : Option Cell) :
    (fun c => if c = cTheta0 then m else if c = cDvUnit then u else if c = cQuantityUnit then some (.text (str "1 EA")) else none : Row) = row u m none none := by
  funext c
  unfold row cTheta0 cDvUnit cQuantityUnit
  by_cases h1 : c = (str "Quantity", str "Unit")
  · subst h1; rfl
  · by_cases h2 : c = (str "DV", str "Unit")
    · subst h2; rfl
    · by_cases h3 : c = (str "DS1", str "Theta_0")
      · subst h3; rfl
      · simp [h1, h2, h3]

theorem setGiven_row (u m f t : Option Cell) :
    (fun c => if c = cTheta1 then t else if c = cFamily then f else row u m none none c : Row) = row u m f t := by
  funext c
  unfold cTheta1 cFamily
  by_cases h4 : c = (str "DS1", str "Family")
  · subst h4; rfl
  · by_cases h5 : c = (str "DS1", str "Theta_1")
    · subst h5; rfl
    · simp [row, h4, h5]

theorem setCell_cons (k k' : Key) (x : Row) (t : Table) (c : Str × Str) (v : Option Cell) :
    setCell ((k', x) :: t) k c v = (if k' = k then (k', fun c' => if c' = c then v else x c') else (k', x)) :: setCell t k c v := rfl

theorem setCell_none (k : Key) (t : Table) (c : Str × Str) (v : Option Cell) (h : ∀ r ∈ t, r.1 ≠ k) : setCell t k c v = t := by
  unfold setCell
  conv_rhs => rw [← List.map_id t]
  exact List.map_congr_left fun r hr => by rw [if_neg (h r hr)]; rfl

theorem setCell_append (k : Key) (s t : Table) (c : Str × Str) (v : Option Cell) :
    setCell (s ++ t) k c v = setCell s k c v ++ setCell t k c v := by simp [setCell]

theorem setCell_at (k : Key) (x : Row) (s t : Table) (hs : ∀ r ∈ s, r.1 ≠ k) (ht : ∀ r ∈ t, r.1 ≠ k) (c : Str × Str) (v : Option Cell) :
    setCell (s ++ (k, x) :: t) k c v = s ++ (k, fun c' => if c' = c then v else x c') :: t := by
  rw [setCell_append, setCell_none k s c v hs, setCell_cons, if_pos rfl, setCell_none k t c v ht]

theorem setThree_at (k : Key) (s t : Table) (hs : ∀ r ∈ s, r.1 ≠ k) (ht : ∀ r ∈ t, r.1 ≠ k) (u m : Option Cell) :
    setThree (s ++ (k, fun _ => none) :: t) k u m = s ++ (k, row u m none none) :: t := by
  unfold setThree
  rw [setCell_at k _ s t hs ht, setCell_at k _ s t hs ht, setCell_at k _ s t hs ht, setThree_row]

theorem setGiven_at (k : Key) (s t : Table) (hs : ∀ r ∈ s, r.1 ≠ k) (ht : ∀ r ∈ t, r.1 ≠ k) (r : Repl) (m : ℚ) :
    setGiven (s ++ (k, fun _ => none) :: t) k r m = s ++ (k, givenRow r m) :: t := by
  unfold setGiven givenRow
  rw [setThree_at k s t hs ht]
  cases r.distribution with
  | none => rfl
  | some d =>
    simp only
    rw [setCell_at k _ s t hs ht, setCell_at k _ s t hs ht, setGiven_row]
    rfl

theorem addOptional_at (dv unit approach : Str) (s t : Table) (hs : ∀ r ∈ s, r.1 ≠ (str "replacement", dv)) (ht : ∀ r ∈ t, r.1 ≠ (str "replacement", dv))
    (r : Repl) : ∃ x, OptionalRow approach unit r x ∧
    addOptional (s ++ ((str "replacement", dv), fun _ => none) :: t) approach dv unit r = s ++ ((str "replacement", dv), x) :: t := by
  unfold addOptional
  cases hm : r.median with
  | some m => exact ⟨_, Or.inl ⟨m, hm, rfl⟩, setGiven_at _ _ _ hs ht r m⟩
  | none =>
    by_cases ha : approach = str "FEMA P-58"
    · simp only [if_pos ha]
      exact ⟨_, Or.inr (Or.inl ⟨hm, ha, rfl⟩), setThree_at _ _ _ hs ht _ _⟩
    · simp only [if_neg ha]
      exact ⟨_, Or.inr (Or.inr ⟨hm, ha, rfl⟩), rfl⟩

theorem optionalRow_unique {approach unit : Str} {r : Repl} {x y : Row} (hx : OptionalRow approach unit r x) (hy : OptionalRow approach unit r y) : x = y := by
  rcases hx with ⟨m, h1, rfl⟩ | ⟨h1, h2, rfl⟩ | ⟨h1, h2, rfl⟩ <;> rcases hy with ⟨m', h1', rfl⟩ | ⟨h1', h2', rfl⟩ | ⟨h1', h2', rfl⟩ <;> simp_all

theorem costRow_unique {c : Config} {x y : Row} (hx : CostRow c x) (hy : CostRow c y) : x = y := by
  rcases hx with ⟨m, h1, rfl⟩ | ⟨h1, h2, rfl⟩ | ⟨h1, h2, rfl⟩ <;> rcases hy with ⟨m', h1', rfl⟩ | ⟨h1', h2', rfl⟩ | ⟨h1', h2', rfl⟩ <;> simp_all

theorem addCost_at (c : Config) (t : Table) (ht : ∀ r ∈ t, r.1 ≠ (str "replacement", str "Cost")) :
    ∃ x, CostRow c x ∧ addCost (((str "replacement", str "Cost"), fun _ => none) :: t) c.approach c.cost = ((str "replacement", str "Cost"), x) :: t := by
  unfold addCost
  have hs : ∀ r ∈ ([] : Table), r.1 ≠ (str "replacement", str "Cost") := by simp
  cases hm : c.cost.median with
  | some m => exact ⟨_, Or.inl ⟨m, hm, rfl⟩, setGiven_at _ [] t hs ht c.cost m⟩
  | none =>
    by_cases ha : c.approach = str "FEMA P-58"
    · simp only [if_pos ha]
      exact ⟨_, Or.inr (Or.inl ⟨hm, ha, rfl⟩), setThree_at _ [] t hs ht _ _⟩
    · simp only [if_neg ha]
      exact ⟨_, Or.inr (Or.inr ⟨hm, ha, rfl⟩), setThree_at _ [] t hs ht _ _⟩

theorem addTime_at (conseq : Table) (c : Config) (s t : Table) (hs : ∀ r ∈ s, r.1 ≠ (str "replacement", str "Time"))
    (ht : ∀ r ∈ t, r.1 ≠ (str "replacement", str "Time")) (t' : Table) :
    addTime (s ++ ((str "replacement", str "Time"), fun _ => none) :: t) c.approach conseq c.occupancy c.time = .ok t' ↔
      ∃ x, TimeRow conseq c x ∧ t' = s ++ ((str "replacement", str "Time"), x) :: t := by
  have d1 : str "Hazus Earthquake - Buildings" ≠ str "FEMA P-58" := by decide
  have d2 : str "Hazus Earthquake - Lifeline Facilities" ≠ str "FEMA P-58" := by decide
  have d3 : str "Hazus Earthquake - Lifeline Facilities" ≠ str "Hazus Earthquake - Buildings" := by decide
  unfold addTime TimeRow
  cases hm : c.time.median with
  | some m =>
    simp only [setGiven_at _ s t hs ht, Except.ok.injEq]
    constructor
    · intro h; exact ⟨_, Or.inl ⟨m, rfl, rfl⟩, h.symm⟩
    · rintro ⟨x, ⟨m', h1, rfl⟩ | ⟨h1, _⟩, rfl⟩
      · simp at h1; rw [h1]
      · simp at h1
  | none =>
    simp only [setThree_at _ s t hs ht, reduceCtorEq, false_and, exists_false, false_or, true_and]
    by_cases h1 : c.approach = str "FEMA P-58"
    · simp [h1, d1.symm, d2.symm, eq_comm]
    · by_cases h2 : c.approach = str "Hazus Earthquake - Buildings"
      · have hl := lookupDs5_ok conseq (str "STR." ++ c.occupancy)
        cases hd : lookupDs5 conseq (str "STR." ++ c.occupancy) with
        | error e =>
          rw [hd] at hl
          simp only [h2, d1, d3.symm, hd]
          simp only [reduceCtorEq, false_iff, not_exists, not_and] at hl
          simp
          intro x h _
          exact absurd rfl (hl _ x h)
        | ok v =>
          rw [hd] at hl
          obtain ⟨d, g1, g2⟩ := (hl v).1 rfl
          have huniq : ∀ d', OnlyRow conseq (str "STR." ++ c.occupancy, str "Time") d' → d' (str "DS5", str "Theta_0") = v := by
            intro d' g
            have := (hl _).2 ⟨d', g, rfl⟩
            exact (Except.ok.inj this).symm
          simp only [h2, d1, d3.symm, hd]
          simp
          constructor
          · rintro rfl
            exact ⟨d, g1, by rw [g2]⟩
          · rintro ⟨d', g, rfl⟩
            rw [huniq d' g]
      · by_cases h3 : c.approach = str "Hazus Earthquake - Lifeline Facilities"
        · have hl := lookupDs5_ok conseq (str "LF." ++ c.occupancy)
          cases hd : lookupDs5 conseq (str "LF." ++ c.occupancy) with
          | error e =>
            rw [hd] at hl
            simp only [h3, d2, d3, hd]
            simp only [reduceCtorEq, false_iff, not_exists, not_and] at hl
            simp
            intro x h _
            exact absurd rfl (hl _ x h)
          | ok v =>
            rw [hd] at hl
            obtain ⟨d, g1, g2⟩ := (hl v).1 rfl
            have huniq : ∀ d', OnlyRow conseq (str "LF." ++ c.occupancy, str "Time") d' → d' (str "DS5", str "Theta_0") = v := by
              intro d' g
              have := (hl _).2 ⟨d', g, rfl⟩
              exact (Except.ok.inj this).symm
            simp only [h3, d2, d3, hd]
            simp
            constructor
            · rintro rfl
              exact ⟨d, g1, by rw [g2]⟩
            · rintro ⟨d', g, rfl⟩
              rw [huniq d' g]
        · simp [h1, h2, h3, eq_comm]

/-- **C60, in full.** The table of replacement consequences is this one and no other; it cannot be made
exactly if no time is configured and the databases have no time, or more than one, for the structure (the facility).  The rows
without data for carbon and energy are those that should have been removed. -/
theorem C60_exact_partial (conseq : Table) (c : Config) (t : Table) : replacementTable conseq c = .ok t ↔
    ∃ cost time carbon energy, CostRow c cost ∧ TimeRow conseq c time ∧ OptionalRow c.approach (str "kg") c.carbon carbon ∧
      OptionalRow c.approach (str "MJ") c.energy energy ∧
      t = [((str "replacement", str "Cost"), cost), ((str "replacement", str "Time"), time),
        ((str "replacement", str "Carbon"), carbon), ((str "replacement", str "Energy"), energy)] := by
  unfold replacementTable emptyTable
  obtain ⟨cost, hcost, e1⟩ := addCost_at c [((str "replacement", str "Time"), fun _ => none), ((str "replacement", str "Carbon"), fun _ => none),
    ((str "replacement", str "Energy"), fun _ => none)] (by decide +revert)
  rw [e1]
  have htime := addTime_at conseq c [((str "replacement", str "Cost"), cost)] [((str "replacement", str "Carbon"), fun _ => none),
    ((str "replacement", str "Energy"), fun _ => none)] (by simp; decide) (by simp; decide)
  have hopt : ∀ time, ∃ carbon energy, OptionalRow c.approach (str "kg") c.carbon carbon ∧ OptionalRow c.approach (str "MJ") c.energy energy ∧
      addOptional (addOptional [((str "replacement", str "Cost"), cost), ((str "replacement", str "Time"), time),
        ((str "replacement", str "Carbon"), fun _ => none), ((str "replacement", str "Energy"), fun _ => none)] c.approach (str "Carbon") (str "kg") c.carbon)
        c.approach (str "Energy") (str "MJ") c.energy = [((str "replacement", str "Cost"), cost), ((str "replacement", str "Time"), time),
        ((str "replacement", str "Carbon"), carbon), ((str "replacement", str "Energy"), energy)] := by
    intro time
    obtain ⟨carbon, h1, e2⟩ := addOptional_at (str "Carbon") (str "kg") c.approach [((str "replacement", str "Cost"), cost), ((str "replacement", str "Time"), time)]
      [((str "replacement", str "Energy"), fun _ => none)] (by simp; decide) (by simp; decide) c.carbon
    obtain ⟨energy, h2, e3⟩ := addOptional_at (str "Energy") (str "MJ") c.approach [((str "replacement", str "Cost"), cost), ((str "replacement", str "Time"), time),
      ((str "replacement", str "Carbon"), carbon)] [] (by simp; decide) (by simp) c.energy
    refine ⟨carbon, energy, h1, h2, ?_⟩
    simp only [List.cons_append, List.nil_append] at e2 e3
    rw [e2, e3]
  simp only [List.cons_append, List.nil_append] at htime
  constructor
  · intro h
    cases ht : addTime [((str "replacement", str "Cost"), cost), ((str "replacement", str "Time"), fun _ => none), ((str "replacement", str "Carbon"), fun _ => none),
        ((str "replacement", str "Energy"), fun _ => none)] c.approach conseq c.occupancy c.time with
    | error e => rw [ht] at h; simp at h
    | ok t1 =>
      rw [ht] at h
      obtain ⟨time, htm, rfl⟩ := (htime t1).mp ht
      obtain ⟨carbon, energy, h1, h2, e⟩ := hopt time
      refine ⟨cost, time, carbon, energy, hcost, htm, h1, h2, ?_⟩
      rw [← e]
      exact (Except.ok.inj h).symm
  · rintro ⟨cost', time, carbon, energy, h1, h2, h3, h4, rfl⟩
    rw [costRow_unique h1 hcost, (htime _).mpr ⟨time, h2, rfl⟩]
    obtain ⟨carbon', energy', h5, h6, e⟩ := hopt time
    simp only
    rw [e, optionalRow_unique h3 h5, optionalRow_unique h4 h6]

/-! ## C61 -/

theorem mem_setLabel (m : LossMap) (l v : Str) (x : Str × Str) :
    x ∈ setLabel m l v ↔ x = (l, v) ∨ (x ∈ m ∧ x.1 ≠ l) := by
  unfold setLabel
  by_cases h : l ∈ m.map (·.1)
  · rw [if_pos h]
    constructor
    · intro hx
      obtain ⟨r, hr, rfl⟩ := List.mem_map.mp hx
      by_cases hl : r.1 = l
      · left; simp [hl]
      · right; simp [hl, hr]
    · rintro (rfl | ⟨h1, h2⟩)
      · obtain ⟨r, hr, hl⟩ := List.mem_map.mp h
        exact List.mem_map.mpr ⟨r, hr, by simp [hl]⟩
      · exact List.mem_map.mpr ⟨x, h1, by simp [h2]⟩
  · rw [if_neg h, List.mem_append, List.mem_singleton]
    constructor
    · rintro (hx | hx)
      · exact Or.inr ⟨hx, fun hl => h (List.mem_map.mpr ⟨x, hx, hl⟩)⟩
      · exact Or.inl hx
    · rintro (hx | hx)
      · exact Or.inr hx
      · exact Or.inl hx.1

theorem mem_withReplacement (m : LossMap) (h : str "DMG-collapse" ∉ m.map (·.1)) (x : Str × Str) :
    x ∈ withReplacement m ↔ x = (str "collapse", str "replacement") ∨ x = (str "irreparable", str "replacement") ∨
      (x ∈ m ∧ x.1 ≠ str "collapse" ∧ x.1 ≠ str "irreparable") := by
  rw [withReplacement, if_neg h, mem_setLabel, mem_setLabel]
  constructor
  · rintro (h1 | ⟨h1 | ⟨h1, h2⟩, h3⟩)
    · exact Or.inr (Or.inl h1)
    · exact Or.inl h1
    · exact Or.inr (Or.inr ⟨h1, h2, h3⟩)
  · rintro (h1 | h1 | ⟨h1, h2, h3⟩)
    · exact Or.inr ⟨Or.inl h1, by rw [h1]; decide⟩
    · exact Or.inl h1
    · exact Or.inr ⟨Or.inr ⟨h1, h2⟩, h3⟩

theorem finalMap_plain (rows : LossMap) (hids : PlainIds rows) :
    ∃ m, finalMap rows = .ok m ∧ m.Perm (withReplacement rows) := by
  have hno : str "DMG-collapse" ∉ rows.map (·.1) := by
    intro h
    obtain ⟨r, hr, he⟩ := List.mem_map.mp h
    have := (hids r hr).1
    rw [he] at this
    exact this (by decide)
  have hp : PlainIds (withReplacement rows) := by
    intro r hr
    rcases (mem_withReplacement rows hno r).mp hr with rfl | rfl | ⟨h, _⟩
    · exact ⟨by decide, by rw [← LossParams.hasInfix_iff]; decide⟩
    · exact ⟨by decide, by rw [← LossParams.hasInfix_iff]; decide⟩
    · exact hids r h
  have hne : withReplacement rows ≠ [] := by
    intro h
    have := (mem_withReplacement rows hno (str "collapse", str "replacement")).mpr (Or.inl rfl)
    rw [h] at this
    simp at this
  exact (LossParams.C49_user_map _ hne hp []).2.2

/-- **C61 does not hold for plain labels.** Whatever consequence a map with plain labels assigns to
collapse and irreparable damage, the replacement consequence is used instead. -/
theorem C61_plain_overwritten (rows : LossMap) (hids : PlainIds rows) :
    ∃ m, finalMap rows = .ok m ∧ ∀ v, ((str "collapse", v) ∈ m ↔ v = str "replacement") ∧
      ((str "irreparable", v) ∈ m ↔ v = str "replacement") := by
  obtain ⟨m, h1, h2⟩ := finalMap_plain rows hids
  have hno : str "DMG-collapse" ∉ rows.map (·.1) := by
    intro h
    obtain ⟨r, hr, he⟩ := List.mem_map.mp h
    have := (hids r hr).1
    rw [he] at this
    exact this (by decide)
  refine ⟨m, h1, fun v => ⟨?_, ?_⟩⟩
  · rw [h2.mem_iff, mem_withReplacement _ hno]
    constructor
    · rintro (h | h | ⟨_, h, _⟩)
      · exact congrArg Prod.snd h
      · exact congrArg Prod.snd h
      · exact absurd rfl h
    · rintro rfl; exact Or.inl rfl
  · rw [h2.mem_iff, mem_withReplacement _ hno]
    constructor
    · rintro (h | h | ⟨_, _, h⟩)
      · exact congrArg Prod.snd h
      · exact congrArg Prod.snd h
      · exact absurd rfl h
    · rintro rfl; exact Or.inr (Or.inl rfl)

/-- **C61, what does hold for plain labels.** The entries for all other components are used as they
are, and no others are added.  Missing: the entries for collapse and irreparable damage. -/
theorem C61_plain_others_partial (rows : LossMap) (hids : PlainIds rows) :
    ∃ m, finalMap rows = .ok m ∧ ∀ c v, c ≠ str "collapse" → c ≠ str "irreparable" → ((c, v) ∈ m ↔ (c, v) ∈ rows) := by
  obtain ⟨m, h1, h2⟩ := finalMap_plain rows hids
  have hno : str "DMG-collapse" ∉ rows.map (·.1) := by
    intro h
    obtain ⟨r, hr, he⟩ := List.mem_map.mp h
    have := (hids r hr).1
    rw [he] at this
    exact this (by decide)
  refine ⟨m, h1, fun c v hc hi => ?_⟩
  rw [h2.mem_iff, mem_withReplacement _ hno]
  constructor
  · rintro (h | h | ⟨h, _, _⟩)
    · exact absurd (congrArg Prod.fst h) hc
    · exact absurd (congrArg Prod.fst h) hi
    · exact h
  · intro h; exact Or.inr (Or.inr ⟨h, hc, hi⟩)

/-- **C61 for labels with the prefix.** If all labels have the prefix `DMG-` and collapse is among
them, the loss model uses exactly the entries of the user. -/
theorem C61_flagged_respected (rows : LossMap) (hids : ∀ r ∈ rows, '-' ∉ r.1) (hcol : ∃ v, (str "collapse", v) ∈ rows) :
    ∃ m, finalMap (rows.map fun r => (str "DMG-" ++ r.1, r.2)) = .ok m ∧ m.Perm rows := by
  obtain ⟨v, hv⟩ := hcol
  have hne : rows ≠ [] := by intro h; rw [h] at hv; simp at hv
  have hw : withReplacement (rows.map fun r => (str "DMG-" ++ r.1, r.2)) = rows.map fun r => (str "DMG-" ++ r.1, r.2) := by
    rw [withReplacement, if_pos]
    rw [List.map_map]
    exact List.mem_map.mpr ⟨_, hv, rfl⟩
  obtain ⟨m, h1, h2⟩ := LossParams.userMap_flagged rows hne hids
  refine ⟨m, ?_, h2⟩
  rw [finalMap, hw]
  have : (rows.map fun r => (str "DMG-" ++ r.1, r.2)) = rows.map fun r => (str "DMG" ++ '-' :: r.1, r.2) := rfl
  rw [this]
  simp [LossParams.addLossMap, LossParams.startMap, h1]

theorem maxLen_append (a b : List (List Str)) : Labels.maxLen (a ++ b) = max (Labels.maxLen a) (Labels.maxLen b) := by
  unfold Labels.maxLen
  induction a with
  | nil => simp
  | cons x a ih => simp only [List.cons_append, List.map_cons, List.foldr_cons, ih]; omega

/-- A flagged map with two plain entries at its end. -/
theorem userMap_mixed (rows : LossMap) (hne : rows ≠ []) (h : ∀ r ∈ rows, '-' ∉ r.1) (a b va vb : Str) (ha : '-' ∉ a) (hb : '-' ∉ b) :
    ∃ m, LossParams.userMap ((rows.map fun r => (str "DMG" ++ '-' :: r.1, r.2)) ++ [(a, va), (b, vb)]) = .ok m ∧
      m.Perm (rows ++ [([], va), ([], vb)]) := by
  have hD : '-' ∉ str "DMG" := by decide
  have e : ∀ r ∈ rows, splitChar '-' (str "DMG" ++ '-' :: r.1) = [str "DMG", r.1] := by
    intro r hr
    rw [splitChar_append_sep _ _ _ hD, splitChar_no_sep _ _ (h r hr)]
  have hlab : ((rows.map fun r => (str "DMG" ++ '-' :: r.1, r.2)) ++ [(a, va), (b, vb)]).map (·.1) =
      ((rows.map (·.1)).map fun l => str "DMG" ++ '-' :: l) ++ [a, b] := by
    simp [List.map_map, Function.comp_def]
  have hparts : (((rows.map (·.1)).map fun l => str "DMG" ++ '-' :: l) ++ [a, b]).map (splitChar '-') =
      (rows.map fun r => [str "DMG", r.1]) ++ [[a], [b]] := by
    rw [List.map_append, List.map_map, List.map_map]
    congr 1
    · exact List.map_congr_left fun r hr => e r hr
    · simp [splitChar_no_sep _ _ ha, splitChar_no_sep _ _ hb]
  have hmax : Labels.maxLen ((rows.map fun r => [str "DMG", r.1]) ++ [[a], [b]]) = 2 := by
    rw [maxLen_append]
    have h1 : Labels.maxLen (rows.map fun r => [str "DMG", r.1]) = 2 := by
      have := LossParams.maxLen_two (rows.map (·.1)) (by simpa using hne) (by
        intro l hl
        obtain ⟨r, hr, rfl⟩ := List.mem_map.mp hl
        exact h r hr)
      rw [List.map_map, List.map_map] at this
      rw [← this]
      congr 1
      exact List.map_congr_left fun r hr => (e r hr).symm
    rw [h1]
    simp [Labels.maxLen]
  have h1 : Labels.toMulti (.simple (((rows.map fun r => (str "DMG" ++ '-' :: r.1, r.2)) ++ [(a, va), (b, vb)]).map (·.1))) =
      .ok (.multi 2 ((rows.map fun r => [str "DMG", r.1]) ++ [[a, []], [b, []]])) := by
    rw [hlab]
    unfold Labels.toMulti
    simp only [hparts, hmax]
    rw [if_neg (by simp), if_pos (by omega)]
    congr 2
    rw [List.map_append, List.map_map]
    congr 1
  unfold LossParams.userMap
  rw [h1]
  simp only
  have hz : ((rows.map fun r => [str "DMG", r.1]) ++ [[a, []], [b, []]]).zip
      (((rows.map fun r => (str "DMG" ++ '-' :: r.1, r.2)) ++ [(a, va), (b, vb)]).map (·.2)) =
      (rows.map fun r => ([str "DMG", r.1], r.2)) ++ [([a, []], va), ([b, []], vb)] := by
    rw [List.map_append, List.zip_append (by simp), List.map_map]
    congr 1
    rw [List.zip_map']
    rfl
  rw [hz]
  have hp := pySort_perm (fun (x y : List Str × Str) => FileIO.labelLe x.1 y.1) ((rows.map fun r => ([str "DMG", r.1], r.2)) ++ [([a, []], va), ([b, []], vb)])
  rw [if_pos]
  · refine ⟨_, rfl, ?_⟩
    refine (hp.map fun r => (r.1.getD 1 [], r.2)).trans ?_
    rw [List.map_append, List.map_map]
    have : rows.map ((fun r : List Str × Str => (r.1.getD 1 [], r.2)) ∘ fun r => ([str "DMG", r.1], r.2)) = rows := by
      conv_rhs => rw [← List.map_id rows]
      exact List.map_congr_left fun r _ => rfl
    rw [this]
    exact List.Perm.refl _
  · obtain ⟨r, hr⟩ := List.exists_mem_of_ne_nil _ hne
    rw [List.any_eq_true]
    exact ⟨([str "DMG", r.1], r.2), hp.mem_iff.mpr (List.mem_append_left _ (List.mem_map.mpr ⟨r, hr, rfl⟩)), by simp⟩

/-- **C61 does not hold for maps with the prefix and without collapse.** The entries for collapse
and irreparable damage that the assessment adds have no prefix and lose their names: the loss model
has no consequence for collapse, and for irreparable damage only what the user gave. -/
theorem C61_flagged_without_collapse (rows : LossMap) (hne : rows ≠ []) (hids : ∀ r ∈ rows, '-' ∉ r.1)
    (hcol : ∀ v, (str "collapse", v) ∉ rows) :
    ∃ m, finalMap (rows.map fun r => (str "DMG-" ++ r.1, r.2)) = .ok m ∧ (∀ v, (str "collapse", v) ∉ m) ∧
      (∀ v, (str "irreparable", v) ∈ m ↔ (str "irreparable", v) ∈ rows) ∧ ([], str "replacement") ∈ m := by
  have hpre : ∀ l : Str, l ∈ (rows.map fun r => (str "DMG-" ++ r.1, r.2)).map (·.1) → ∃ r ∈ rows, l = str "DMG-" ++ r.1 := by
    intro l hl
    rw [List.map_map] at hl
    obtain ⟨r, hr, rfl⟩ := List.mem_map.mp hl
    exact ⟨r, hr, rfl⟩
  have hw : withReplacement (rows.map fun r => (str "DMG-" ++ r.1, r.2)) =
      (rows.map fun r => (str "DMG-" ++ r.1, r.2)) ++ [(str "collapse", str "replacement"), (str "irreparable", str "replacement")] := by
    rw [withReplacement, if_neg]
    · have h1 : str "collapse" ∉ (rows.map fun r => (str "DMG-" ++ r.1, r.2)).map (·.1) := by
        intro hl
        obtain ⟨r, _, h⟩ := hpre _ hl
        simp [str] at h
      have h2 : str "irreparable" ∉ (rows.map fun r => (str "DMG-" ++ r.1, r.2)).map (·.1) := by
        intro hl
        obtain ⟨r, _, h⟩ := hpre _ hl
        simp [str] at h
      rw [setLabel, if_neg]
      · rw [setLabel, if_neg h1]; simp
      · rw [setLabel, if_neg h1, List.map_append, List.mem_append]
        rintro (h | h)
        · exact h2 h
        · revert h; decide
    · intro hl
      obtain ⟨r, hr, h⟩ := hpre _ hl
      have h' : str "DMG-" ++ str "collapse" = str "DMG-" ++ r.1 := h
      have := List.append_cancel_left h'
      exact hcol r.2 (by rw [this]; exact hr)
  obtain ⟨m, h1, h2⟩ := userMap_mixed rows hne hids (str "collapse") (str "irreparable") (str "replacement") (str "replacement")
    (by decide) (by decide)
  refine ⟨m, ?_, ?_, ?_, ?_⟩
  · rw [finalMap, hw]
    have : (rows.map fun r => (str "DMG-" ++ r.1, r.2)) = rows.map fun r => (str "DMG" ++ '-' :: r.1, r.2) := rfl
    rw [this]
    simp [LossParams.addLossMap, LossParams.startMap, h1]
  · intro v hv
    rcases List.mem_append.mp (h2.mem_iff.mp hv) with h | h
    · exact hcol v h
    · simp [str] at h
  · intro v
    rw [h2.mem_iff, List.mem_append]
    constructor
    · rintro (h | h)
      · exact h
      · simp [str] at h
    · exact Or.inl
  · exact h2.mem_iff.mpr (by simp)

/-- Not vacuous. -/
example : finalMap [(str "DMG-B.10", str "x")] =
    .ok [(str "B.10", str "x"), ([], str "replacement"), ([], str "replacement")] := by decide +kernel

example : finalMap [(str "collapse", str "my.collapse"), (str "B.10", str "x")] =
    .ok [(str "B.10", str "x"), (str "collapse", str "replacement"), (str "irreparable", str "replacement")] := by decide +kernel

/-! ## C81 -/

/-- **C81.** The automatic loss map: a component of the asset other than collapse has an entry exactly
if the database has its consequence. -/
theorem C81_automatic (approach : Str) (occ : Option Str) (lossCmps cmps : List Str) (c v : Str) :
    (c, v) ∈ autoMap approach occ lossCmps cmps ↔
      c ∈ cmps ∧ c ≠ str "collapse" ∧ v ∈ lossCmps ∧
        ((¬ (str "Hazus Earthquake") <+: approach ∧ v = c) ∨
         ((str "Hazus Earthquake") <+: approach ∧ ∃ cls, '.' ∉ cls ∧ (c = cls ∨ ∃ rest, c = cls ++ '.' :: rest) ∧
            ((∃ o, occ = some o ∧ v = cls ++ '.' :: o) ∨ (occ = none ∧ v = cls)))) := by
  have htarget : v = autoTarget approach occ c ↔
      ((¬ (str "Hazus Earthquake") <+: approach ∧ v = c) ∨
         ((str "Hazus Earthquake") <+: approach ∧ ∃ cls, '.' ∉ cls ∧ (c = cls ∨ ∃ rest, c = cls ++ '.' :: rest) ∧
            ((∃ o, occ = some o ∧ v = cls ++ '.' :: o) ∨ (occ = none ∧ v = cls)))) := by
    unfold autoTarget
    by_cases hp : (str "Hazus Earthquake").isPrefixOf approach = true
    · have hp' := List.isPrefixOf_iff_prefix.mp hp
      rw [if_pos hp]
      have hcls : ∀ cls : Str, ('.' ∉ cls ∧ (c = cls ∨ ∃ rest, c = cls ++ '.' :: rest)) ↔ cls = (splitChar '.' c).headD [] := by
        intro cls
        constructor
        · rintro ⟨h1, h2 | ⟨rest, h2⟩⟩
          · rw [h2, splitChar_no_sep _ _ h1]; rfl
          · rw [h2, splitChar_append_sep _ _ _ h1]; rfl
        · rintro rfl
          have hj := join_split '.' c
          have hn := splitChar_parts_no_sep '.' c
          cases hs : splitChar '.' c with
          | nil => exact absurd hs (splitChar_ne_nil _ _)
          | cons x xs =>
            rw [hs] at hj hn
            refine ⟨hn x (by simp), ?_⟩
            cases xs with
            | nil => left; exact hj.symm
            | cons y ys => right; exact ⟨joinChar '.' (y :: ys), hj.symm⟩
      cases occ with
      | some o =>
        simp only [hp', not_true_eq_false, false_and, true_and, false_or, Option.some.injEq, reduceCtorEq, or_false]
        constructor
        · intro h
          refine ⟨_, ((hcls _).mpr rfl).1, ((hcls _).mpr rfl).2, o, rfl, h⟩
        · rintro ⟨cls, h1, h2, o', rfl, rfl⟩
          rw [(hcls cls).mp ⟨h1, h2⟩]
      | none =>
        simp only [hp', not_true_eq_false, false_and, true_and, false_or, reduceCtorEq, exists_false]
        constructor
        · intro h
          exact ⟨_, ((hcls _).mpr rfl).1, ((hcls _).mpr rfl).2, h⟩
        · rintro ⟨cls, h1, h2, rfl⟩
          exact (hcls _).mp ⟨h1, h2⟩
    · rw [if_neg hp]
      rw [List.isPrefixOf_iff_prefix] at hp
      simp [hp]
  rw [← htarget]
  unfold autoMap
  rw [List.mem_filterMap]
  constructor
  · rintro ⟨a, ha, h⟩
    by_cases h1 : a = str "collapse"
    · rw [if_pos h1] at h; simp at h
    · rw [if_neg h1] at h
      by_cases h2 : autoTarget approach occ a ∈ lossCmps
      · rw [if_pos h2] at h
        simp only [Option.some.injEq, Prod.mk.injEq] at h
        obtain ⟨rfl, rfl⟩ := h
        exact ⟨ha, h1, h2, rfl⟩
      · rw [if_neg h2] at h; simp at h
  · rintro ⟨h1, h2, h3, rfl⟩
    exact ⟨c, h1, by rw [if_neg h2, if_pos h3]⟩

/-- **C81 (loss model).** The loss model of an assessment with an automatic map has these entries and
the replacement consequence for collapse and irreparable damage. -/
theorem C81_final (approach : Str) (occ : Option Str) (lossCmps cmps : List Str)
    (hids : ∀ c ∈ cmps, '-' ∉ c ∧ ¬ str "DMG" <:+: c) :
    ∃ m, finalMap (autoMap approach occ lossCmps cmps) = .ok m ∧ ∀ x, x ∈ m ↔
      x = (str "collapse", str "replacement") ∨ x = (str "irreparable", str "replacement") ∨
      (x ∈ autoMap approach occ lossCmps cmps ∧ x.1 ≠ str "irreparable") := by
  have hp : PlainIds (autoMap approach occ lossCmps cmps) := by
    intro r hr
    exact hids r.1 ((C81_automatic approach occ lossCmps cmps r.1 r.2).mp hr).1
  obtain ⟨m, h1, h2⟩ := finalMap_plain _ hp
  refine ⟨m, h1, fun x => ?_⟩
  rw [h2.mem_iff, mem_withReplacement]
  · constructor
    · rintro (h | h | ⟨h, _, h'⟩)
      · exact Or.inl h
      · exact Or.inr (Or.inl h)
      · exact Or.inr (Or.inr ⟨h, h'⟩)
    · rintro (h | h | ⟨h, h'⟩)
      · exact Or.inl h
      · exact Or.inr (Or.inl h)
      · exact Or.inr (Or.inr ⟨h, ((C81_automatic approach occ lossCmps cmps x.1 x.2).mp h).2.1, h'⟩)
  · intro h
    obtain ⟨r, hr, he⟩ := List.mem_map.mp h
    have := (hp r hr).1
    rw [he] at this
    exact this (by decide)

/-- Not vacuous: components of two classes, one without a consequence. -/
example : autoMap (str "Hazus Earthquake - Buildings") (some (str "RES1"))
      [str "STR.RES1", str "NSA.RES2"] [str "STR.W1.PC", str "NSA.PC", str "collapse"] =
    [(str "STR.W1.PC", str "STR.RES1")] := by decide +kernel

theorem setLabel_labels (m : LossMap) (l v : Str) :
    (setLabel m l v).map (·.1) = if l ∈ m.map (·.1) then m.map (·.1) else m.map (·.1) ++ [l] := by
  unfold setLabel
  split
  · rw [List.map_map]
    refine List.map_congr_left fun r _ => ?_
    by_cases h : r.1 = l <;> simp [h]
  · simp

theorem withReplacement_labels (m : LossMap) : ∃ more, (withReplacement m).map (·.1) = m.map (·.1) ++ more := by
  unfold withReplacement
  split
  · exact ⟨[], by simp⟩
  · rw [setLabel_labels]
    obtain ⟨b, hb⟩ : ∃ b, (setLabel m (str "collapse") (str "replacement")).map (·.1) = m.map (·.1) ++ b := by
      rw [setLabel_labels]
      split
      · exact ⟨[], by simp⟩
      · exact ⟨_, rfl⟩
    rw [hb]
    split
    · exact ⟨b, rfl⟩
    · exact ⟨b ++ [str "irreparable"], by simp⟩

/-- **C81 (hurricane).** With two or more components in the loss map the first two are combined. -/
theorem C81_hurricane_pair (a b : Str × Str) (rest : LossMap) : hurricanePair (a :: b :: rest) = .ok (a.1, b.1) := by
  obtain ⟨more, h⟩ := withReplacement_labels (a :: b :: rest)
  unfold hurricanePair
  cases hw : withReplacement (a :: b :: rest) with
  | nil => rw [hw] at h; simp at h
  | cons x l =>
    cases l with
    | nil => rw [hw] at h; simp at h
    | cons y l =>
      rw [hw] at h
      simp only [List.map_cons, List.cons_append, List.cons.injEq] at h
      simp [h.1, h.2.1]

/-- **C81 does not hold for a single component.** Whatever component it is, its losses are combined with
those of collapse. -/
theorem C81_single_component (a v : Str) (h1 : a ≠ str "collapse") (h2 : a ≠ str "DMG-collapse") :
    hurricanePair [(a, v)] = .ok (a, str "collapse") := by
  have h3 : ¬ (str "DMG-collapse" ∈ [a]) := by simpa using Ne.symm h2
  have h4 : ¬ (str "collapse" ∈ [a]) := by simpa using Ne.symm h1
  have h5 : str "irreparable" ≠ str "collapse" := by decide
  by_cases h6 : a = str "irreparable"
  · simp [hurricanePair, withReplacement, setLabel, h6, h5.symm, show str "DMG-collapse" ≠ str "irreparable" by decide]
  · simp [hurricanePair, withReplacement, setLabel, Ne.symm h1, Ne.symm h2, Ne.symm h6, h5]

/-- With a single component in a hurricane assessment the wind losses are combined with those of
collapse. -/
theorem C81_single_component_pair :
    hurricanePair (autoMap (str "Hazus Hurricane") none [str "W.SF.1"] [str "W.SF.1", str "collapse"]) =
      .ok (str "W.SF.1", str "collapse") := by decide +kernel

end Verif.AsmLoss
