import Verif.Model.ToolOut

/-! # C65, C66: runs in one session and files of the output folder -/

namespace Verif.ToolOut

/-! ## C65 -/

/-- Runs that do not change what later runs see: the user gives the outputs in the configuration; or no
outputs and no output format are given; or a generated configuration with the short list of outputs,
losses, and no further choice of outputs. -/
def Independent (r : Run) : Prop :=
  (r.auto = false ∧ r.outputs ≠ none ∧ r.outputs ≠ some ⟨[], .missing⟩) ∨ (r.auto = false ∧ r.outputs = none ∧ r.format = none) ∨
  (r.auto = true ∧ r.detailed = false ∧ r.losses = true ∧ r.wanted = none ∧ r.format = none)

/-- The shared dictionaries after independent runs. -/
def Inv (sh : Shared) : Prop := sh = fresh ∨ sh = { fresh with full := fullOut.setSettings .pbe }

theorem own_shared (st : St) (f : Out → Out) (h : st.loc = .own) :
    (st.modify f).loc = .own ∧ (st.modify f).shared = st.shared ∧ (st.modify f).own = f st.own := by
  unfold St.modify; simp [h]

theorem defaultFormat_own (sh : Shared) (o : Out) :
    ∃ o', ∀ sh, defaultFormat ⟨sh, o, .own⟩ = ⟨sh, o', .own⟩ := by
  by_cases h : o.specified (str "Format") = true
  · refine ⟨o, fun sh => ?_⟩
    unfold defaultFormat
    rw [if_pos]
    exact h
  · refine ⟨o.setSection (str "Format") [(str "CSV", true), (str "JSON", false)], fun sh => ?_⟩
    unfold defaultFormat
    rw [if_neg]
    · rfl
    · exact h

theorem overrideFormat_own (r : Run) (o : Out) : ∃ o', ∀ sh, overrideFormat r ⟨sh, o, .own⟩ = ⟨sh, o', .own⟩ := by
  cases h : r.format with
  | none => exact ⟨o, fun sh => by unfold overrideFormat; rw [h]⟩
  | some l =>
    refine ⟨o.setSection (str "Format") [(str "CSV", decide (str "csv" ∈ l)), (str "JSON", decide (str "json" ∈ l))], fun sh => ?_⟩
    unfold overrideFormat
    rw [h]
    rfl

/-- A run with its own output configuration: only the shared settings matter, and nothing shared is
changed. -/
theorem parse_own (sh : Shared) (r : Run) (o : Out) (ha : r.auto = false) (ho : r.outputs = some o) (hne : o ≠ ⟨[], .missing⟩) :
    (parseOutputs sh r).2 = sh ∧ ∀ sh', sh'.pbe = sh.pbe → (parseOutputs sh' r).1 = (parseOutputs sh r).1 := by
  obtain ⟨o1, h1⟩ := defaultFormat_own sh o
  obtain ⟨o2, h2⟩ := overrideFormat_own r o1
  have hp : ∀ sh, place sh r = ⟨sh, o, .own⟩ := by intro sh; unfold place; simp [ha, ho, hne]
  have hcur : ∀ sh, (⟨sh, o2, .own⟩ : St).cur = o2 := fun _ => rfl
  have hd : ∀ sh, defaultSettings ⟨sh, o2, .own⟩ =
      ⟨sh, if resolveSettings sh o2.settings = [] then o2.setSettings .pbe else o2, .own⟩ := by
    intro sh
    unfold defaultSettings
    by_cases hr : resolveSettings sh o2.settings = []
    · rw [if_pos hr]
      simp only
      rw [if_pos]
      · rfl
      · exact hr
    · rw [if_neg hr]
      simp only
      rw [if_neg]
      exact hr
  have hres : ∀ sh', sh'.pbe = sh.pbe → ∀ s, resolveSettings sh' s = resolveSettings sh s := by
    intro sh' hpbe s
    cases s <;> simp [resolveSettings, hpbe]
  constructor
  · unfold parseOutputs
    simp only [hp, h1, h2, hd]
    repeat' split
    all_goals rfl
  · intro sh' hpbe
    unfold parseOutputs
    simp only [hp, h1, h2, hd, hres sh' hpbe]
    have hc : ∀ sh (x : Out), (⟨sh, x, .own⟩ : St).cur = x := fun _ _ => rfl
    simp only [hc]
    repeat' split
    all_goals rfl

theorem parse_plain (r : Run) (ha : r.auto = false) (ho : r.outputs = none) (hf : r.format = none) (sh : Shared) (h : Inv sh) :
    (parseOutputs sh r).1 = (parseOutputs fresh r).1 ∧ Inv (parseOutputs sh r).2 := by
  obtain ⟨auto, skip, outputs, detailed, asset, damage, losses, wanted, format⟩ := r
  simp only at ha ho hf
  subst ha ho hf
  rcases h with rfl | rfl
  · refine ⟨rfl, Or.inr ?_⟩
    cases asset <;> cases damage <;> cases losses <;> rfl
  · refine ⟨?_, Or.inr ?_⟩
    · cases asset <;> cases damage <;> cases losses <;> rfl
    · cases asset <;> cases damage <;> cases losses <;> rfl

theorem parse_lean (r : Run) (ha : r.auto = true) (hd : r.detailed = false) (hl : r.losses = true) (hw : r.wanted = none)
    (hf : r.format = none) (sh : Shared) (h : Inv sh) :
    (parseOutputs sh r).1 = (parseOutputs fresh r).1 ∧ Inv (parseOutputs sh r).2 := by
  obtain ⟨auto, skip, outputs, detailed, asset, damage, losses, wanted, format⟩ := r
  simp only at ha hd hl hw hf
  subst ha hd hl hw hf
  rcases h with rfl | rfl
  · refine ⟨rfl, Or.inl ?_⟩
    cases asset <;> cases damage <;> rfl
  · refine ⟨?_, Or.inr ?_⟩
    · cases asset <;> cases damage <;> rfl
    · cases asset <;> cases damage <;> rfl

theorem independent_step (r : Run) (hr : Independent r) (sh : Shared) (h : Inv sh) :
    (parseOutputs sh r).1 = (parseOutputs fresh r).1 ∧ Inv (parseOutputs sh r).2 := by
  rcases hr with ⟨ha, ho, ho'⟩ | ⟨ha, ho, hf⟩ | ⟨ha, hd, hl, hw, hf⟩
  · obtain ⟨o, ho⟩ := Option.ne_none_iff_exists'.mp ho
    have hne : o ≠ ⟨[], .missing⟩ := fun h => ho' (by rw [ho, h])
    obtain ⟨h1, _⟩ := parse_own sh r o ha ho hne
    obtain ⟨_, h2⟩ := parse_own fresh r o ha ho hne
    refine ⟨h2 sh ?_, by rw [h1]; exact h⟩
    rcases h with rfl | rfl <;> rfl
  · exact parse_plain r ha ho hf sh h
  · exact parse_lean r ha hd hl hw hf sh h

/-- **C65, what does hold.** In a session of independent runs, in any order and number, every run uses
the output configuration that it would use as the first run.  Missing: runs with an output format and
without outputs in the configuration, generated configurations with detailed results, without losses
or with a choice of outputs; for those see the theorems below. -/
theorem C65_independent_partial (rs : List Run) (h : ∀ r ∈ rs, Independent r) :
    session fresh rs = rs.map fun r => (parseOutputs fresh r).1 := by
  suffices ∀ sh, Inv sh → session sh rs = rs.map fun r => (parseOutputs fresh r).1 from this fresh (Or.inl rfl)
  induction rs with
  | nil => intro sh _; rfl
  | cons r rs ih =>
    intro sh hs
    obtain ⟨h1, h2⟩ := independent_step r (h r (by simp)) sh hs
    rw [session, List.map_cons, h1, ih (fun r hr => h r (by simp [hr])) _ h2]

/-- Not vacuous: three kinds of runs. -/
def plainRun : Run := ⟨false, false, none, true, true, true, true, none, none⟩
def leanRun : Run := ⟨true, false, none, false, true, true, true, none, none⟩
def ownRun : Run := ⟨false, false, some ⟨[(str "Damage", [(str "Sample", true)])], .missing⟩, true, true, true, true, none, some [str "json"]⟩

example : ∀ r ∈ [plainRun, leanRun, ownRun], Independent r := by
  intro r hr
  simp only [List.mem_cons, List.not_mem_nil, or_false] at hr
  rcases hr with rfl | rfl | rfl
  · exact Or.inr (Or.inl ⟨rfl, rfl, rfl⟩)
  · exact Or.inr (Or.inr ⟨rfl, rfl, rfl, rfl, rfl⟩)
  · exact Or.inl ⟨rfl, by simp [ownRun], by simp [ownRun]⟩

/-- The formats of a run. -/
def formats : Except PyErr Effective → Option Section
  | .ok e => e.sections.get? (str "Format")
  | .error _ => none

/-- **C65 does not hold (1).** The output format that is given for one run is used by the next run
without outputs and without a format. -/
theorem C65_format_sticks (l : List Str) :
    (session fresh [{ plainRun with format := some l }, plainRun]).map formats =
      [some [(str "CSV", decide (str "csv" ∈ l)), (str "JSON", decide (str "json" ∈ l))],
       some [(str "CSV", decide (str "csv" ∈ l)), (str "JSON", decide (str "json" ∈ l))]] ∧
    formats (parseOutputs fresh plainRun).1 = some [(str "CSV", true), (str "JSON", true)] := by
  refine ⟨?_, by decide⟩
  rfl

/-- The loss outputs of a run. -/
def lossFlags : Except PyErr Effective → Option Section
  | .ok e => e.sections.get? (str "Loss")
  | .error _ => none

/-- **C65 does not hold (2).** After one generated run without losses no later run with the short list
of outputs saves any losses. -/
theorem C65_losses_lost :
    (session fresh [{ leanRun with losses := false }, leanRun]).map lossFlags = [some [], some []] ∧
    lossFlags (parseOutputs fresh leanRun).1 = some allSix := by decide

/-- **C65 does not hold (3).** A run that would be refused because its configuration has no losses is
accepted after a generated run without losses. -/
theorem C65_check_disabled :
    (session fresh [{ plainRun with auto := true, losses := false }, { plainRun with losses := false }]).map
      (fun x => match x with | .error _ => true | .ok _ => false) = [false, false] ∧
    (parseOutputs fresh { plainRun with losses := false }).1 = .error .invalidConfigError := by
  refine ⟨rfl, rfl⟩

/-- The settings of a run. -/
def settingsOf : Except PyErr Effective → Option Section
  | .ok e => some e.settings
  | .error _ => none

/-- **C65 does not hold (4).** A plain run followed by a detailed generated run changes the default
settings of every later run: damage states are condensed although nobody asked for it. -/
theorem C65_settings_leak :
    (session fresh [plainRun, { plainRun with auto := true }, ownRun]).map settingsOf =
      [some pbeSettings, some regionalSettings, some regionalSettings] ∧
    settingsOf (parseOutputs fresh ownRun).1 = some pbeSettings := by decide

/-! ## What a first run uses -/

/-- The outputs when the user asks for none in particular, or for detailed results. -/
def allOutputs : Dict Str Section :=
  [(str "Demand", [(str "Sample", true), (str "Statistics", true)]),
   (str "Asset", [(str "Sample", true), (str "Statistics", true)]),
   (str "Damage", [(str "Sample", true), (str "Statistics", true), (str "GroupedSample", true), (str "GroupedStatistics", true)]),
   (str "Loss", [(str "Sample", true), (str "Statistics", true), (str "GroupedSample", true), (str "GroupedStatistics", true),
     (str "AggregateSample", true), (str "AggregateStatistics", true)]),
   (str "Format", [(str "CSV", true), (str "JSON", true)])]

/-- The short list of outputs of a generated configuration. -/
def fewOutputs : Dict Str Section :=
  [(str "Demand", [(str "Sample", true), (str "Statistics", false)]),
   (str "Asset", [(str "Sample", true), (str "Statistics", false)]),
   (str "Damage", [(str "Sample", false), (str "Statistics", false), (str "GroupedSample", true), (str "GroupedStatistics", true)]),
   (str "Loss", [(str "Sample", true), (str "Statistics", true), (str "GroupedSample", true), (str "GroupedStatistics", true),
     (str "AggregateSample", true), (str "AggregateStatistics", true)]),
   (str "Format", [(str "CSV", false), (str "JSON", true)])]

/-- The outputs that a run starts from. -/
def given (r : Run) (name : Str) : Option Section :=
  if r.auto then (if r.detailed then allOutputs.get? name else fewOutputs.get? name)
  else match r.outputs with
    | none => allOutputs.get? name
    | some o => if o = ⟨[], .missing⟩ then allOutputs.get? name else o.sections.get? name

/-- In a generated configuration, outputs that cannot be computed or are not wanted are left out. -/
def Dropped (r : Run) (name : Str) : Prop :=
  r.auto = true ∧ ((name = str "Loss" ∧ r.losses = false) ∨ ∃ w, r.wanted = some w ∧
    ((name = str "Demand" ∧ w.im = false ∧ w.edp = false) ∨ (name = str "Damage" ∧ w.dm = false) ∨ (name = str "Loss" ∧ w.dv = false)))

/-- The section `name` of the outputs that a first run uses. -/
def FirstSection (r : Run) (name : Str) (s : Option Section) : Prop :=
  if name = str "Format" then
    match r.format with
    | some l => s = some [(str "CSV", decide (str "csv" ∈ l)), (str "JSON", decide (str "json" ∈ l))]
    | none => if given r name = none ∨ given r name = some [] then s = some [(str "CSV", true), (str "JSON", false)] else s = given r name
  else (Dropped r name → s = some []) ∧ (¬ Dropped r name → s = given r name)

/-- The settings that a first run uses: generated configurations condense the damage states. -/
def FirstSettings (r : Run) (s : Section) : Prop :=
  if r.auto then s = [(str "CondenseDS", true), (str "SimpleIndexInJSON", true), (str "AggregateColocatedComponentResults", true)]
  else (∃ o d, r.outputs = some o ∧ o.settings = .own d ∧ d ≠ [] ∧ s = d) ∨
    ((∀ o d, r.outputs = some o → o.settings = .own d → d = []) ∧
      s = [(str "CondenseDS", false), (str "SimpleIndexInJSON", false), (str "AggregateColocatedComponentResults", true)])

theorem cur_modify (st : St) (f : Out → Out) : (st.modify f).cur = f st.cur := by
  obtain ⟨sh, own, loc⟩ := st
  cases loc <;> rfl

theorem pbe_modify (st : St) (f : Out → Out) : (st.modify f).shared.pbe = st.shared.pbe := by
  obtain ⟨sh, own, loc⟩ := st
  cases loc <;> rfl

theorem get?_setSection (o : Out) (n name : Str) (s : Section) :
    (o.setSection n s).sections.get? name = if n = name then some s else o.sections.get? name := Dict.get?_set _ _ _ _

/-- A step that replaces a section under a condition. -/
theorem get?_cond (b : Bool) (st : St) (n name : Str) (s : Section) :
    (if b = true then st.modify (·.setSection n s) else st).cur.sections.get? name =
      if b = true ∧ n = name then some s else st.cur.sections.get? name := by
  cases b
  · simp
  · simp [cur_modify, get?_setSection]

theorem settings_cond (b : Bool) (st : St) (n : Str) (s : Section) :
    (if b = true then st.modify (·.setSection n s) else st).cur.settings = st.cur.settings ∧
    (if b = true then st.modify (·.setSection n s) else st).shared.pbe = st.shared.pbe := by
  cases b
  · simp
  · simp [cur_modify, pbe_modify, Out.setSection]

theorem dropped_get (r : Run) (ha : r.auto = true) (st : St) (name : Str) :
    (Dropped r name → (dropUnwanted r (dropLoss r st)).cur.sections.get? name = some []) ∧
    (¬ Dropped r name → (dropUnwanted r (dropLoss r st)).cur.sections.get? name = st.cur.sections.get? name) ∧
    (dropUnwanted r (dropLoss r st)).cur.settings = st.cur.settings ∧
    (dropUnwanted r (dropLoss r st)).shared.pbe = st.shared.pbe := by
  have e1 : dropLoss r st = if !r.losses then st.modify (·.setSection (str "Loss") []) else st := by
    unfold dropLoss; cases r.losses <;> rfl
  have g1 : ∀ name, (dropLoss r st).cur.sections.get? name = if r.losses = false ∧ str "Loss" = name then some [] else st.cur.sections.get? name := by
    intro name
    rw [e1, get?_cond]
    simp
  have s1 : (dropLoss r st).cur.settings = st.cur.settings ∧ (dropLoss r st).shared.pbe = st.shared.pbe := by
    rw [e1]; exact settings_cond _ _ _ _
  unfold Dropped
  generalize dropLoss r st = st1 at g1 s1
  unfold dropUnwanted
  cases hw : r.wanted with
  | none =>
    simp only [reduceCtorEq, false_and, exists_false, or_false, ha, true_and]
    rw [g1]
    refine ⟨?_, ?_, s1⟩
    · rintro ⟨h1, h2⟩; rw [if_pos ⟨h2, h1.symm⟩]
    · intro h; rw [if_neg fun h' => h ⟨h'.2.symm, h'.1⟩]
  | some w =>
    simp only [Option.some.injEq, exists_eq_left', ha, true_and]
    refine ⟨?_, ?_, ?_, ?_⟩
    · intro h
      rw [get?_cond, get?_cond, get?_cond, g1]
      have d1 : str "Demand" ≠ str "Damage" := by decide
      have d2 : str "Demand" ≠ str "Loss" := by decide
      have d3 : str "Damage" ≠ str "Loss" := by decide
      rcases h with ⟨rfl, h⟩ | ⟨rfl, h1, h2⟩ | ⟨rfl, h⟩ | ⟨rfl, h⟩
      · simp [h]
      · simp [h1, h2, d1.symm, d2.symm]
      · simp [h, d3.symm]
      · simp [h]
    · intro h
      simp only [not_or, not_and] at h
      obtain ⟨h1, h2, h3, h4⟩ := h
      rw [get?_cond, get?_cond, get?_cond, g1, if_neg, if_neg, if_neg, if_neg]
      · rintro ⟨a, b⟩; exact h1 b.symm a
      · rintro ⟨a, b⟩
        simp only [Bool.and_eq_true, Bool.not_eq_true'] at a
        exact h2 b.symm a.1 a.2
      · rintro ⟨a, b⟩; exact h3 b.symm (by simpa using a)
      · rintro ⟨a, b⟩; exact h4 b.symm (by simpa using a)
    · rw [(settings_cond _ _ _ _).1, (settings_cond _ _ _ _).1, (settings_cond _ _ _ _).1, s1.1]
    · rw [(settings_cond _ _ _ _).2, (settings_cond _ _ _ _).2, (settings_cond _ _ _ _).2, s1.2]

theorem place_get (r : Run) (name : Str) :
    (Dropped r name → (place fresh r).cur.sections.get? name = some []) ∧
    (¬ Dropped r name → (place fresh r).cur.sections.get? name = given r name) := by
  unfold place given
  by_cases ha : r.auto = true
  · rw [if_pos ha, if_pos ha]
    by_cases hd : r.detailed = true
    · rw [if_pos hd, if_pos hd]
      obtain ⟨h1, h2, _⟩ := dropped_get r ha (extendSettings (ensureSettings ⟨fresh, ⟨[], .missing⟩, .full⟩)) name
      exact ⟨h1, h2⟩
    · rw [if_neg hd, if_neg hd]
      obtain ⟨h1, h2, _⟩ := dropped_get r ha ⟨fresh, ⟨[], .missing⟩, .regional⟩ name
      exact ⟨h1, h2⟩
  · rw [if_neg ha, if_neg ha]
    have hnd : ¬ Dropped r name := fun h => ha h.1
    refine ⟨fun h => absurd h hnd, fun _ => ?_⟩
    cases ho : r.outputs with
    | none => rfl
    | some o =>
      simp only
      by_cases hne : o = ⟨[], .missing⟩
      · rw [if_pos hne, if_pos hne]; rfl
      · rw [if_neg hne, if_neg hne]; rfl

theorem place_settings (r : Run) :
    FirstSettings r (if resolveSettings fresh (place fresh r).cur.settings = [] then pbeSettings
      else resolveSettings fresh (place fresh r).cur.settings) ∧ (place fresh r).shared.pbe = fresh.pbe := by
  unfold place FirstSettings
  by_cases ha : r.auto = true
  · rw [if_pos ha, if_pos ha]
    by_cases hd : r.detailed = true
    · rw [if_pos hd]
      obtain ⟨_, _, h3, h4⟩ := dropped_get r ha (extendSettings (ensureSettings ⟨fresh, ⟨[], .missing⟩, .full⟩)) []
      rw [h3, h4]
      exact ⟨by decide, by decide⟩
    · rw [if_neg hd]
      obtain ⟨_, _, h3, h4⟩ := dropped_get r ha ⟨fresh, ⟨[], .missing⟩, .regional⟩ []
      rw [h3, h4]
      exact ⟨by decide, by decide⟩
  · rw [if_neg ha, if_neg ha]
    cases ho : r.outputs with
    | none =>
      refine ⟨Or.inr ⟨by simp, by decide⟩, rfl⟩
    | some o =>
      simp only
      by_cases hne : o = ⟨[], .missing⟩
      · subst hne
        rw [if_pos rfl]
        exact ⟨Or.inr ⟨by intro o d h1 h2; cases h1; simp at h2, by decide⟩, rfl⟩
      · rw [if_neg hne]
        refine ⟨?_, rfl⟩
        show _ ∨ _
        have hc : (⟨fresh, o, .own⟩ : St).cur = o := rfl
        rw [hc]
        cases hs : o.settings with
        | missing => exact Or.inr ⟨by intro o' d h1 h2; cases h1; rw [hs] at h2; simp at h2, by decide⟩
        | pbe => exact Or.inr ⟨by intro o' d h1 h2; cases h1; rw [hs] at h2; simp at h2, by decide⟩
        | own d =>
          by_cases hd : d = []
          · subst hd
            exact Or.inr ⟨by intro o' d h1 h2; cases h1; rw [hs] at h2; cases h2; rfl, by decide⟩
          · refine Or.inl ⟨o, d, rfl, hs, hd, ?_⟩
            simp [resolveSettings, hd]

theorem defaultFormat_spec (st : St) :
    (∀ name, (defaultFormat st).cur.sections.get? name =
      if name = str "Format" ∧ (st.cur.sections.get? name = none ∨ st.cur.sections.get? name = some []) then
        some [(str "CSV", true), (str "JSON", false)] else st.cur.sections.get? name) ∧
    (defaultFormat st).cur.settings = st.cur.settings ∧ (defaultFormat st).shared.pbe = st.shared.pbe := by
  have hsp : ∀ o : Out, o.specified (str "Format") = true ↔ ¬ (o.sections.get? (str "Format") = none ∨ o.sections.get? (str "Format") = some []) := by
    intro o
    unfold Out.specified
    cases h : o.sections.get? (str "Format") with
    | none => simp
    | some l => cases l <;> simp
  unfold defaultFormat
  by_cases hs : st.cur.specified (str "Format") = true
  · rw [if_pos hs]
    refine ⟨fun name => ?_, rfl, rfl⟩
    rw [if_neg]
    rintro ⟨rfl, h⟩
    exact (hsp _).mp hs h
  · rw [if_neg hs]
    have h := Classical.not_not.mp (fun h => hs ((hsp _).mpr h))
    refine ⟨fun name => ?_, by rw [cur_modify]; rfl, pbe_modify _ _⟩
    rw [cur_modify, get?_setSection]
    by_cases hn : name = str "Format"
    · rw [if_pos hn.symm, if_pos ⟨hn, hn ▸ h⟩]
    · rw [if_neg (Ne.symm hn), if_neg (fun h => hn h.1)]

theorem overrideFormat_spec (r : Run) (st : St) :
    (∀ name, (overrideFormat r st).cur.sections.get? name =
      match r.format with
      | none => st.cur.sections.get? name
      | some l => if name = str "Format" then some [(str "CSV", decide (str "csv" ∈ l)), (str "JSON", decide (str "json" ∈ l))]
        else st.cur.sections.get? name) ∧
    (overrideFormat r st).cur.settings = st.cur.settings ∧ (overrideFormat r st).shared.pbe = st.shared.pbe := by
  unfold overrideFormat
  cases r.format with
  | none => exact ⟨fun _ => rfl, rfl, rfl⟩
  | some l =>
    refine ⟨fun name => ?_, by simp only [cur_modify]; rfl, pbe_modify _ _⟩
    simp only [cur_modify, get?_setSection, eq_comm]

theorem resolve_pbe (sh sh' : Shared) (h : sh.pbe = sh'.pbe) (s : Settings) : resolveSettings sh s = resolveSettings sh' s := by
  cases s <;> simp [resolveSettings, h]

theorem defaultSettings_spec (st : St) :
    (defaultSettings st).cur.sections = st.cur.sections ∧ (defaultSettings st).shared.pbe = st.shared.pbe ∧
    resolveSettings (defaultSettings st).shared (defaultSettings st).cur.settings =
      if resolveSettings st.shared st.cur.settings = [] then st.shared.pbe else resolveSettings st.shared st.cur.settings := by
  unfold defaultSettings
  by_cases h : resolveSettings st.shared st.cur.settings = []
  · rw [if_pos h, if_pos h, cur_modify, pbe_modify]
    refine ⟨rfl, rfl, ?_⟩
    show (st.modify _).shared.pbe = _
    rw [pbe_modify]
  · rw [if_neg h, if_neg h]
    exact ⟨rfl, rfl, rfl⟩

/-- A section of the outputs asks for something. -/
def Asks (s : Option Section) : Prop := ∃ l, s = some l ∧ l ≠ []

theorem specified_iff (o : Out) (name : Str) : o.specified name = true ↔ Asks (o.sections.get? name) := by
  unfold Out.specified Asks
  cases h : o.sections.get? name with
  | none => simp
  | some l => cases l <;> simp

/-- **C65 (the first run).** What the first run of a session uses: the outputs of the configuration (all
outputs if there are none; for a generated configuration the full or the short list without the outputs that
are not wanted or cannot be computed), the given output format, and the settings.  It is refused exactly if
there is no asset, or outputs are asked for whose part of the configuration is missing. -/
theorem C65_first_run (r : Run) :
    (∀ e, (parseOutputs fresh r).1 = .ok e → (∀ name, FirstSection r name (e.sections.get? name)) ∧ FirstSettings r e.settings) ∧
    ((parseOutputs fresh r).1 = .error .invalidConfigError ↔
      r.asset = false ∨ ∃ name there s, (name, there) ∈ [(str "Damage", r.damage), (str "Loss", r.losses)] ∧
        there = false ∧ FirstSection r name s ∧ Asks s) := by
  obtain ⟨f1, f2, f3⟩ := defaultFormat_spec (place fresh r)
  obtain ⟨o1, o2, o3⟩ := overrideFormat_spec r (defaultFormat (place fresh r))
  obtain ⟨d1, d2, d3⟩ := defaultSettings_spec (overrideFormat r (defaultFormat (place fresh r)))
  obtain ⟨p1, p2⟩ := place_settings r
  have hsec : ∀ name, FirstSection r name ((defaultSettings (overrideFormat r (defaultFormat (place fresh r)))).cur.sections.get? name) := by
    intro name
    rw [d1, o1 name]
    unfold FirstSection
    obtain ⟨q1, q2⟩ := place_get r name
    by_cases hn : name = str "Format"
    · rw [if_pos hn]
      have hnd : ¬ Dropped r name := by
        rintro ⟨_, ⟨h, _⟩ | ⟨w, _, ⟨h, _⟩ | ⟨h, _⟩ | ⟨h, _⟩⟩⟩ <;> rw [hn] at h <;> exact absurd h (by decide)
      cases hf : r.format with
      | some l => simp only [if_pos hn]
      | none =>
        simp only
        rw [f1 name, q2 hnd]
        by_cases hg : given r name = none ∨ given r name = some []
        · rw [if_pos hg, if_pos ⟨hn, hg⟩]
        · rw [if_neg hg, if_neg (fun h => hg h.2)]
    · rw [if_neg hn]
      have hf : (match r.format with
          | none => (defaultFormat (place fresh r)).cur.sections.get? name
          | some l => if name = str "Format" then some [(str "CSV", decide (str "csv" ∈ l)), (str "JSON", decide (str "json" ∈ l))]
            else (defaultFormat (place fresh r)).cur.sections.get? name) = (place fresh r).cur.sections.get? name := by
        have := f1 name
        rw [if_neg (fun h => hn h.1)] at this
        cases r.format with
        | none => exact this
        | some l => simp only [if_neg hn]; exact this
      rw [hf]
      exact ⟨q1, q2⟩
  have huniq : ∀ name, name ≠ str "Format" → ∀ s s', FirstSection r name s → FirstSection r name s' → s = s' := by
    intro name hn s s' h h'
    unfold FirstSection at h h'
    rw [if_neg hn] at h h'
    by_cases hd : Dropped r name
    · rw [h.1 hd, h'.1 hd]
    · rw [h.2 hd, h'.2 hd]
  have hset : FirstSettings r (resolveSettings (defaultSettings (overrideFormat r (defaultFormat (place fresh r)))).shared
      (defaultSettings (overrideFormat r (defaultFormat (place fresh r)))).cur.settings) := by
    have hp : (overrideFormat r (defaultFormat (place fresh r))).shared.pbe = fresh.pbe := by rw [o3, f3, p2]
    rw [d3, o2, f2, resolve_pbe _ fresh hp, hp]
    exact p1
  have hiff : ∀ name ∈ [str "Asset", str "Damage", str "Loss"],
      ((defaultSettings (overrideFormat r (defaultFormat (place fresh r)))).cur.specified name = true ↔
        ∃ s, FirstSection r name s ∧ Asks s) := by
    intro name hn
    rw [specified_iff]
    constructor
    · intro h; exact ⟨_, hsec name, h⟩
    · rintro ⟨s, h1, h2⟩
      rw [huniq name (by rintro rfl; exact absurd hn (by decide)) _ _ (hsec name) h1]
      exact h2
  have id := hiff (str "Damage") (by simp)
  have il := hiff (str "Loss") (by simp)
  unfold parseOutputs
  simp only
  generalize hst : defaultSettings (overrideFormat r (defaultFormat (place fresh r))) = st at *
  have hrhs : (∃ name there s, (name, there) ∈ [(str "Damage", r.damage), (str "Loss", r.losses)] ∧
        there = false ∧ FirstSection r name s ∧ Asks s) ↔
      (st.cur.specified (str "Damage") = true ∧ r.damage = false) ∨
      (st.cur.specified (str "Loss") = true ∧ r.losses = false) := by
    rw [id, il]
    constructor
    · rintro ⟨name, there, s, hm, ht, h1, h2⟩
      simp only [List.mem_cons, Prod.mk.injEq, List.not_mem_nil, or_false] at hm
      rcases hm with ⟨rfl, rfl⟩ | ⟨rfl, rfl⟩
      · exact Or.inl ⟨⟨s, h1, h2⟩, ht⟩
      · exact Or.inr ⟨⟨s, h1, h2⟩, ht⟩
    · rintro (⟨⟨s, h1, h2⟩, ht⟩ | ⟨⟨s, h1, h2⟩, ht⟩)
      · exact ⟨_, _, s, by simp, ht, h1, h2⟩
      · exact ⟨_, _, s, by simp, ht, h1, h2⟩
  rw [hrhs]
  by_cases ha : (!r.asset) = true
  · rw [if_pos ha]
    simp only [Bool.not_eq_true'] at ha
    exact ⟨by simp, by simp [ha]⟩
  · rw [if_neg ha]
    simp only [Bool.not_eq_true'] at ha
    by_cases hd : (st.cur.specified (str "Damage") && !r.damage) = true
    · rw [if_pos hd]
      simp only [Bool.and_eq_true, Bool.not_eq_true'] at hd
      exact ⟨by simp, by simp [hd]⟩
    · rw [if_neg hd]
      simp only [Bool.and_eq_true, Bool.not_eq_true'] at hd
      by_cases hl : (st.cur.specified (str "Loss") && !r.losses) = true
      · rw [if_pos hl]
        simp only [Bool.and_eq_true, Bool.not_eq_true'] at hl
        exact ⟨by simp, by simp [hl]⟩
      · rw [if_neg hl]
        simp only [Bool.and_eq_true, Bool.not_eq_true'] at hl
        refine ⟨?_, by simp [ha, hd, hl]⟩
        intro e he
        cases he
        exact ⟨hsec, hset⟩

/-- Not vacuous: a generated configuration without losses and without damage results. -/
example : (parseOutputs fresh ⟨true, false, none, false, true, true, false, some ⟨true, true, false, true⟩, some [str "csv"]⟩).1 =
    .ok ⟨[(str "Demand", [(str "Sample", true), (str "Statistics", false)]), (str "Asset", [(str "Sample", true), (str "Statistics", false)]),
      (str "Damage", []), (str "Loss", []), (str "Format", [(str "CSV", true), (str "JSON", false)])], regionalSettings⟩ := by decide

/-! ## C66 -/

theorem get?_filter (fs : Files) (p : Str → Bool) (f : Str) :
    Dict.get? (fs.filter fun x => p x.1) f = if p f then Dict.get? fs f else none := by
  induction fs with
  | nil => simp
  | cons x fs ih =>
    obtain ⟨k, v⟩ := x
    rw [List.filter_cons]
    by_cases hk : p k = true
    · rw [if_pos hk, Dict.get?_cons, Dict.get?_cons, ih]
      by_cases he : k = f
      · rw [if_pos he, if_pos he, if_pos (he ▸ hk)]
      · rw [if_neg he, if_neg he]
    · rw [if_neg hk, ih, Dict.get?_cons]
      by_cases he : k = f
      · rw [if_neg (he ▸ hk), if_neg (he ▸ hk)]
      · rw [if_neg he]

theorem get?_writeAll (n : Nat) (names : List Str) (fs : Files) (f : Str) :
    (writeAll n names fs).get? f = if f ∈ names then some n else fs.get? f := by
  unfold writeAll
  induction names generalizing fs with
  | nil => simp
  | cons a names ih =>
    rw [List.foldl_cons, ih, Dict.get?_set]
    by_cases h1 : f ∈ names
    · simp [h1]
    · by_cases h2 : a = f
      · simp [h2]
      · simp [h1, h2, Ne.symm h2]

theorem outFiles_known (e : Effective) (f : Str) (h : f ∈ outFiles e) : f ∈ knownFiles := by
  unfold outFiles at h
  rcases List.mem_append.mp h with h | h
  · obtain ⟨t, ht, rfl⟩ := List.mem_map.mp h
    have : ∀ t ∈ outputTable, t.2.2 ∈ knownFiles := by decide
    exact this t (List.mem_filter.mp ht).1
  · have : ∀ t ∈ [str "DL_summary.csv", str "DL_summary_stats.csv"], t ∈ knownFiles := by decide
    exact this f h

theorem json_not_known : ∀ g ∈ knownFiles, jsonName g ∉ knownFiles := by decide

theorem json_inj : ∀ g ∈ knownFiles, ∀ h ∈ knownFiles, jsonName g = jsonName h → g = h := by decide +kernel

/-- The file `f` (of any name) after a run. -/
theorem get?_runFiles (n : Nat) (e : Effective) (fs : Files) (f : Str) :
    (runFiles n e fs).get? f =
      if f ∈ outFiles e then (if formatFlag e (str "CSV") || isSummary f then some n else none)
      else if f ∈ knownFiles then none
      else if formatFlag e (str "JSON") = true ∧ f ∈ (outFiles e).map jsonName then some n
      else fs.get? f := by
  have hnj : f ∈ outFiles e → f ∉ (outFiles e).map jsonName := by
    intro h h'
    obtain ⟨g, hg, he⟩ := List.mem_map.mp h'
    exact json_not_known g (outFiles_known e g hg) (he ▸ outFiles_known e f h)
  have hkj : f ∈ knownFiles → f ∉ (outFiles e).map jsonName := by
    intro h h'
    obtain ⟨g, hg, he⟩ := List.mem_map.mp h'
    exact json_not_known g (outFiles_known e g hg) (he ▸ h)
  have h1 : ∀ f, (writeAll n (outFiles e) (removeKnown fs)).get? f =
      if f ∈ outFiles e then some n else if f ∈ knownFiles then none else fs.get? f := by
    intro f
    rw [get?_writeAll]
    by_cases h : f ∈ outFiles e
    · simp [h]
    · rw [if_neg h, if_neg h]
      have := get?_filter fs (fun x => decide (x ∉ knownFiles)) f
      unfold removeKnown
      rw [this]
      by_cases hk : f ∈ knownFiles <;> simp [hk]
  have h2 : ∀ f, (if formatFlag e (str "JSON") = true then writeAll n ((outFiles e).map jsonName) (writeAll n (outFiles e) (removeKnown fs))
      else writeAll n (outFiles e) (removeKnown fs)).get? f =
      if formatFlag e (str "JSON") = true ∧ f ∈ (outFiles e).map jsonName then some n
      else if f ∈ outFiles e then some n else if f ∈ knownFiles then none else fs.get? f := by
    intro f
    by_cases hj : formatFlag e (str "JSON") = true
    · rw [if_pos hj, get?_writeAll, h1]
      simp [hj]
    · rw [if_neg hj, h1]
      simp [hj]
  unfold runFiles
  simp only
  by_cases hc : formatFlag e (str "CSV") = true
  · rw [if_pos hc, h2, hc]
    by_cases ho : f ∈ outFiles e
    · have := hnj ho
      rw [if_neg (fun h => this h.2), if_pos ho]
      simp [ho]
    · rw [if_neg ho, if_neg ho]
      by_cases hk : f ∈ knownFiles
      · have := hkj hk
        rw [if_neg (fun h => this h.2), if_pos hk, if_pos hk]
      · rw [if_neg hk, if_neg hk]
  · rw [if_neg hc]
    have := get?_filter (if formatFlag e (str "JSON") = true then writeAll n ((outFiles e).map jsonName) (writeAll n (outFiles e) (removeKnown fs))
      else writeAll n (outFiles e) (removeKnown fs)) (fun x => !(decide (x ∈ outFiles e) && !isSummary x)) f
    rw [this, h2]
    have hc' : formatFlag e (str "CSV") = false := by simpa using hc
    rw [hc']
    by_cases ho : f ∈ outFiles e
    · have := hnj ho
      simp only [ho, decide_true, Bool.true_and, Bool.not_not, Bool.false_or, if_true]
      by_cases hs : isSummary f = true
      · rw [if_pos hs, if_pos hs, if_neg (fun h => this h.2)]
      · rw [if_neg hs, if_neg hs]
    · simp only [ho, decide_false, Bool.false_and, Bool.not_false, if_true, if_false]
      by_cases hk : f ∈ knownFiles
      · have := hkj hk
        rw [if_neg (fun h => this h.2), if_pos hk, if_pos hk]
      · rw [if_neg hk, if_neg hk]

/-- Specification: the result table of each kind of output. -/
def tableOf : List (Str × Str × Str) :=
  [(str "Demand", str "Sample", str "DEM_sample.zip"), (str "Demand", str "Statistics", str "DEM_stats.csv"),
   (str "Asset", str "Sample", str "CMP_sample.zip"), (str "Asset", str "Statistics", str "CMP_stats.csv"),
   (str "Damage", str "Sample", str "DMG_sample.zip"), (str "Damage", str "Statistics", str "DMG_stats.csv"),
   (str "Damage", str "GroupedSample", str "DMG_grp.zip"), (str "Damage", str "GroupedStatistics", str "DMG_grp_stats.csv"),
   (str "Loss", str "Sample", str "DV_repair_sample.zip"), (str "Loss", str "Statistics", str "DV_repair_stats.csv"),
   (str "Loss", str "GroupedSample", str "DV_repair_grp.zip"), (str "Loss", str "GroupedStatistics", str "DV_repair_grp_stats.csv"),
   (str "Loss", str "AggregateSample", str "DV_repair_agg.zip"), (str "Loss", str "AggregateStatistics", str "DV_repair_agg_stats.csv")]

/-- Specification: the summary tables. -/
def summaries : List Str := [str "DL_summary.csv", str "DL_summary_stats.csv"]

/-- Specification: the result tables. -/
def resultFiles : List Str := tableOf.map (fun t => t.2.2) ++ summaries

/-- Specification: an output is requested. -/
def Wants (e : Effective) (sec name : Str) : Prop := ∃ s, e.sections.get? sec = some s ∧ s.get? name = some true

/-- Specification: the run computes this table. -/
def Made (e : Effective) (f : Str) : Prop := f ∈ summaries ∨ ∃ sec name, (sec, name, f) ∈ tableOf ∧ Wants e sec name

/-- Specification: `g` is the name of the table `f` in JSON format: the extension is replaced. -/
def IsJson (f g : Str) : Prop := ∃ base ext, ext.length = 3 ∧ f = base ++ '.' :: ext ∧ g = base ++ str ".json"

theorem resultFiles_iff (f : Str) : f ∈ resultFiles ↔ f ∈ knownFiles := by
  have h1 : ∀ f ∈ resultFiles, f ∈ knownFiles := by decide
  have h2 : ∀ f ∈ knownFiles, f ∈ resultFiles := by decide
  exact ⟨h1 f, h2 f⟩

theorem wants_iff (e : Effective) (sec name : Str) : Wants e sec name ↔ requested e sec name = true := by
  unfold Wants requested
  cases e.sections.get? sec with
  | none => simp
  | some s => simp

theorem made_iff (e : Effective) (f : Str) : Made e f ↔ f ∈ outFiles e := by
  unfold Made outFiles summaries
  rw [List.mem_append, List.mem_map, or_comm, show tableOf = outputTable from rfl]
  refine or_congr ?_ Iff.rfl
  constructor
  · rintro ⟨sec, name, h1, h2⟩
    exact ⟨(sec, name, f), List.mem_filter.mpr ⟨h1, (wants_iff _ _ _).mp h2⟩, rfl⟩
  · rintro ⟨t, ht, rfl⟩
    obtain ⟨h1, h2⟩ := List.mem_filter.mp ht
    exact ⟨t.1, t.2.1, h1, (wants_iff _ _ _).mpr h2⟩

theorem isJson_iff (f g : Str) (hf : f ∈ knownFiles) : IsJson f g ↔ g = jsonName f := by
  have hlong : ∀ f ∈ knownFiles, f = f.dropLast.dropLast.dropLast.dropLast ++ '.' :: f.drop (f.length - 3) ∧ (f.drop (f.length - 3)).length = 3 ∧
      jsonName f = f.dropLast.dropLast.dropLast.dropLast ++ str ".json" := by decide
  obtain ⟨h1, h2, h3⟩ := hlong f hf
  constructor
  · rintro ⟨base, ext, hl, he, rfl⟩
    rw [h3]
    congr 1
    rw [he]
    match ext, hl with
    | [a, b, c], _ => simp [List.dropLast_append_of_ne_nil, List.dropLast]
  · rintro rfl
    exact ⟨_, _, h2, h1, h3⟩

theorem tables_own (n : Nat) (e : Effective) (fs : Files) (f : Str) (hf : f ∈ knownFiles) (k : Nat)
    (h : (runFiles n e fs).get? f = some k) : k = n := by
  rw [get?_runFiles] at h
  by_cases ho : f ∈ outFiles e
  · rw [if_pos ho] at h
    split at h
    · exact (Option.some.inj h).symm
    · simp at h
  · rw [if_neg ho, if_pos hf] at h
    simp at h

theorem tables_exact (n : Nat) (e : Effective) (fs : Files) (f : Str) (hf : f ∈ knownFiles) :
    ((runFiles n e fs).get? f).isSome = true ↔
      f = str "DL_summary.csv" ∨ f = str "DL_summary_stats.csv" ∨
      (requested e (str "Format") (str "CSV") = true ∧ ∃ sec name, (sec, name, f) ∈ outputTable ∧ requested e sec name = true) := by
  have hsum : ∀ f ∈ knownFiles, isSummary f = true ↔ (f = str "DL_summary.csv" ∨ f = str "DL_summary_stats.csv") := by decide
  have hout : f ∈ outFiles e ↔ (f = str "DL_summary.csv" ∨ f = str "DL_summary_stats.csv") ∨
      ∃ sec name, (sec, name, f) ∈ outputTable ∧ requested e sec name = true := by
    unfold outFiles
    rw [List.mem_append, List.mem_map]
    simp only [List.mem_cons, List.not_mem_nil, or_false]
    constructor
    · rintro (⟨t, ht, rfl⟩ | h)
      · obtain ⟨h1, h2⟩ := List.mem_filter.mp ht
        exact Or.inr ⟨t.1, t.2.1, h1, h2⟩
      · exact Or.inl h
    · rintro (h | ⟨sec, name, h1, h2⟩)
      · exact Or.inr h
      · exact Or.inl ⟨(sec, name, f), List.mem_filter.mpr ⟨h1, h2⟩, rfl⟩
  rw [get?_runFiles]
  by_cases ho : f ∈ outFiles e
  · rw [if_pos ho]
    have h' := hout.mp ho
    unfold formatFlag
    by_cases hs : isSummary f = true
    · have := (hsum f hf).mp hs
      rw [hs]
      simp only [Bool.or_true, if_true, Option.isSome_some, true_iff]
      rcases this with h | h
      · exact Or.inl h
      · exact Or.inr (Or.inl h)
    · have hns := fun h => hs ((hsum f hf).mpr h)
      have hs' : isSummary f = false := by simpa using hs
      rw [hs', Bool.or_false]
      rcases h' with h' | h'
      · exact absurd h' hns
      · by_cases hc : requested e (str "Format") (str "CSV") = true
        · simp [hc, h']
        · simp only [hc, Bool.false_eq_true, if_false, Option.isSome_none, false_iff, not_or, false_and, not_false_eq_true, and_true]
          exact ⟨fun h => hns (Or.inl h), fun h => hns (Or.inr h)⟩
  · rw [if_neg ho, if_pos hf]
    simp only [Option.isSome_none, Bool.false_eq_true, false_iff]
    rintro (h | h | ⟨_, h⟩)
    · exact ho (hout.mpr (Or.inl (Or.inl h)))
    · exact ho (hout.mpr (Or.inl (Or.inr h)))
    · exact ho (hout.mpr (Or.inr h))

theorem json_exact (n : Nat) (e : Effective) (fs : Files) (g : Str) (hg : g ∈ knownFiles) (k : Nat) :
    (runFiles n e fs).get? (jsonName g) = some k ↔
      (k = n ∧ requested e (str "Format") (str "JSON") = true ∧ g ∈ outFiles e) ∨
      (¬ (requested e (str "Format") (str "JSON") = true ∧ g ∈ outFiles e) ∧ fs.get? (jsonName g) = some k) := by
  have h1 : jsonName g ∉ knownFiles := json_not_known g hg
  have h2 : jsonName g ∉ outFiles e := fun h => h1 (outFiles_known e _ h)
  have h3 : jsonName g ∈ (outFiles e).map jsonName ↔ g ∈ outFiles e := by
    constructor
    · intro h
      obtain ⟨x, hx, he⟩ := List.mem_map.mp h
      rw [← json_inj x (outFiles_known e x hx) g hg he]
      exact hx
    · intro h; exact List.mem_map.mpr ⟨g, h, rfl⟩
  rw [get?_runFiles, if_neg h2, if_neg h1]
  simp only [h3]
  unfold formatFlag
  by_cases hj : requested e (str "Format") (str "JSON") = true ∧ g ∈ outFiles e
  · rw [if_pos hj]
    simp [hj, eq_comm]
  · rw [if_neg hj]
    simp [hj]

theorem other_files (n : Nat) (e : Effective) (fs : Files) (f : Str) (hf : f ∉ knownFiles)
    (hj : ∀ g ∈ knownFiles, f ≠ jsonName g) : (runFiles n e fs).get? f = fs.get? f := by
  have h2 : f ∉ outFiles e := fun h => hf (outFiles_known e _ h)
  rw [get?_runFiles, if_neg h2, if_neg hf, if_neg]
  rintro ⟨_, h⟩
  obtain ⟨x, hx, he⟩ := List.mem_map.mp h
  exact hj x (outFiles_known e x hx) he.symm

/-- **C66, tables.** After a completed run the result tables in the folder (the CSV and ZIP files) all
stem from this run, whatever the folder contained before.  Missing: the JSON files, see below. -/
theorem C66_tables_partial (n : Nat) (e : Effective) (fs : Files) (f : Str) (hf : f ∈ resultFiles) (k : Nat)
    (h : (runFiles n e fs).get? f = some k) : k = n := tables_own n e fs f ((resultFiles_iff f).mp hf) k h

/-- **C66, which tables.** A result table is in the folder after a run exactly if it is one of the
summaries, or it was requested and CSV files are requested. -/
theorem C66_tables_exact (n : Nat) (e : Effective) (fs : Files) (f : Str) (hf : f ∈ resultFiles) :
    (∃ k, (runFiles n e fs).get? f = some k) ↔
      f ∈ summaries ∨ (Wants e (str "Format") (str "CSV") ∧ ∃ sec name, (sec, name, f) ∈ tableOf ∧ Wants e sec name) := by
  have h := tables_exact n e fs f ((resultFiles_iff f).mp hf)
  rw [Option.isSome_iff_exists] at h
  rw [h, show tableOf = outputTable from rfl]
  simp only [wants_iff, summaries, List.mem_cons, List.not_mem_nil, or_false, or_assoc]

/-- **C66 does not hold for JSON files.** The JSON version of a table that the run does not write as
JSON stays in the folder, whichever run wrote it; only the others are replaced. -/
theorem C66_json_exact (n : Nat) (e : Effective) (fs : Files) (f g : Str) (hf : f ∈ resultFiles) (hg : IsJson f g) (k : Nat) :
    (runFiles n e fs).get? g = some k ↔
      (k = n ∧ Wants e (str "Format") (str "JSON") ∧ Made e f) ∨
      (¬ (Wants e (str "Format") (str "JSON") ∧ Made e f) ∧ fs.get? g = some k) := by
  have hf' := (resultFiles_iff f).mp hf
  rw [(isJson_iff f g hf').mp hg]
  simp only [wants_iff, made_iff]
  exact json_exact n e fs f hf' k

/-- **C66.** All other files in the folder are left alone. -/
theorem C66_other_files (n : Nat) (e : Effective) (fs : Files) (g : Str) (hf : g ∉ resultFiles)
    (hj : ∀ f ∈ resultFiles, ¬ IsJson f g) : (runFiles n e fs).get? g = fs.get? g := by
  refine other_files n e fs g (fun h => hf ((resultFiles_iff g).mpr h)) fun f hm he => ?_
  exact hj f ((resultFiles_iff f).mpr hm) ((isJson_iff f g hm).mpr he)

/-- Not vacuous: the summary and its JSON version. -/
example : str "DL_summary.csv" ∈ resultFiles ∧ IsJson (str "DL_summary.csv") (str "DL_summary.json") :=
  ⟨by decide, str "DL_summary", str "csv", rfl, rfl, rfl⟩

/-- The files after a session of runs in one folder, numbered from `n` on. -/
def sessionFiles : Nat → List Run → Shared → Files → Shared × Files
  | _, [], sh, fs => (sh, fs)
  | n, r :: rs, sh, fs => sessionFiles (n + 1) rs (runPelicun n r sh fs).1 (runPelicun n r sh fs).2

theorem sessionFiles_append (n : Nat) (rs rs' : List Run) (sh : Shared) (fs : Files) :
    sessionFiles n (rs ++ rs') sh fs = sessionFiles (n + rs.length) rs' (sessionFiles n rs sh fs).1 (sessionFiles n rs sh fs).2 := by
  induction rs generalizing n sh fs with
  | nil => rfl
  | cons r rs ih =>
    rw [List.cons_append, sessionFiles, ih, sessionFiles, List.length_cons]
    congr 1
    omega

/-- **C66, histories.** After every history of runs in a folder that ends with a completed run, the
result tables stem from the last run.  Missing: the JSON files. -/
theorem C66_history_partial (rs : List Run) (r : Run) (fs : Files) (f : Str) (hf : f ∈ resultFiles)
    (hskip : (r.auto && r.skip) = false)
    (hok : ∃ e, (parseOutputs (sessionFiles 0 rs fresh fs).1 r).1 = .ok e) (k : Nat)
    (h : (sessionFiles 0 (rs ++ [r]) fresh fs).2.get? f = some k) : k = rs.length := by
  obtain ⟨e, he⟩ := hok
  rw [sessionFiles_append] at h
  simp only [sessionFiles, runPelicun, hskip, Bool.false_eq_true, if_false, he] at h
  have := tables_own _ e _ f hf k h
  omega

theorem session_append (sh : Shared) (rs : List Run) (r : Run) (fs : Files) (n : Nat) :
    session sh ((rs ++ [r]).filter fun r => !(r.auto && r.skip)) =
      session sh (rs.filter fun r => !(r.auto && r.skip)) ++
        session (sessionFiles n rs sh fs).1 ([r].filter fun r => !(r.auto && r.skip)) := by
  induction rs generalizing sh fs n with
  | nil => rfl
  | cons a rs ih =>
    rw [List.cons_append]
    by_cases ha : (a.auto && a.skip) = true
    · rw [List.filter_cons_of_neg (by simp [ha]), List.filter_cons_of_neg (by simp [ha]), ih sh fs (n + 1)]
      simp only [sessionFiles, runPelicun, ha, if_true]
    · rw [Bool.not_eq_true] at ha
      rw [List.filter_cons_of_pos (by simp [ha]), List.filter_cons_of_pos (by simp [ha])]
      have h1 : (runPelicun n a sh fs).1 = (parseOutputs sh a).2 := by
        unfold runPelicun
        rw [ha]
        simp only [Bool.false_eq_true, if_false]
        split <;> rfl
      simp only [session, sessionFiles, List.cons_append]
      rw [h1, ih _ (runPelicun n a sh fs).2 (n + 1)]

/-- **C66, which tables after a history.** After a history of runs in one session the folder has exactly the tables that
the last run asks for in the configuration it really uses, which is the one of C65, and not what it would use as the first
run. -/
theorem C66_history_tables (rs : List Run) (r : Run) (fs : Files) (e : Effective) (hskip : (r.auto && r.skip) = false)
    (hlast : (session fresh ((rs ++ [r]).filter fun r => !(r.auto && r.skip))).getLast? = some (.ok e))
    (f : Str) (hf : f ∈ resultFiles) :
    (sessionFiles 0 (rs ++ [r]) fresh fs).2.get? f = some rs.length ↔
      f ∈ summaries ∨ (Wants e (str "Format") (str "CSV") ∧ ∃ sec name, (sec, name, f) ∈ tableOf ∧ Wants e sec name) := by
  rw [session_append fresh rs r fs 0, List.filter_cons_of_pos (by simp [hskip]), List.filter_nil] at hlast
  simp only [session, List.getLast?_append, List.getLast?_singleton, Option.some_or, Option.some.injEq] at hlast
  rw [← C66_tables_exact rs.length e (sessionFiles 0 rs fresh fs).2 f hf, sessionFiles_append]
  simp only [sessionFiles, runPelicun, hskip, Bool.false_eq_true, if_false, hlast, Nat.zero_add]
  constructor
  · exact fun h => ⟨_, h⟩
  · rintro ⟨k, hk⟩
    rw [C66_tables_partial _ e _ f hf k hk] at hk
    exact hk

/-- Not vacuous, with a leak: the second run would write tables as the first run, but the format of the run before is
still in force. -/
example : (sessionFiles 0 [{ plainRun with format := some [str "json"] }, plainRun] fresh []).2.get? (str "DMG_grp.zip") = none ∧
    (sessionFiles 0 [plainRun] fresh []).2.get? (str "DMG_grp.zip") = some 0 := by decide +kernel

/-- Not vacuous, and the disagreement: the first run writes JSON files, the second one does not; the
summary in JSON format is that of the first run. -/
theorem C66_stale_json_witness :
    (sessionFiles 0 [leanRun, { plainRun with format := some [str "csv"] }] fresh []).2.get? (str "DL_summary.json") = some 0 ∧
    (sessionFiles 0 [leanRun, { plainRun with format := some [str "csv"] }] fresh []).2.get? (str "DL_summary.csv") = some 1 ∧
    (sessionFiles 0 [leanRun, { plainRun with format := some [str "csv"] }] fresh []).2.get? (str "DMG_grp.zip") = some 1 := by
  decide +kernel

/-- A run that asks for no simulation leaves the results of earlier runs in the folder. -/
theorem C66_skipped_run_keeps_old_results (n : Nat) (r : Run) (sh : Shared) (fs : Files) (ha : r.auto = true) (hs : r.skip = true) :
    (runPelicun n r sh fs).2 = fs := by
  simp [runPelicun, ha, hs]

end Verif.ToolOut
