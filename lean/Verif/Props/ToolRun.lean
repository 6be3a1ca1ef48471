import Verif.Spec.ToolRun
import Verif.Props.ToolConfig
import Verif.Props.ToolOut

/-!
# C120: what a run of the tool does, and what it leaves behind if it ends early

Specification in `Spec/ToolRun.lean`.
-/

namespace Verif.ToolRun

open Config ToolConfig
open ToolOut (Files knownFiles jsonName)

/-! ## Execution -/

theorem exec_spec (world : List Event → Event → Outcome) (n : Nat) (final : Option PyErr) (es : List Event) :
    ∀ begun fs, ∃ es1 es2, (exec world n final begun es fs).begun = begun ++ es1 ∧ es1 <+: es ∧ es2 <+: es1 ∧
      (exec world n final begun es fs).files = es2.foldl (fun fs e => effect n e fs) fs ∧ (es1 = es2 ∨ ∃ e, es1 = es2 ++ [e]) ∧
      ((exec world n final begun es fs).error = none → es2 = es ∧ es1 = es ∧ final = none) := by
  induction es with
  | nil =>
    intro begun fs
    exact ⟨[], [], by simp [exec], List.prefix_rfl, List.prefix_rfl, rfl, .inl rfl, fun h => ⟨rfl, rfl, h⟩⟩
  | cons e es ih =>
    intro begun fs
    unfold exec
    cases hw : world begun e with
    | ok =>
      obtain ⟨es1, es2, h1, h2, h3, h4, h6, h5⟩ := ih (begun ++ [e]) (effect n e fs)
      refine ⟨e :: es1, e :: es2, by simp [h1], ?_, ?_, by simpa using h4, ?_, ?_⟩
      · exact (List.prefix_cons_inj e).2 h2
      · exact (List.prefix_cons_inj e).2 h3
      · rcases h6 with rfl | ⟨x, rfl⟩
        · exact .inl rfl
        · exact .inr ⟨x, rfl⟩
      · intro h
        obtain ⟨a, b, c⟩ := h5 h
        exact ⟨by rw [a], by rw [b], c⟩
    | failed x b =>
      refine ⟨[e], if b then [e] else [], rfl, by simp, ?_, ?_, ?_, by simp⟩
      · cases b <;> simp
      · cases b <;> rfl
      · cases b <;> simp

theorem exec_ok (n : Nat) (final : Option PyErr) (es : List Event) :
    ∀ begun fs, exec (fun _ _ => .ok) n final begun es fs = ⟨begun ++ es, es.foldl (fun fs e => effect n e fs) fs, final⟩ := by
  induction es with
  | nil => intro begun fs; simp [exec]
  | cons e es ih => intro begun fs; simp [exec, ih]

theorem get?_filter_ne (fs : Files) (f g : Str) :
    Dict.get? (fs.filter fun e => decide (e.1 ≠ f)) g = if g = f then none else fs.get? g := by
  induction fs with
  | nil => simp [Dict.get?]
  | cons e fs ih =>
    obtain ⟨k, v⟩ := e
    by_cases hk : k = f
    · subst hk
      simp only [ne_eq, not_true_eq_false, decide_false, Bool.false_eq_true, not_false_eq_true, List.filter_cons_of_neg]
      rw [ih]
      by_cases hg : g = k
      · simp [hg]
      · simp [hg, Dict.get?, Ne.symm hg]
    · rw [List.filter_cons_of_pos (by simpa using hk)]
      simp only [Dict.get?]
      rw [ih]
      by_cases hg : k = g
      · subst hg; simp [hk]
      · simp [hg]

theorem get?_effect (n : Nat) (e : Event) (fs : Files) (g : Str) :
    (effect n e fs).get? g = match e with
      | .write f => if g = f then some n else fs.get? g
      | .json f => if g = jsonName f then some n else fs.get? g
      | .remove f => if g = f then none else fs.get? g
      | _ => fs.get? g := by
  cases e with
  | compute s => rfl
  | collect s => rfl
  | write f => simp only [effect]; rw [Dict.get?_set]; simp [eq_comm]
  | json f => simp only [effect]; rw [Dict.get?_set]; simp [eq_comm]
  | remove f => simp only [effect]; rw [get?_filter_ne]

/-- Steps that do not touch a file. -/
def Touches (g : Str) : Event → Prop
  | .write f => g = f
  | .json f => g = jsonName f
  | .remove f => g = f
  | _ => False

theorem foldl_untouched (n : Nat) (g : Str) (es : List Event) (h : ∀ e ∈ es, ¬ Touches g e) :
    ∀ fs : Files, Dict.get? (es.foldl (fun fs e => effect n e fs) fs) g = fs.get? g := by
  induction es with
  | nil => intro fs; rfl
  | cons e es ih =>
    intro fs
    rw [List.foldl_cons, ih (fun e he => h e (List.mem_cons_of_mem _ he)), get?_effect]
    have := h e (by simp)
    cases e <;> simp_all [Touches]

/-- A file after some steps: as before, or written by one of them, or removed. -/
theorem foldl_cases (n : Nat) (g : Str) (es : List Event) :
    ∀ fs : Files, Dict.get? (es.foldl (fun fs e => effect n e fs) fs) g = fs.get? g ∨
      Dict.get? (es.foldl (fun fs e => effect n e fs) fs) g = none ∨
      (Dict.get? (es.foldl (fun fs e => effect n e fs) fs) g = some n ∧
        ((∃ f, .write f ∈ es ∧ g = f) ∨ ∃ f, .json f ∈ es ∧ g = jsonName f)) := by
  induction es with
  | nil => intro fs; exact .inl rfl
  | cons e es ih =>
    intro fs
    rw [List.foldl_cons]
    rcases ih (effect n e fs) with h | h | ⟨h, hw⟩
    · rw [h, get?_effect]
      cases e with
      | compute s => exact .inl rfl
      | collect s => exact .inl rfl
      | write f =>
        by_cases hg : g = f
        · exact .inr (.inr ⟨by simp [hg], .inl ⟨f, by simp, hg⟩⟩)
        · exact .inl (by simp [hg])
      | json f =>
        by_cases hg : g = jsonName f
        · exact .inr (.inr ⟨by simp [hg], .inr ⟨f, by simp, hg⟩⟩)
        · exact .inl (by simp [hg])
      | remove f =>
        by_cases hg : g = f
        · exact .inr (.inl (by simp [hg]))
        · exact .inl (by simp [hg])
    · exact .inr (.inl h)
    · refine .inr (.inr ⟨h, ?_⟩)
      rcases hw with ⟨f, h1, h2⟩ | ⟨f, h1, h2⟩
      · exact .inl ⟨f, List.mem_cons_of_mem _ h1, h2⟩
      · exact .inr ⟨f, List.mem_cons_of_mem _ h1, h2⟩

/-- A file that is removed and not written is gone. -/
theorem foldl_removed (n : Nat) (g : Str) (es : List Event) (hr : .remove g ∈ es) (hw : ∀ e ∈ es, Touches g e → e = .remove g) :
    ∀ fs : Files, Dict.get? (es.foldl (fun fs e => effect n e fs) fs) g = none := by
  induction es with
  | nil => simp at hr
  | cons e es ih =>
    intro fs
    rw [List.foldl_cons]
    by_cases hm : .remove g ∈ es
    · exact ih hm (fun e he => hw e (List.mem_cons_of_mem _ he)) _
    · have he : e = .remove g := by
        rcases List.mem_cons.1 hr with h | h
        · exact h.symm
        · exact absurd h hm
      subst he
      rw [foldl_untouched n g es, get?_effect]
      · simp
      · intro e he ht
        rw [hw e (List.mem_cons_of_mem _ he) ht] at he
        exact hm he

/-- A file that is written and not removed is there. -/
theorem foldl_written (n : Nat) (g : Str) (es : List Event) (hr : ∃ e ∈ es, Touches g e) (hw : .remove g ∉ es) :
    ∀ fs : Files, Dict.get? (es.foldl (fun fs e => effect n e fs) fs) g = some n := by
  induction es with
  | nil => simp at hr
  | cons e es ih =>
    intro fs
    rw [List.foldl_cons]
    by_cases hm : ∃ e ∈ es, Touches g e
    · exact ih hm (fun h => hw (List.mem_cons_of_mem _ h)) _
    · rw [foldl_untouched n g es (fun e he ht => hm ⟨e, he, ht⟩), get?_effect]
      obtain ⟨e', he', ht⟩ := hr
      rcases List.mem_cons.1 he' with rfl | he'
      · cases e' with
        | compute s => exact absurd ht (by simp [Touches])
        | collect s => exact absurd ht (by simp [Touches])
        | write f => simp only [Touches] at ht; simp [ht]
        | json f => simp only [Touches] at ht; simp [ht]
        | remove f => simp only [Touches] at ht; subst ht; exact absurd (by simp) hw
      · exact absurd ⟨e', he', ht⟩ hm

/-! ## The program -/

theorem mem_andThen {p q : Prog} {e : Event} (h : e ∈ (p.andThen q).events) : e ∈ p.events ∨ (p.error = none ∧ e ∈ q.events) := by
  unfold Prog.andThen at h
  cases hp : p.error with
  | some x => rw [hp] at h; exact .inl h
  | none => rw [hp] at h; simpa using h

theorem andThen_error {p q : Prog} : (p.andThen q).error = none ↔ p.error = none ∧ q.error = none := by
  unfold Prog.andThen
  cases hp : p.error with
  | some x => simp [hp]
  | none => simp

theorem andThen_events {p q : Prog} (h : p.error = none) : (p.andThen q).events = p.events ++ q.events := by
  unfold Prog.andThen
  rw [h]

/-- The beginning of a program: of its first part, or all of it and the beginning of the second. -/
theorem prefix_andThen {p q : Prog} {es : List Event} (h : es <+: (p.andThen q).events) :
    es <+: p.events ∨ (p.error = none ∧ ∃ t, es = p.events ++ t ∧ t <+: q.events) := by
  unfold Prog.andThen at h
  cases hp : p.error with
  | some x => rw [hp] at h; exact .inl h
  | none =>
    rw [hp] at h
    obtain ⟨t, ht⟩ := h
    rcases List.append_eq_append_iff.1 ht with ⟨a, h1, _⟩ | ⟨a, h1, h2⟩
    · exact .inl ⟨a, h1.symm⟩
    · exact .inr ⟨rfl, a, h1, ⟨t, h2.symm⟩⟩

theorem whenGiven_events {np22 : Bool} {c : Fields} {path : String} {p : Prog} {e : Event} (h : e ∈ (whenGiven np22 c path p).events) :
    Given np22 c path ∧ e ∈ p.events := by
  unfold whenGiven at h
  split at h
  · simp [Prog.raise] at h
  · simp [Prog.done] at h
  · rename_i hu
    exact ⟨hu, h⟩

theorem requested_iff (f : Fields) (name : Str) : requested f name = true ↔ f.get? name = some (bool true) := by
  unfold requested
  exact beq_iff_eq

theorem mem_writeRequested (f : Fields) (table : List (Str × Str)) (e : Event) :
    e ∈ writeRequested f table ↔ ∃ name file, (name, file) ∈ table ∧ f.get? name = some (bool true) ∧ e = .write file := by
  induction table with
  | nil => simp [writeRequested]
  | cons t table ih =>
    obtain ⟨name, file⟩ := t
    simp only [writeRequested]
    by_cases h : f.get? name = some (bool true)
    · rw [if_pos ((requested_iff ..).2 h)]
      simp only [List.mem_cons, ih, Prod.mk.injEq]
      constructor
      · rintro (rfl | ⟨a, b, h1, h2, h3⟩)
        · exact ⟨name, file, .inl ⟨rfl, rfl⟩, h, rfl⟩
        · exact ⟨a, b, .inr h1, h2, h3⟩
      · rintro ⟨a, b, ⟨rfl, rfl⟩ | h1, h2, h3⟩
        · exact .inl h3
        · exact .inr ⟨a, b, h1, h2, h3⟩
    · rw [if_neg (fun hr => h ((requested_iff ..).1 hr)), ih]
      constructor
      · rintro ⟨a, b, h1, h2, h3⟩
        exact ⟨a, b, List.mem_cons_of_mem _ h1, h2, h3⟩
      · rintro ⟨a, b, h1, h2, h3⟩
        rcases List.mem_cons.1 h1 with h1 | h1
        · rw [Prod.mk.injEq] at h1
          obtain ⟨rfl, rfl⟩ := h1
          exact absurd h2 h
        · exact ⟨a, b, h1, h2, h3⟩

/-- A flag in a section of the outputs. -/
theorem val_flag {c : Fields} {path : String} {f : Fields} (hf : val c path = .dict f) (p : String) (name : Str)
    (hp : pathKeys (str p) = pathKeys (str path) ++ [name]) (b : Bool) :
    f.get? name = some (bool b) ↔ val c p = bool b := by
  rw [val_eq, hp]
  rw [val_eq] at hf
  cases hl : look c (pathKeys (str path)) with
  | none => rw [hl] at hf; cases hf
  | some w =>
    rw [hl] at hf
    simp only [Option.getD_some] at hf
    subst hf
    unfold look at hl ⊢
    rw [at_append, hl]
    simp only [Option.bind_some, Js.at]
    cases f.get? name with
    | none => simp [null, ToolConfig.bool]
    | some v => simp [Js.at]

/-- The steps begun end within a part of the program, or the part was completed. -/
theorem cut {A es es1 es2 : List Event} (hA : A <+: es) (h1 : es1 <+: es) (h : es1 = es2 ∨ ∃ e, es1 = es2 ++ [e]) :
    es1 <+: A ∨ A <+: es2 := by
  rcases List.prefix_or_prefix_of_prefix h1 hA with h2 | h2
  · exact .inl h2
  · rcases h with rfl | ⟨e, rfl⟩
    · exact .inr h2
    · rcases List.prefix_concat_iff.1 h2 with rfl | h3
      · exact .inl List.prefix_rfl
      · exact .inr h3

/-! ## The tables -/

theorem flag_iff {c : Fields} {path : String} {f : Fields} (hf : val c path = .dict f) {table : List (Str × Str)}
    (ht : ∀ t ∈ table, ∃ q ∈ tables, q.2 = t.2 ∧ pathKeys (str q.1) = pathKeys (str path) ++ [t.1])
    {e : Event} (h : e ∈ writeRequested f table) : ∃ file, e = .write file ∧ Wanted c file ∧ file ∈ table.map Prod.snd := by
  obtain ⟨name, file, h1, h2, rfl⟩ := (mem_writeRequested ..).1 h
  obtain ⟨q, hq, hq2, hq3⟩ := ht _ h1
  refine ⟨file, rfl, .inr ⟨q.1, ?_, (val_flag hf q.1 name hq3 true).1 h2⟩, List.mem_map.2 ⟨_, h1, rfl⟩⟩
  simp only at hq2
  rw [← hq2]
  exact hq

theorem collect_cases {c : Fields} {path : String} {s : Stage} {table : List (Str × Str)}
    (ht : ∀ t ∈ table, ∃ q ∈ tables, q.2 = t.2 ∧ pathKeys (str q.1) = pathKeys (str path) ++ [t.1])
    {e : Event} (h : e ∈ (collectAndSave s (val c path) table).events) :
    e = .collect s ∨ ∃ file, e = .write file ∧ Wanted c file ∧ file ∈ table.map Prod.snd := by
  unfold collectAndSave at h
  split at h
  · exact .inl (by simpa using h)
  · rename_i f hf
    rcases List.mem_cons.1 h with h | h
    · exact .inl h
    · exact .inr (flag_iff hf ht h)

theorem demand_cases {c : Fields} {e : Event} (h : e ∈ (demandSave (val c "DL/Outputs/Demand")).events) :
    e = .collect .demand ∨ ∃ file, e = .write file ∧ Wanted c file ∧ file ∈ tablesOf .demand := by
  unfold demandSave at h
  split at h
  · simp [Prog.raise] at h
  · rename_i f hf
    rcases List.mem_cons.1 h with h | h
    · exact .inl h
    · exact .inr (flag_iff hf (by decide +kernel) h)

/-- What is saved. -/
theorem saves_cases {np22 : Bool} {c : Fields} {e : Event} (h : e ∈ (saves np22 c).events) :
    (∃ s, e = .collect s) ∨ ∃ file, e = .write file ∧ Wanted c file ∧ ∃ s, file ∈ tablesOf s ∧
      (s = .damage → Given np22 c "DL/Outputs/Damage") ∧ (s = .loss → noRepair np22 c = false) := by
  unfold saves at h
  rcases mem_andThen h with h | ⟨_, h⟩
  · obtain ⟨_, h⟩ := whenGiven_events h
    rcases demand_cases h with h | ⟨f, h1, h2, h3⟩
    · exact .inl ⟨_, h⟩
    · exact .inr ⟨f, h1, h2, .demand, h3, by simp, by simp⟩
  rcases mem_andThen h with h | ⟨_, h⟩
  · obtain ⟨_, h⟩ := whenGiven_events h
    rcases collect_cases (by decide +kernel) h with h | ⟨f, h1, h2, h3⟩
    · exact .inl ⟨_, h⟩
    · exact .inr ⟨f, h1, h2, .asset, h3, by simp, by simp⟩
  rcases mem_andThen h with h | ⟨_, h⟩
  · obtain ⟨hg, h⟩ := whenGiven_events h
    rcases collect_cases (by decide +kernel) h with h | ⟨f, h1, h2, h3⟩
    · exact .inl ⟨_, h⟩
    · exact .inr ⟨f, h1, h2, .damage, h3, fun _ => hg, by simp⟩
  rcases mem_andThen h with h | ⟨_, h⟩
  · obtain ⟨hg, h⟩ := whenGiven_events h
    split at h
    · simp [Prog.raise] at h
    · rename_i hn
      rcases collect_cases (by decide +kernel) h with h | ⟨f, h1, h2, h3⟩
      · exact .inl ⟨_, h⟩
      · exact .inr ⟨f, h1, h2, .loss, h3, by simp, fun _ => by simpa using hn⟩
  · simp only [List.mem_cons, List.not_mem_nil, or_false] at h
    rcases h with rfl | rfl
    · exact .inr ⟨_, rfl, .inl (by simp [summaries]), .summary, by simp [tablesOf, summaries], by simp, by simp⟩
    · exact .inr ⟨_, rfl, .inl (by simp [summaries]), .summary, by simp [tablesOf, summaries], by simp, by simp⟩

theorem wanted_result {c : Fields} {f : Str} (h : Wanted c f) : f ∈ resultFiles := by
  rcases h with h | ⟨p, h, _⟩
  · exact List.mem_append_right _ h
  · exact List.mem_append_left _ (List.mem_map.2 ⟨_, h, rfl⟩)

theorem section_given (np22 : Bool) {c : Fields} {path p : String} {name : Str} (hp : pathKeys (str p) = pathKeys (str path) ++ [name])
    (hv : val c p = bool true) : ∃ f, val c path = .dict f ∧ f.get? name = some (bool true) ∧ unspec np22 c path = .ok false := by
  have hl : look c (pathKeys (str path) ++ [name]) = some (bool true) := by
    rw [val_eq, hp] at hv
    cases hl : look c (pathKeys (str path) ++ [name]) with
    | none => rw [hl] at hv; cases hv
    | some w => rw [hl] at hv; exact congrArg some hv
  obtain ⟨k, w, f, hf⟩ := above c _ _ _ hl (by simp)
  have hd : val c path = .dict (.cons k w f) := by rw [val_eq, hf]; rfl
  exact ⟨_, hd, (val_flag hd p name hp true).2 hv, unspec_above np22 c path _ _ hl (by simp)⟩

theorem collect_mem (np22 : Bool) {c : Fields} {path p : String} {s : Stage} {table : List (Str × Str)} {name file : Str}
    (hp : pathKeys (str p) = pathKeys (str path) ++ [name]) (hv : val c p = bool true) (ht : (name, file) ∈ table) :
    .write file ∈ (whenGiven np22 c path (collectAndSave s (val c path) table)).events := by
  obtain ⟨f, h1, h2, h3⟩ := section_given np22 hp hv
  unfold whenGiven collectAndSave
  rw [h3, h1]
  exact List.mem_cons_of_mem _ ((mem_writeRequested ..).2 ⟨name, file, ht, h2, rfl⟩)

theorem demand_mem (np22 : Bool) {c : Fields} {p : String} {name file : Str}
    (hp : pathKeys (str p) = pathKeys (str "DL/Outputs/Demand") ++ [name]) (hv : val c p = bool true)
    (ht : (name, file) ∈ [(str "Sample", str "DEM_sample.zip"), (str "Statistics", str "DEM_stats.csv")]) :
    .write file ∈ (whenGiven np22 c "DL/Outputs/Demand" (demandSave (val c "DL/Outputs/Demand"))).events := by
  obtain ⟨f, h1, h2, h3⟩ := section_given np22 hp hv
  unfold whenGiven demandSave
  rw [h3, h1]
  exact List.mem_cons_of_mem _ ((mem_writeRequested ..).2 ⟨name, file, ht, h2, rfl⟩)

/-- Everything that is asked for is saved. -/
theorem saves_mem {np22 : Bool} {c : Fields} (he : (saves np22 c).error = none) {f : Str} (hw : Wanted c f) :
    .write f ∈ (saves np22 c).events := by
  unfold saves at he ⊢
  obtain ⟨e1, he⟩ := andThen_error.1 he
  obtain ⟨e2, he⟩ := andThen_error.1 he
  obtain ⟨e3, he⟩ := andThen_error.1 he
  obtain ⟨e4, _⟩ := andThen_error.1 he
  rw [andThen_events e1, andThen_events e2, andThen_events e3, andThen_events e4]
  simp only [List.mem_append]
  rcases hw with hw | ⟨p, hp, hv⟩
  · simp only [summaries, List.mem_cons, List.not_mem_nil, or_false] at hw
    rcases hw with rfl | rfl <;> simp
  · have hloss : ∀ name file, pathKeys (str p) = pathKeys (str "DL/Outputs/Loss/Repair") ++ [name] →
        (name, file) ∈ [(str "Sample", str "DV_repair_sample.zip"), (str "Statistics", str "DV_repair_stats.csv"),
          (str "GroupedSample", str "DV_repair_grp.zip"), (str "GroupedStatistics", str "DV_repair_grp_stats.csv"),
          (str "AggregateSample", str "DV_repair_agg.zip"), (str "AggregateStatistics", str "DV_repair_agg_stats.csv")] →
        .write file ∈ (whenGiven np22 c "DL/Outputs/Loss/Repair"
          (if noRepair np22 c then Prog.raise .assertionError else lossSave (val c "DL/Outputs/Loss/Repair"))).events := by
      intro name file h1 h2
      have hm := collect_mem np22 (s := .loss) h1 hv h2
      have hn : noRepair np22 c = false := by
        obtain ⟨_, _, _, hu⟩ := section_given np22 h1 hv
        by_contra hn
        rw [if_pos (by simpa using hn)] at e4
        unfold whenGiven at e4
        rw [hu] at e4
        simp [Prog.raise] at e4
      rw [if_neg (by simp [hn])]
      exact hm
    simp only [tables, List.mem_cons, List.not_mem_nil, or_false, Prod.mk.injEq] at hp
    rcases hp with ⟨rfl, rfl⟩ | ⟨rfl, rfl⟩ | ⟨rfl, rfl⟩ | ⟨rfl, rfl⟩ | ⟨rfl, rfl⟩ | ⟨rfl, rfl⟩ | ⟨rfl, rfl⟩ | ⟨rfl, rfl⟩ | ⟨rfl, rfl⟩ |
      ⟨rfl, rfl⟩ | ⟨rfl, rfl⟩ | ⟨rfl, rfl⟩ | ⟨rfl, rfl⟩ | ⟨rfl, rfl⟩
    · exact .inl (demand_mem np22 (name := str "Sample") (by decide +kernel) hv (by simp))
    · exact .inl (demand_mem np22 (name := str "Statistics") (by decide +kernel) hv (by simp))
    · exact .inr (.inl (collect_mem np22 (name := str "Sample") (by decide +kernel) hv (by simp)))
    · exact .inr (.inl (collect_mem np22 (name := str "Statistics") (by decide +kernel) hv (by simp)))
    · exact .inr (.inr (.inl (collect_mem np22 (name := str "Sample") (by decide +kernel) hv (by simp))))
    · exact .inr (.inr (.inl (collect_mem np22 (name := str "Statistics") (by decide +kernel) hv (by simp))))
    · exact .inr (.inr (.inl (collect_mem np22 (name := str "GroupedSample") (by decide +kernel) hv (by simp))))
    · exact .inr (.inr (.inl (collect_mem np22 (name := str "GroupedStatistics") (by decide +kernel) hv (by simp))))
    · exact .inr (.inr (.inr (.inl (hloss (str "Sample") _ (by decide +kernel) (by simp)))))
    · exact .inr (.inr (.inr (.inl (hloss (str "Statistics") _ (by decide +kernel) (by simp)))))
    · exact .inr (.inr (.inr (.inl (hloss (str "GroupedSample") _ (by decide +kernel) (by simp)))))
    · exact .inr (.inr (.inr (.inl (hloss (str "GroupedStatistics") _ (by decide +kernel) (by simp)))))
    · exact .inr (.inr (.inr (.inl (hloss (str "AggregateSample") _ (by decide +kernel) (by simp)))))
    · exact .inr (.inr (.inr (.inl (hloss (str "AggregateStatistics") _ (by decide +kernel) (by simp)))))

theorem mem_outFiles (p : Prog) (f : Str) : f ∈ p.outFiles ↔ .write f ∈ p.events := by
  unfold Prog.outFiles
  rw [List.mem_filterMap]
  constructor
  · rintro ⟨e, h1, h2⟩
    cases e <;> simp at h2
    subst h2
    exact h1
  · intro h
    exact ⟨_, h, rfl⟩

/-! ## Accepted configurations -/

theorem parse_finish {np22 : Bool} {ds : Defaults} {a : Call} {fmt : Js → Str}
    {scripts : Except PyErr ((Fields → Except PyErr Fields) × List (Fields → Except PyErr Fields))} {c c' : Fields}
    (h : parseConfig np22 ds a fmt scripts c = .ok (some c')) : ∃ c0, finish np22 ds a c0 = .ok c' := by
  unfold parseConfig at h
  rw [bind_ok] at h
  obtain ⟨c1, _, h⟩ := h
  have key : ∀ c0, (some <$> finish np22 ds a c0 : Except PyErr (Option Fields)) = .ok (some c') → finish np22 ds a c0 = .ok c' := by
    intro c0 h
    cases hf : finish np22 ds a c0 with
    | error e => rw [hf] at h; cases h
    | ok d => rw [hf] at h; cases h; rfl
  split at h
  · rw [bind_ok] at h
    obtain ⟨b, _, h⟩ := h
    split at h
    · rw [bind_ok] at h
      obtain ⟨o, _, h⟩ := h
      cases o with
      | none => cases h
      | some c0 => exact ⟨c0, key c0 h⟩
    · exact ⟨c1, key c1 h⟩
  · cases h

theorem accepted_asset {np22 : Bool} {ds : Defaults} {a : Call} {c c' : Fields} (h : finish np22 ds a c = .ok c') :
    unspec np22 c' "DL/Asset" = .ok false := by
  obtain ⟨c1, c2, c3, c5, h1, h2, _, h4, h5, h6, _, h8, _⟩ := (finish_ok ..).1 h
  rw [(same_collapse h8).unspec np22 "DL/Asset" (by decide +kernel)]
  rcases (stories_ok ..).1 h6 with ⟨_, rfl⟩ | ⟨_, n, _, rfl⟩
  · rw [((same_optionDefaults h5).trans (same_legacy c3)).unspec np22 "DL/Asset" (by decide +kernel)]
    exact h4
  · exact unspec_above np22 _ "DL/Asset" [str "NumberOfStories"] _
      (by rw [show pathKeys (str "DL/Asset") ++ [str "NumberOfStories"] = pathKeys (str "DL/Asset/NumberOfStories") by decide +kernel]
          exact look_set_same _ _ _) (by simp)

theorem accepted_damage {np22 : Bool} {ds : Defaults} {a : Call} {c c' : Fields} (h : finish np22 ds a c = .ok c')
    (hd : Given np22 c' "DL/Outputs/Damage") : Given np22 c' "DL/Damage" := by
  obtain ⟨c1, c2, c3, c5, _, _, _, _, _, _, _, _, _, _, _, h12, _⟩ := (finish_ok ..).1 h
  rcases (checkOutput_ok ..).1 h12 with h | ⟨_, h⟩
  · exact (given_or_missing_exclusive _ hd h).elim
  · exact h

/-! ## The calculations -/

theorem wantedStages_eq (np22 : Bool) (c : Fields) : wantedStages np22 c = [.setup, .demand, .asset] ++
    (if unspec np22 c "DL/Damage" = .ok false then [.damage] else []) ++
    (if unspec np22 c "DL/Losses/Repair" = .ok false then [.loss] else []) ++ [.summary] := by
  have key : ∀ s, decide (Asked np22 c s) = match s with
      | .damage => decide (unspec np22 c "DL/Damage" = .ok false)
      | .loss => decide (unspec np22 c "DL/Losses/Repair" = .ok false)
      | _ => true := by
    intro s
    cases s <;> first | exact decide_eq_true trivial | exact decide_eq_decide.2 Iff.rfl
  unfold wantedStages order
  simp only [key]
  by_cases h1 : unspec np22 c "DL/Damage" = .ok false <;> by_cases h2 : unspec np22 c "DL/Losses/Repair" = .ok false <;>
    simp [h1, h2]

theorem calcs {np22 : Bool} {c : Fields} (ha : unspec np22 c "DL/Asset" = .ok false) :
    ∃ l, (calculations np22 c).events = l.map .compute ∧ l <+: wantedStages np22 c ∧
      ((calculations np22 c).error = none → l = wantedStages np22 c) := by
  rw [wantedStages_eq]
  unfold calculations whenGiven
  rw [ha]
  cases hd : unspec np22 c "DL/Damage" with
  | error e =>
    refine ⟨[.setup, .demand, .asset], by simp [Prog.andThen, Prog.step, Prog.raise], ?_, by simp [Prog.andThen, Prog.step, Prog.raise]⟩
    simp
  | ok b =>
    cases hl : unspec np22 c "DL/Losses/Repair" with
    | error e =>
      refine ⟨if b then [.setup, .demand, .asset] else [.setup, .demand, .asset, .damage], ?_, ?_, ?_⟩
      · cases b <;> simp [Prog.andThen, Prog.step, Prog.raise, Prog.done]
      · cases b <;> simp
      · cases b <;> simp [Prog.andThen, Prog.step, Prog.raise, Prog.done]
    | ok b' =>
      refine ⟨_, ?_, List.prefix_rfl, fun _ => rfl⟩
      cases b <;> cases b' <;>
        simp [Prog.andThen, Prog.step, Prog.done]

/-- The stage of a step. -/
def stage? : Event → Option Stage
  | .compute s => some s
  | _ => none

theorem calculations_eq (r : Result) : r.calculations = r.begun.filterMap stage? := by
  unfold Result.calculations
  congr 1

theorem later_no_stage {np22 : Bool} {c : Fields} {e : Event}
    (h : e ∈ ((saves np22 c).andThen ((createJson c (saves np22 c).outFiles).andThen (removeCsv c (saves np22 c).outFiles))).events) :
    stage? e = none := by
  rcases mem_andThen h with h | ⟨_, h⟩
  · rcases saves_cases h with ⟨s, rfl⟩ | ⟨f, rfl, _⟩ <;> rfl
  rcases mem_andThen h with h | ⟨_, h⟩
  · unfold createJson at h
    split at h
    · simp [Prog.done] at h
    · obtain ⟨f, _, rfl⟩ := List.mem_map.1 h
      rfl
  · unfold removeCsv at h
    split at h
    · simp [Prog.done] at h
    · obtain ⟨f, _, rfl⟩ := List.mem_map.1 h
      rfl

theorem filterMap_nil {es : List Event} (h : ∀ e ∈ es, stage? e = none) : es.filterMap stage? = [] := by
  rw [List.filterMap_eq_nil_iff]
  exact h

theorem remove_no_stage {files : List Str} {e : Event} (h : e ∈ (removeExisting files).events) : stage? e = none := by
  obtain ⟨f, _, rfl⟩ := List.mem_map.1 h
  rfl

variable {np22 : Bool} {world : List Event → Event → Outcome} {n : Nat} {fs : Files} {c' : Fields} {r : Result}

/-- What is known of a run. -/
theorem run_spec (h : Run np22 world n fs c' r) : ∃ es1 es2,
    r.begun = es1 ∧ es1 <+: (program np22 (fs.map Prod.fst) c').events ∧ es2 <+: es1 ∧
    r.files = es2.foldl (fun fs e => effect n e fs) fs ∧ (es1 = es2 ∨ ∃ e, es1 = es2 ++ [e]) ∧
    (r.error = none → es2 = (program np22 (fs.map Prod.fst) c').events ∧ es1 = (program np22 (fs.map Prod.fst) c').events ∧
      (program np22 (fs.map Prod.fst) c').error = none) := by
  obtain ⟨ds, a, fmt, scripts, c, hp, rfl⟩ := h.accepted
  obtain ⟨es1, es2, h1, h2, h3, h4, h5, h6⟩ := exec_spec world n (program np22 (fs.map Prod.fst) c').error
    (program np22 (fs.map Prod.fst) c').events [] fs
  refine ⟨es1, es2, ?_, h2, h3, ?_, h5, ?_⟩
  · unfold run; rw [hp]; simpa using h1
  · unfold run; rw [hp]; exact h4
  · unfold run; rw [hp]; exact h6

theorem run_asset (h : Run np22 world n fs c' r) : unspec np22 c' "DL/Asset" = .ok false := by
  obtain ⟨ds, a, fmt, scripts, c, hp, _⟩ := h.accepted
  obtain ⟨c0, hf⟩ := parse_finish hp
  exact accepted_asset hf

/-- C120: a run does the calculations that its configuration asks for, in the fixed order; if it ends early, a
beginning of them. -/
theorem C120_calculations (h : Run np22 world n fs c' r) :
    r.calculations <+: wantedStages np22 c' ∧ (r.error = none → r.calculations = wantedStages np22 c') := by
  obtain ⟨es1, es2, h1, h2, h3, h4, h5, h6⟩ := run_spec h
  obtain ⟨l, hl1, hl2, hl3⟩ := calcs (run_asset h)
  have hall : ∀ t, t <+: ((calculations np22 c').andThen <| (saves np22 c').andThen <|
      (createJson c' (saves np22 c').outFiles).andThen <| removeCsv c' (saves np22 c').outFiles).events →
      t.filterMap stage? <+: wantedStages np22 c' := by
    intro t ht
    have hs : (l.map Event.compute).filterMap stage? = l := by
      rw [List.filterMap_map]
      have : (stage? ∘ Event.compute) = some := rfl
      rw [this, List.filterMap_some]
    rcases prefix_andThen ht with ht | ⟨_, t', rfl, ht'⟩
    · rw [hl1] at ht
      have := ht.filterMap stage?
      rw [hs] at this
      exact this.trans hl2
    · rw [List.filterMap_append, hl1, hs, filterMap_nil (fun e he => later_no_stage (ht'.subset he)), List.append_nil]
      exact hl2
  rw [calculations_eq, h1]
  constructor
  · rcases prefix_andThen h2 with h2 | ⟨_, t, rfl, ht⟩
    · rw [filterMap_nil fun e he => remove_no_stage (h2.subset he)]
      exact List.nil_prefix
    · rw [List.filterMap_append, filterMap_nil (fun e he => remove_no_stage he), List.nil_append]
      exact hall t ht
  · intro he
    obtain ⟨_, e1, e2⟩ := h6 he
    unfold program at e2
    obtain ⟨g1, g2⟩ := andThen_error.1 e2
    obtain ⟨g2, _⟩ := andThen_error.1 g2
    rw [e1]
    unfold program
    rw [andThen_events g1, andThen_events g2, List.filterMap_append, filterMap_nil (fun e he => remove_no_stage he), List.nil_append,
      List.filterMap_append, filterMap_nil (fun e he => later_no_stage he), List.append_nil, hl1, hl3 g2, List.filterMap_map]
    have : (stage? ∘ Event.compute) = some := rfl
    rw [this, List.filterMap_some]

/-! ## The files -/

theorem result_known (f : Str) : f ∈ resultFiles ↔ f ∈ knownFiles := by
  have h1 : ∀ f ∈ resultFiles, f ∈ knownFiles := by decide
  have h2 : ∀ f ∈ knownFiles, f ∈ resultFiles := by decide
  exact ⟨h1 f, h2 f⟩

/-- Which steps touch files after the old results are removed. -/
theorem rest_cases {e : Event} (h : e ∈ ((calculations np22 c').andThen <| (saves np22 c').andThen <|
      (createJson c' (saves np22 c').outFiles).andThen <| removeCsv c' (saves np22 c').outFiles).events) :
    (∃ s, e = .compute s) ∨ (∃ s, e = .collect s) ∨ (∃ f, Wanted c' f ∧ (e = .write f ∨ (e = .json f ∧ AsksJson c') ∨ e = .remove f)) := by
  have hout : ∀ f ∈ (saves np22 c').outFiles, Wanted c' f := by
    intro f hf
    rw [mem_outFiles] at hf
    rcases saves_cases hf with ⟨s, hs⟩ | ⟨g, hg, hw, _⟩
    · cases hs
    · cases hg; exact hw
  rcases mem_andThen h with h | ⟨_, h⟩
  · left
    unfold calculations at h
    rcases mem_andThen h with h | ⟨_, h⟩
    · exact ⟨_, by simpa [Prog.step] using h⟩
    rcases mem_andThen h with h | ⟨_, h⟩
    · exact ⟨_, by simpa [Prog.step] using h⟩
    rcases mem_andThen h with h | ⟨_, h⟩
    · exact ⟨_, by simpa [Prog.step] using (whenGiven_events h).2⟩
    rcases mem_andThen h with h | ⟨_, h⟩
    · exact ⟨_, by simpa [Prog.step] using (whenGiven_events h).2⟩
    rcases mem_andThen h with h | ⟨_, h⟩
    · exact ⟨_, by simpa [Prog.step] using (whenGiven_events h).2⟩
    · exact ⟨_, by simpa [Prog.step] using h⟩
  right
  rcases mem_andThen h with h | ⟨_, h⟩
  · rcases saves_cases h with ⟨s, rfl⟩ | ⟨f, rfl, hw, _⟩
    · exact .inl ⟨s, rfl⟩
    · exact .inr ⟨f, hw, .inl rfl⟩
  right
  rcases mem_andThen h with h | ⟨_, h⟩
  · unfold createJson at h
    split at h
    · simp [Prog.done] at h
    · rename_i hj
      obtain ⟨f, hf, rfl⟩ := List.mem_map.1 h
      exact ⟨f, hout f hf, .inr (.inl ⟨rfl, hj⟩)⟩
  · unfold removeCsv at h
    split at h
    · simp [Prog.done] at h
    · obtain ⟨f, hf, rfl⟩ := List.mem_map.1 h
      exact ⟨f, hout f (List.mem_filter.1 hf).1, .inr (.inr rfl)⟩

theorem get?_mem {f : Str} {k : Nat} : ∀ {fs : Files}, fs.get? f = some k → f ∈ fs.map Prod.fst
  | [], h => by simp [Dict.get?] at h
  | (g, v) :: fs, h => by
    simp only [Dict.get?] at h
    split at h
    · rename_i hg; simp [hg]
    · exact List.mem_cons_of_mem _ (get?_mem h)

/-- After the old results are removed there are none. -/
theorem removed_none (n : Nat) (fs : Files) {f : Str} (hf : f ∈ resultFiles) :
    Dict.get? ((removeExisting (fs.map Prod.fst)).events.foldl (fun fs e => effect n e fs) fs) f = none := by
  have htouch : ∀ e ∈ (removeExisting (fs.map Prod.fst)).events, Touches f e → e = .remove f := by
    intro e he ht
    obtain ⟨g, _, rfl⟩ := List.mem_map.1 he
    simp only [Touches] at ht
    rw [ht]
  by_cases hm : f ∈ fs.map Prod.fst
  · exact foldl_removed n f _ (List.mem_map.2 ⟨f, List.mem_filter.2 ⟨hm, by simpa using (result_known f).1 hf⟩, rfl⟩) htouch fs
  · rw [foldl_untouched]
    · cases hg : Dict.get? fs f with
      | none => rfl
      | some k => exact absurd (get?_mem hg) hm
    · intro e he ht
      obtain ⟨g, hg, rfl⟩ := List.mem_map.1 he
      simp only [Touches] at ht
      subst ht
      exact hm (List.mem_filter.1 hg).1

theorem json_not_result {f g : Str} (hg : g ∈ resultFiles) : f ∈ resultFiles → f ≠ jsonName g := by
  rintro hf rfl
  exact ToolOut.json_not_known g ((result_known _).1 hg) ((result_known _).1 hf)

/-- C120: whenever a run ends, for whatever reason, each result table in the folder was written by this run and is asked
for; or the run ended before any calculation, and the table is still there from before. -/
theorem C120_tables (h : Run np22 world n fs c' r) (f : Str) (hf : f ∈ resultFiles) (k : Nat) (hk : r.files.get? f = some k) :
    (k = n ∧ Wanted c' f) ∨ (r.calculations = [] ∧ fs.get? f = some k) := by
  obtain ⟨es1, es2, h1, h2, h3, h4, h5, h6⟩ := run_spec h
  have hA : (removeExisting (fs.map Prod.fst)).events <+: (program np22 (fs.map Prod.fst) c').events := by
    unfold program
    rw [andThen_events rfl]
    exact List.prefix_append _ _
  rw [h4] at hk
  rcases cut hA h2 h5 with hc | ⟨t, ht⟩
  · right
    rw [calculations_eq, h1]
    refine ⟨filterMap_nil fun e he => remove_no_stage (hc.subset he), ?_⟩
    rcases foldl_cases n f es2 fs with hh | hh | ⟨_, hh⟩
    · rw [← hh]; exact hk
    · rw [hh] at hk; cases hk
    · exfalso
      rcases hh with ⟨g, hg, _⟩ | ⟨g, hg, _⟩ <;>
      · obtain ⟨_, _, hx⟩ := List.mem_map.1 (hc.subset (h3.subset hg))
        cases hx
  · left
    subst ht
    have htt : t <+: ((calculations np22 c').andThen <| (saves np22 c').andThen <|
      (createJson c' (saves np22 c').outFiles).andThen <| removeCsv c' (saves np22 c').outFiles).events := by
      have := h3.trans h2
      unfold program at this
      rw [andThen_events rfl] at this
      exact (List.prefix_append_right_inj _).1 this
    rw [List.foldl_append] at hk
    rcases foldl_cases n f t ((removeExisting (fs.map Prod.fst)).events.foldl (fun fs e => effect n e fs) fs) with hh | hh | ⟨hh, hw⟩
    · rw [hh, removed_none n fs hf] at hk; cases hk
    · rw [hh] at hk; cases hk
    · rw [hh] at hk
      refine ⟨(Option.some.inj hk).symm, ?_⟩
      rcases hw with ⟨g, hg, rfl⟩ | ⟨g, hg, rfl⟩
      · rcases rest_cases (htt.subset hg) with ⟨s, hs⟩ | ⟨s, hs⟩ | ⟨g', hw, hs | ⟨hs, _⟩ | hs⟩ <;> cases hs
        exact hw
      · rcases rest_cases (htt.subset hg) with ⟨s, hs⟩ | ⟨s, hs⟩ | ⟨g', hw, hs | ⟨hs, _⟩ | hs⟩ <;> cases hs
        exact absurd rfl (json_not_result (wanted_result hw) hf)

theorem program_touch {files : List Str} {g : Str} {e : Event} (h : e ∈ (program np22 files c').events) (ht : Touches g e) :
    g ∈ resultFiles ∨ ∃ f, Wanted c' f ∧ AsksJson c' ∧ g = jsonName f := by
  unfold program at h
  rcases mem_andThen h with h | ⟨_, h⟩
  · obtain ⟨f, hf, rfl⟩ := List.mem_map.1 h
    simp only [Touches] at ht
    subst ht
    exact .inl ((result_known _).2 (by simpa using (List.mem_filter.1 hf).2))
  · rcases rest_cases h with ⟨s, rfl⟩ | ⟨s, rfl⟩ | ⟨f, hw, rfl | ⟨rfl, hj⟩ | rfl⟩
    · exact absurd ht (by simp [Touches])
    · exact absurd ht (by simp [Touches])
    · simp only [Touches] at ht; subst ht; exact .inl (wanted_result hw)
    · exact .inr ⟨f, hw, hj, ht⟩
    · simp only [Touches] at ht; subst ht; exact .inl (wanted_result hw)

/-- C120: files that are neither tables nor their JSON files are not touched, whenever the run ends. -/
theorem C120_other_files (h : Run np22 world n fs c' r) (g : Str) (hg : g ∉ resultFiles) (hj : ∀ f ∈ resultFiles, ¬ IsJson f g) :
    r.files.get? g = fs.get? g := by
  obtain ⟨es1, es2, h1, h2, h3, h4, h5, h6⟩ := run_spec h
  rw [h4]
  apply foldl_untouched
  intro e he ht
  rcases program_touch ((h3.trans h2).subset he) ht with hr | ⟨f, hw, _, rfl⟩
  · exact hg hr
  · exact hj f (wanted_result hw) ((ToolOut.isJson_iff f _ ((result_known _).1 (wanted_result hw))).2 rfl)

/-- C120: a JSON file of a table is from this run only if the table and JSON files are asked for; otherwise it is as
before. -/
theorem C120_json_files (h : Run np22 world n fs c' r) (f g : Str) (hf : f ∈ resultFiles) (hg : IsJson f g) :
    r.files.get? g = fs.get? g ∨ (r.files.get? g = some n ∧ Wanted c' f ∧ AsksJson c') := by
  obtain ⟨es1, es2, h1, h2, h3, h4, h5, h6⟩ := run_spec h
  have hgf := (ToolOut.isJson_iff f g ((result_known _).1 hf)).1 hg
  have hgr : g ∉ resultFiles := by
    rw [hgf]
    exact fun hr => json_not_result hf hr rfl
  by_cases ht : ∃ e ∈ es2, Touches g e
  · right
    obtain ⟨e, he, ht⟩ := ht
    rcases program_touch ((h3.trans h2).subset he) ht with hr | ⟨f', hw, hj, e'⟩
    · exact absurd hr hgr
    · have : f' = f := ToolOut.json_inj f' ((result_known _).1 (wanted_result hw)) f ((result_known _).1 hf) (e'.symm.trans hgf)
      subst this
      refine ⟨?_, hw, hj⟩
      rw [h4]
      apply foldl_written n g es2 ⟨e, he, ht⟩
      intro hm
      rcases program_touch ((h3.trans h2).subset hm) (g := g) rfl with hr | ⟨f2, hw2, _, _⟩
      · exact hgr hr
      · have hmem := (h3.trans h2).subset hm
        unfold program at hmem
        rcases mem_andThen hmem with hm | ⟨_, hm⟩
        · obtain ⟨x, hx, hx'⟩ := List.mem_map.1 hm
          cases hx'
          exact hgr ((result_known _).2 (by simpa using (List.mem_filter.1 hx).2))
        · rcases rest_cases hm with ⟨s, hs⟩ | ⟨s, hs⟩ | ⟨f3, hw3, hs | ⟨hs, _⟩ | hs⟩ <;> cases hs
          exact hgr (wanted_result hw3)
  · left
    rw [h4]
    exact foldl_untouched n g es2 (fun e he ht' => ht ⟨e, he, ht'⟩) fs

theorem tablesOf_disjoint {s s' : Stage} {f : Str} (h : f ∈ tablesOf s) (h' : f ∈ tablesOf s') : s = s' := by
  have key : ∀ s ∈ order, ∀ s' ∈ order, ∀ f ∈ tablesOf s, f ∈ tablesOf s' → s = s' := by decide +kernel
  exact key s (by cases s <;> simp [order]) s' (by cases s' <;> simp [order]) f h h'

theorem tablesOf_result {s : Stage} {f : Str} (h : f ∈ tablesOf s) : f ∈ resultFiles := by
  have key : ∀ s ∈ order, ∀ f ∈ tablesOf s, f ∈ resultFiles := by decide +kernel
  exact key s (by cases s <;> simp [order]) f h

/-- C120: a table that the run has written is the result of a calculation that the run has done. -/
theorem C120_calculated (h : Run np22 world n fs c' r) (s : Stage) (f : Str) (hf : f ∈ tablesOf s) (hk : r.files.get? f = some n)
    (hn : fs.get? f ≠ some n) : s ∈ r.calculations := by
  obtain ⟨es1, es2, h1, h2, h3, h4, h5, h6⟩ := run_spec h
  obtain ⟨l, hl1, hl2, hl3⟩ := calcs (run_asset h)
  have hw : .write f ∈ es2 := by
    rw [h4] at hk
    rcases foldl_cases n f es2 fs with hh | hh | ⟨_, ⟨g, hg, rfl⟩ | ⟨g, hg, rfl⟩⟩
    · rw [hh] at hk; exact absurd hk hn
    · rw [hh] at hk; cases hk
    · exact hg
    · exfalso
      have hm := (h3.trans h2).subset hg
      unfold program at hm
      rcases mem_andThen hm with hm | ⟨_, hm⟩
      · obtain ⟨x, _, hx⟩ := List.mem_map.1 hm
        cases hx
      · rcases rest_cases hm with ⟨s, hs⟩ | ⟨s, hs⟩ | ⟨f3, hw3, hs | ⟨hs, _⟩ | hs⟩ <;> cases hs
        exact json_not_result (wanted_result hw3) (tablesOf_result hf) rfl
  have hm := (h3.trans h2).subset hw
  unfold program at hm
  rcases mem_andThen hm with hm | ⟨_, hm⟩
  · obtain ⟨x, _, hx⟩ := List.mem_map.1 hm
    cases hx
  rcases mem_andThen hm with hm | ⟨hc, hm⟩
  · rw [hl1] at hm
    obtain ⟨x, _, hx⟩ := List.mem_map.1 hm
    cases hx
  have hA : (removeExisting (fs.map Prod.fst)).events ++ (calculations np22 c').events <+: (program np22 (fs.map Prod.fst) c').events := by
    unfold program
    rw [andThen_events rfl, andThen_events hc, ← List.append_assoc]
    exact List.prefix_append _ _
  have hstages : s ∈ wantedStages np22 c' := by
    have hs : .write f ∈ (saves np22 c').events := by
      rcases mem_andThen hm with hm | ⟨_, hm⟩
      · exact hm
      rcases mem_andThen hm with hm | ⟨_, hm⟩
      · unfold createJson at hm
        split at hm
        · simp [Prog.done] at hm
        · obtain ⟨x, _, hx⟩ := List.mem_map.1 hm
          cases hx
      · unfold removeCsv at hm
        split at hm
        · simp [Prog.done] at hm
        · obtain ⟨x, _, hx⟩ := List.mem_map.1 hm
          cases hx
    rcases saves_cases hs with ⟨s', hs'⟩ | ⟨f', hf', _, s', hs', hd, hlo⟩
    · cases hs'
    · cases hf'
      have := tablesOf_disjoint hf hs'
      subst this
      rw [wantedStages_eq]
      cases s with
      | setup => simp
      | demand => simp
      | asset => simp
      | summary => simp
      | damage =>
        obtain ⟨ds, a, fmt, scripts, c, hp, _⟩ := h.accepted
        obtain ⟨c0, hfin⟩ := parse_finish hp
        have := accepted_damage hfin (hd rfl)
        rw [given_iff] at this
        simp [this]
      | loss =>
        have hno := hlo rfl
        unfold noRepair at hno
        cases hu : unspec np22 c' "DL/Losses/Repair" with
        | error e =>
          exfalso
          unfold calculations at hc
          have h3 := (andThen_error.1 hc).2
          have h3 := (andThen_error.1 h3).2
          have h3 := (andThen_error.1 h3).2
          have h3 := (andThen_error.1 h3).2
          have h3 := (andThen_error.1 h3).1
          unfold whenGiven at h3
          rw [hu] at h3
          simp [Prog.raise] at h3
        | ok b =>
          cases b with
          | false => simp
          | true => simp [hu] at hno
  rw [calculations_eq, h1]
  have hsub : .compute s ∈ es1 := by
    rcases cut hA h2 h5 with hcut | hcut
    · exfalso
      have := hcut.subset (h3.subset hw)
      rcases List.mem_append.1 this with hx | hx
      · obtain ⟨x, _, hx⟩ := List.mem_map.1 hx
        cases hx
      · rw [hl1] at hx
        obtain ⟨x, _, hx⟩ := List.mem_map.1 hx
        cases hx
    · refine h3.subset (hcut.subset (List.mem_append_right _ ?_))
      rw [hl1, hl3 hc]
      exact List.mem_map.2 ⟨s, hstages, rfl⟩
  exact List.mem_filterMap.2 ⟨_, hsub, rfl⟩

/-- C120: after a run without an exception the tables that are asked for are there, and no others; without the CSV
format only the summary. -/
theorem C120_complete (h : Run np22 world n fs c' r) (he : r.error = none) (f : Str) (hf : f ∈ resultFiles) (k : Nat) :
    r.files.get? f = some k ↔ k = n ∧ Wanted c' f ∧ (AsksCsv c' ∨ f ∈ summaries) := by
  obtain ⟨es1, es2, h1, h2, h3, h4, h5, h6⟩ := run_spec h
  obtain ⟨e2, e1, ee⟩ := h6 he
  have hsum : ∀ f ∈ resultFiles, (ToolOut.isSummary f = true ↔ f ∈ summaries) := by decide
  have hcsv : AsksCsv c' ↔ get (some (.dict c')) (str "DL/Outputs/Format/CSV") (bool false) = bool true := by
    unfold AsksCsv val Config.get
    simp only []
    generalize (Js.dict c').at (pathKeys (str "DL/Outputs/Format/CSV")) = x
    cases x <;> simp [null, ToolConfig.bool]
  unfold program at ee
  obtain ⟨g1, g2⟩ := andThen_error.1 ee
  obtain ⟨g2, g3⟩ := andThen_error.1 g2
  obtain ⟨g3, g4⟩ := andThen_error.1 g3
  obtain ⟨g4, g5⟩ := andThen_error.1 g4
  have hprog : (program np22 (fs.map Prod.fst) c').events = (removeExisting (fs.map Prod.fst)).events ++
      (((calculations np22 c').events ++ (saves np22 c').events ++ (createJson c' (saves np22 c').outFiles).events) ++
        (removeCsv c' (saves np22 c').outFiles).events) := by
    unfold program
    rw [andThen_events g1, andThen_events g2, andThen_events g3, andThen_events g4]
    simp [List.append_assoc]
  have hrest : ((calculations np22 c').andThen <| (saves np22 c').andThen <|
      (createJson c' (saves np22 c').outFiles).andThen <| removeCsv c' (saves np22 c').outFiles).events =
      ((calculations np22 c').events ++ (saves np22 c').events ++ (createJson c' (saves np22 c').outFiles).events) ++
        (removeCsv c' (saves np22 c').outFiles).events := by
    rw [andThen_events g2, andThen_events g3, andThen_events g4]
    simp [List.append_assoc]
  have hrem : ∀ g, .remove g ∈ (calculations np22 c').events ++ (saves np22 c').events ++ (createJson c' (saves np22 c').outFiles).events → False := by
    intro g hg
    rcases List.mem_append.1 hg with hg | hg
    · rcases List.mem_append.1 hg with hg | hg
      · obtain ⟨l, hl, _⟩ := calcs (run_asset h)
        rw [hl] at hg
        obtain ⟨x, _, hx⟩ := List.mem_map.1 hg
        cases hx
      · rcases saves_cases hg with ⟨s, hs⟩ | ⟨f', hf', _⟩
        · cases hs
        · cases hf'
    · unfold createJson at hg
      split at hg
      · simp [Prog.done] at hg
      · obtain ⟨x, _, hx⟩ := List.mem_map.1 hg
        cases hx
  constructor
  · intro hk
    rcases C120_tables h f hf k hk with ⟨rfl, hw⟩ | ⟨hc, _⟩
    · refine ⟨rfl, hw, ?_⟩
      by_contra hno
      rw [not_or] at hno
      have hgone : .remove f ∈ (removeCsv c' (saves np22 c').outFiles).events := by
        unfold removeCsv
        rw [if_neg (fun hx => hno.1 (hcsv.2 hx))]
        refine List.mem_map.2 ⟨f, List.mem_filter.2 ⟨(mem_outFiles ..).2 (saves_mem g3 hw), ?_⟩, rfl⟩
        have := (hsum f hf).not.2 hno.2
        simpa using this
      rw [h4, e2, hprog, List.foldl_append, List.foldl_append, foldl_removed k f _ hgone] at hk
      · cases hk
      · intro e hm ht
        unfold removeCsv at hm
        split at hm
        · simp [Prog.done] at hm
        · obtain ⟨x, _, rfl⟩ := List.mem_map.1 hm
          simp only [Touches] at ht
          rw [ht]
    · rw [(C120_calculations h).2 he, wantedStages_eq] at hc
      simp at hc
  · rintro ⟨rfl, hw, hor⟩
    rw [h4, e2, hprog, List.foldl_append]
    apply foldl_written
    · exact ⟨.write f, by simp [saves_mem g3 hw], rfl⟩
    · intro hm
      rcases List.mem_append.1 hm with hm | hm
      · exact hrem f hm
      · unfold removeCsv at hm
        split at hm
        · simp [Prog.done] at hm
        · rename_i hx
          obtain ⟨y, hy, hy'⟩ := List.mem_map.1 hm
          cases hy'
          rcases hor with hor | hor
          · exact hx (hcsv.1 hor)
          · have := (List.mem_filter.1 hy).2
            rw [(hsum f hf).2 hor] at this
            simp at this

/-- C120: after a run without an exception the JSON files that are asked for are there. -/
theorem C120_json_complete (h : Run np22 world n fs c' r) (he : r.error = none) (hj : AsksJson c') (f g : Str) (hw : Wanted c' f)
    (hg : IsJson f g) : r.files.get? g = some n := by
  obtain ⟨es1, es2, h1, h2, h3, h4, h5, h6⟩ := run_spec h
  obtain ⟨e2, e1, ee⟩ := h6 he
  have hf := wanted_result hw
  have hgf := (ToolOut.isJson_iff f g ((result_known _).1 hf)).1 hg
  have hgr : g ∉ resultFiles := by
    rw [hgf]
    exact fun hr => json_not_result hf hr rfl
  unfold program at ee
  obtain ⟨g1, g2⟩ := andThen_error.1 ee
  obtain ⟨g2, g3⟩ := andThen_error.1 g2
  obtain ⟨g3, g4⟩ := andThen_error.1 g3
  obtain ⟨g4, g5⟩ := andThen_error.1 g4
  have hprog : (program np22 (fs.map Prod.fst) c').events = (removeExisting (fs.map Prod.fst)).events ++
      (((calculations np22 c').events ++ (saves np22 c').events ++ (createJson c' (saves np22 c').outFiles).events) ++
        (removeCsv c' (saves np22 c').outFiles).events) := by
    unfold program
    rw [andThen_events g1, andThen_events g2, andThen_events g3, andThen_events g4]
    simp [List.append_assoc]
  rw [h4]
  apply foldl_written
  · refine ⟨.json f, ?_, hgf⟩
    rw [e2, hprog]
    have : .json f ∈ (createJson c' (saves np22 c').outFiles).events := by
      unfold createJson
      rw [if_neg hj]
      exact List.mem_map.2 ⟨f, (mem_outFiles ..).2 (saves_mem g3 hw), rfl⟩
    simp [this]
  · intro hm
    rw [e2] at hm
    unfold program at hm
    rcases mem_andThen hm with hm | ⟨_, hm⟩
    · obtain ⟨x, hx, hx'⟩ := List.mem_map.1 hm
      cases hx'
      exact hgr ((result_known _).2 (by simpa using (List.mem_filter.1 hx).2))
    · rcases rest_cases hm with ⟨s, hs⟩ | ⟨s, hs⟩ | ⟨f3, hw3, hs | ⟨hs, _⟩ | hs⟩ <;> cases hs
      exact hgr (wanted_result hw3)

/-- C120: if the configuration is refused, or no simulation is needed, nothing is calculated and the folder is as
before. -/
theorem C120_refused (np22 : Bool) (ds : Defaults) (a : Call) (fmt : Js → Str)
    (scripts : Except PyErr ((Fields → Except PyErr Fields) × List (Fields → Except PyErr Fields))) (c : Fields)
    (world : List Event → Event → Outcome) (n : Nat) (fs : Files) (h : ¬ ∃ c', parseConfig np22 ds a fmt scripts c = .ok (some c')) :
    (run np22 ds a fmt scripts c world n fs).calculations = [] ∧ (run np22 ds a fmt scripts c world n fs).files = fs ∧
      ((run np22 ds a fmt scripts c world n fs).error = none ↔ parseConfig np22 ds a fmt scripts c = .ok none) := by
  unfold run
  split
  · rename_i e he
    exact ⟨rfl, rfl, by simp [he]⟩
  · rename_i he
    exact ⟨rfl, rfl, by simp [he]⟩
  · rename_i c' he
    exact absurd ⟨c', he⟩ h

/-! ## Accepted configurations and exceptions -/

theorem whenGiven_none {p : String} {q : Prog} (h : Given np22 c' p ∨ Missing np22 c' p) (hq : Given np22 c' p → q.error = none) :
    (whenGiven np22 c' p q).error = none := by
  unfold whenGiven
  rcases h with h | h
  · rw [show unspec np22 c' p = .ok false from h]; exact hq h
  · rw [show unspec np22 c' p = .ok true from h]; rfl

theorem outputs_conform {ds : Defaults} {c : Fields} {o : Js} {s : Schema} (h : conforms inputSchema (.dict c) = true)
    (hs : schemaAt inputSchema [str "DL", str "Outputs"] = some s) (hf : conforms s (.dict ds.full) = true) (ho : Outputs np22 ds c o) :
    conforms s o = true := by
  rcases ho with ⟨hg, rfl⟩ | ⟨_, rfl⟩
  · exact conforms_at _ inputSchema s (.dict c) _ h (by rw [← hs]; congr 1) (given_look "DL/Outputs" hg)
  · exact hf

/-- An entry of the outputs that is given is an object. -/
theorem output_object {ds : Defaults} {c : Fields} {o : Js} (h : conforms inputSchema (.dict c) = true) (hds : GoodDefaults ds)
    (ho : Outputs np22 ds c o) (q : String)
    (hq : ∀ s, schemaAt inputSchema [str "DL", str "Outputs"] = some s → ∃ props, schemaAt s (pathKeys (str q)) = some (.object [] props))
    (p : String) (hp : val c' p = ToolConfig.entry o q) :
    (Given np22 c' p ∨ Missing np22 c' p) ∧ (Given np22 c' p → ∃ f, val c' p = .dict f) := by
  obtain ⟨s, hs, hf⟩ := hds
  obtain ⟨props, hpr⟩ := hq s hs
  have hc := outputs_conform h hs hf ho
  have hr := at_readable np22 s _ o _ hc hpr
  have he : ToolConfig.entry o q = (Js.at o (pathKeys (str q))).getD null := rfl
  constructor
  · obtain ⟨b, hb⟩ := hr
    have : unspec np22 c' p = .ok b := by rw [unspec_eq, hp, he]; exact hb
    cases b
    · exact .inl this
    · exact .inr this
  · intro hg
    rw [given_iff, unspec_eq, hp, he] at hg
    rw [hp, he]
    cases hv : Js.at o (pathKeys (str q)) with
    | none => rw [hv] at hg; cases hg
    | some w =>
      have := conforms_at _ s _ o w hc hpr hv
      cases w with
      | leaf l => simp [conforms] at this
      | dict f => exact ⟨f, rfl⟩

theorem collectAndSave_none (s : Stage) (o : Js) (l : List (Str × Str)) (h : ∃ f, o = .dict f) : (collectAndSave s o l).error = none := by
  obtain ⟨f, rfl⟩ := h
  rfl

/-- C120: with a configuration in the current format that is accepted, and that asks for outputs of the repair losses
only together with these losses, a run ends without an exception of its own: if no step fails, it is complete.
Missing: the second condition should follow from being accepted, but it does not, see
`C120_loss_outputs_without_repair`; the names of earlier versions are excluded, their values are not checked. -/
theorem C120_accepted_runs_partial (np22 : Bool) (ds : Defaults) (a : Call) (fmt : Js → Str)
    (scripts : Except PyErr ((Fields → Except PyErr Fields) × List (Fields → Except PyErr Fields))) (c c' : Fields) (n : Nat) (fs : Files)
    (hds : GoodDefaults ds) (hDL : Given np22 c "DL") (hold : val c "DL/Losses/BldgRepair" = null)
    (hold' : ∀ o, Outputs np22 ds c o → ToolConfig.entry o "Loss/BldgRepair" = null)
    (hp : parseConfig np22 ds a fmt scripts c = .ok (some c'))
    (hrep : Given np22 c' "DL/Outputs/Loss/Repair" → Given np22 c' "DL/Losses/Repair") :
    (run np22 ds a fmt scripts c (fun _ _ => .ok) n fs).error = none := by
  obtain ⟨c0, c1, h0, hs, hfin, hc1⟩ := (parse_given hDL _).1 hp
  cases hc1
  have k0 := filled_same h0
  obtain ⟨o, ho⟩ := outputs_exist (np22 := np22) (ds := ds) hs
  have hoc : Outputs np22 ds c o := by
    unfold Outputs at *
    rw [given_iff, missing_iff, k0.unspec np22 "DL/Outputs" (by decide +kernel), k0.val "DL/Outputs" (by decide +kernel)] at ho
    exact ho
  obtain ⟨od, oa, og, ol, _⟩ := done_outputs hfin o ho
  rw [hold' o hoc] at ol
  have hsch : ∀ s, schemaAt inputSchema [str "DL", str "Outputs"] = some s → ∃ a b d l,
      schemaAt s (pathKeys (str "Demand")) = some (.object [] a) ∧ schemaAt s (pathKeys (str "Asset")) = some (.object [] b) ∧
      schemaAt s (pathKeys (str "Damage")) = some (.object [] d) ∧ schemaAt s (pathKeys (str "Loss/Repair")) = some (.object [] l) := by
    intro s h
    cases h
    exact ⟨_, _, _, _, by with_unfolding_all rfl, by with_unfolding_all rfl, by with_unfolding_all rfl, by with_unfolding_all rfl⟩
  have pd := output_object (c' := c') hs hds ho "Demand" (fun s h => by obtain ⟨a, b, d, l, h1, h2, h3, h4⟩ := hsch s h; exact ⟨_, h1⟩) _ od
  have pa := output_object (c' := c') hs hds ho "Asset" (fun s h => by obtain ⟨a, b, d, l, h1, h2, h3, h4⟩ := hsch s h; exact ⟨_, h2⟩) _ oa
  have pg := output_object (c' := c') hs hds ho "Damage" (fun s h => by obtain ⟨a, b, d, l, h1, h2, h3, h4⟩ := hsch s h; exact ⟨_, h3⟩) _ og
  have pl := output_object (c' := c') hs hds ho "Loss/Repair" (fun s h => by obtain ⟨a, b, d, l, h1, h2, h3, h4⟩ := hsch s h; exact ⟨_, h4⟩) _ ol
  have hdam : Given np22 c' "DL/Damage" ∨ Missing np22 c' "DL/Damage" := by
    obtain ⟨c1, c2, c3, c5, h1, h2, _, _, h5, h6, _, h8, _⟩ := (finish_ok ..).1 hfin
    rw [given_iff, missing_iff, damage_iff h8, (same_before_collapse h1 h2 h5 h6).unspec np22 "DL/Damage" (by decide +kernel)]
    exact readable "DL/Damage" hs (by decide +kernel)
  have hlos : Given np22 c' "DL/Losses/Repair" ∨ Missing np22 c' "DL/Losses/Repair" := by
    have hr := done_repair hfin
    rw [k0.val "DL/Losses/BldgRepair" (by decide +kernel), hold] at hr
    have hr : val c' "DL/Losses/Repair" = val c0 "DL/Losses/Repair" := hr
    rw [given_iff, missing_iff, unspec_eq, hr, ← unspec_eq]
    exact readable "DL/Losses/Repair" hs (by decide +kernel)
  have hcalc : (calculations np22 c').error = none := by
    unfold calculations
    refine andThen_error.2 ⟨rfl, andThen_error.2 ⟨rfl, andThen_error.2 ⟨?_, andThen_error.2 ⟨?_, andThen_error.2 ⟨?_, rfl⟩⟩⟩⟩⟩
    · exact whenGiven_none (.inl (accepted_asset hfin)) fun _ => rfl
    · exact whenGiven_none hdam fun _ => rfl
    · exact whenGiven_none hlos fun _ => rfl
  have hsave : (saves np22 c').error = none := by
    unfold saves
    refine andThen_error.2 ⟨?_, andThen_error.2 ⟨?_, andThen_error.2 ⟨?_, andThen_error.2 ⟨?_, rfl⟩⟩⟩⟩
    · refine whenGiven_none pd.1 fun h => ?_
      obtain ⟨f, hf⟩ := pd.2 h
      rw [hf]; rfl
    · exact whenGiven_none pa.1 fun h => collectAndSave_none _ _ _ (pa.2 h)
    · exact whenGiven_none pg.1 fun h => collectAndSave_none _ _ _ (pg.2 h)
    · refine whenGiven_none pl.1 fun h => ?_
      have hg : unspec np22 c' "DL/Losses/Repair" = .ok false := hrep h
      have : noRepair np22 c' = false := by unfold noRepair; rw [hg]; rfl
      rw [this]
      exact collectAndSave_none _ _ _ (pl.2 h)
  have hj : (createJson c' (saves np22 c').outFiles).error = none := by unfold createJson; split <;> rfl
  have hr : (removeCsv c' (saves np22 c').outFiles).error = none := by unfold removeCsv; split <;> rfl
  unfold run
  rw [hp]
  simp only [exec_ok]
  unfold program
  exact andThen_error.2 ⟨rfl, andThen_error.2 ⟨hcalc, andThen_error.2 ⟨hsave, andThen_error.2 ⟨hj, hr⟩⟩⟩⟩

namespace Examples

open ToolConfig.Examples

/-- losses without the repair losses, and the default outputs -/
def otherLosses : Fields := obj [info, ("DL", d [
  ("Demands", d [("SampleSize", t "500")]), ("Asset", d [("ComponentAssignmentFile", t "a.csv")]),
  ("Damage", d [("DamageProcess", t "None")]), ("Losses", d [("Other", t "x")])])]

/-- a configuration in the current format with repair losses, and outputs as tables and as JSON files -/
def repairLosses : Fields := obj [info, ("DL", d [
  ("Demands", d [("SampleSize", t "500")]), ("Asset", d [("ComponentAssignmentFile", t "a.csv")]),
  ("Damage", d [("DamageProcess", t "None")]), ("Losses", d [("Repair", d [("ConsequenceDatabase", t "x")])]),
  ("Outputs", d [("Demand", flags [("Sample", true), ("Statistics", false)]), ("Damage", flags [("Sample", true)]),
    ("Loss", d [("Repair", flags [("Sample", true)])]), ("Format", flags [("CSV", false), ("JSON", true)])])])]

/-- a folder with results of an earlier run -/
def folder : Files := [(str "DEM_stats.csv", 1), (str "DEM_sample.zip", 1), (str "CMP_sample.json", 1), (str "notes.txt", 1)]

/-- the world in which the calculation of the losses fails -/
def lossFails : List Event → Event → Outcome := fun _ e => if e = .compute .loss then .failed .valueError false else .ok

/-- the world in which the process is stopped while the third table is written -/
def stopped : List Event → Event → Outcome := fun _ e => if e = .write (str "DV_repair_sample.zip") then .failed .runtimeError true else .ok

def go (c : Fields) (world : List Event → Event → Outcome) : Result :=
  run true defaults call (fun _ => []) (.error .invalidConfigError) c world 2 folder

theorem repair_run (world : List Event → Event → Outcome) : ∃ c', Run true world 2 folder c' (go repairLosses world) := by
  obtain ⟨c', h⟩ := isOk_elim (show isOk (parseConfig true defaults call (fun _ => []) (.error .invalidConfigError) repairLosses) = true by decide +kernel)
  exact ⟨c', ⟨_, _, _, _, _, h, rfl⟩⟩

end Examples

open Examples ToolConfig.Examples in
/-- C120: losses without repair losses are accepted together with the outputs of repair losses (which are asked for by
default); the run then ends with an `AssertionError`, after all calculations, and without a summary. -/
theorem C120_loss_outputs_without_repair : ∃ c', Run true (fun _ _ => .ok) 2 folder c' (go otherLosses fun _ _ => .ok) ∧
    (go otherLosses fun _ _ => .ok).error = some .assertionError ∧
    (go otherLosses fun _ _ => .ok).calculations = [.setup, .demand, .asset, .damage, .summary] ∧
    (go otherLosses fun _ _ => .ok).files.get? (str "DL_summary.csv") = none := by
  obtain ⟨c', h⟩ := isOk_elim (show isOk (parseConfig true defaults call (fun _ => []) (.error .invalidConfigError) otherLosses) = true by decide +kernel)
  exact ⟨c', ⟨_, _, _, _, _, h, rfl⟩, by decide +kernel, by decide +kernel, by decide +kernel⟩

open Examples in
/-- a complete run: C120_calculations, C120_tables, C120_complete, C120_json_complete, C120_other_files -/
example : ∃ c', Run true (fun _ _ => .ok) 2 folder c' (go repairLosses fun _ _ => .ok) ∧
    (go repairLosses fun _ _ => .ok).error = none ∧
    (go repairLosses fun _ _ => .ok).calculations = order ∧
    (go repairLosses fun _ _ => .ok).files = [(str "CMP_sample.json", 1), (str "notes.txt", 1), (str "DL_summary.csv", 2),
      (str "DL_summary_stats.csv", 2), (str "DEM_sample.json", 2), (str "DMG_sample.json", 2), (str "DV_repair_sample.json", 2),
      (str "DL_summary.json", 2), (str "DL_summary_stats.json", 2)] := by
  obtain ⟨c', h⟩ := repair_run (fun _ _ => .ok)
  exact ⟨c', h, by decide +kernel, by decide +kernel, by decide +kernel⟩

open Examples in
/-- a calculation fails: the older tables are gone, but not the older JSON file -/
example : ∃ c', Run true lossFails 2 folder c' (go repairLosses lossFails) ∧
    (go repairLosses lossFails).error = some .valueError ∧
    (go repairLosses lossFails).calculations = [.setup, .demand, .asset, .damage, .loss] ∧
    (go repairLosses lossFails).files = [(str "CMP_sample.json", 1), (str "notes.txt", 1)] := by
  obtain ⟨c', h⟩ := repair_run lossFails
  exact ⟨c', h, by decide +kernel, by decide +kernel, by decide +kernel⟩

open Examples in
/-- the run is stopped while tables are written: C120_calculated -/
example : ∃ c', Run true stopped 2 folder c' (go repairLosses stopped) ∧
    (go repairLosses stopped).error = some .runtimeError ∧
    (go repairLosses stopped).files.get? (str "DV_repair_sample.zip") = some 2 ∧ str "DV_repair_sample.zip" ∈ tablesOf .loss ∧
    folder.get? (str "DV_repair_sample.zip") ≠ some 2 ∧
    (go repairLosses stopped).files.get? (str "DL_summary.csv") = none := by
  obtain ⟨c', h⟩ := repair_run stopped
  exact ⟨c', h, by decide +kernel, by decide +kernel, by decide +kernel, by decide +kernel, by decide +kernel⟩

open Examples ToolConfig.Examples in
/-- C120_accepted_runs_partial -/
example : GoodDefaults defaults ∧ Given true repairLosses "DL" ∧ val repairLosses "DL/Losses/BldgRepair" = null ∧
    (∀ o, Outputs true defaults repairLosses o → ToolConfig.entry o "Loss/BldgRepair" = null) ∧
    ∃ c', parseConfig true defaults call (fun _ => []) (.error .invalidConfigError) repairLosses = .ok (some c') ∧
      Given true c' "DL/Losses/Repair" := by
  refine ⟨⟨_, rfl, by decide +kernel⟩, by decide +kernel, by decide +kernel, ?_, ?_⟩
  · rintro o (⟨_, rfl⟩ | ⟨_, rfl⟩) <;> decide +kernel
  · obtain ⟨c', h⟩ := isOk_elim (show isOk (parseConfig true defaults call (fun _ => []) (.error .invalidConfigError) repairLosses) = true by decide +kernel)
    refine ⟨c', h, ?_⟩
    have : (match parseConfig true defaults call (fun _ => []) (.error .invalidConfigError) repairLosses with
      | .ok (some c') => decide (unspec true c' "DL/Losses/Repair" = .ok false)
      | _ => false) = true := by decide +kernel
    rw [h] at this
    exact of_decide_eq_true this

open Examples ToolConfig.Examples in
/-- C120_refused: without a demand file -/
example : ¬ ∃ c', parseConfig true defaults noFile (fun _ => []) (.error .invalidConfigError) repairLosses = .ok (some c') := by
  have : (match parseConfig true defaults noFile (fun _ => []) (.error .invalidConfigError) repairLosses with
    | .error _ => true
    | _ => false) = true := by decide +kernel
  rintro ⟨c', h⟩
  rw [h] at this
  cases this

end Verif.ToolRun
