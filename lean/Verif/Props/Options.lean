import Verif.Model.Options
import Verif.Props.Config
import Verif.Props.Units

/-!
# C128: options and units of a new assessment
-/

namespace Verif.Options

open Verif.Config (Js Fields Leaf Atom mergeDefaultConfig updateVals leafAt dictAt clashAt WF wfB_sound)
open Verif.Units (RawFile fileEntries Means parseUnits)

theorem default_WF : WF (.dict defaultOptions) := fun path g h => wfB_sound path _ g (by decide +kernel) h

/-- The documented name of every option, and the attribute it stands for. -/
def documented : List (List Str × (Options → Js)) := [
  ([str "Seed"], (·.seed)),
  ([str "Sampling", str "SamplingMethod"], (·.samplingMethod)),
  ([str "ListAllDamageStates"], (·.listAllDs)),
  ([str "UnitsFile"], (·.unitsFile)),
  ([str "DemandOffset"], (·.demandOffset)),
  ([str "NonDirectionalMultipliers"], (·.nondirMulti)),
  ([str "RepairCostAndTimeCorrelation"], (·.rhoCostTime)),
  ([str "EconomiesOfScale"], (·.ecoScale)),
  ([str "ErrorSetup"], (·.errorSetup)),
  ([str "LogFile"], (·.logFile)),
  ([str "Verbose"], (·.verbose)),
  ([str "LogShowMS"], (·.logShowMs)),
  ([str "PrintLog"], (·.printLog))]

theorem item_at {d v : Js} {k : String} (h : item d k = .ok v) : d.at [str k] = some v := by
  cases d with
  | leaf l => simp [item] at h
  | dict f =>
    simp only [item] at h
    simp only [Js.at]
    cases hf : f.get? (str k) with
    | none => rw [hf] at h; simp at h
    | some w => rw [hf] at h; simpa [Js.at] using h

theorem at_append (t : Js) (a b : List Str) : t.at (a ++ b) = (t.at a).bind (·.at b) := by
  induction a generalizing t with
  | nil => cases t <;> simp [Js.at]
  | cons k a ih =>
    cases t with
    | leaf l => simp [Js.at]
    | dict f =>
      simp only [List.cons_append, Js.at]
      cases f.get? k with
      | none => rfl
      | some v => exact ih v

theorem item_two {d v w : Js} {k j : String} (h : item d k = .ok v) (h' : item v j = .ok w) : d.at [str k, str j] = some w := by
  rw [show [str k, str j] = [str k] ++ [str j] from rfl, at_append, item_at h]
  exact item_at h'

theorem bind_ok {α β : Type} {x : Except PyErr α} {f : α → Except PyErr β} {r : β} (h : (x >>= f) = .ok r) : ∃ a, x = .ok a ∧ f a = .ok r := by
  cases x with
  | error e => cases h
  | ok a => exact ⟨a, rfl, h⟩

theorem read_at {merged : Js} {o : Options} (h : read merged = .ok o) : ∀ x ∈ documented, merged.at x.1 = some (x.2 o) := by
  unfold read at h
  obtain ⟨a1, h1, h⟩ := bind_ok h
  obtain ⟨a2, h2, h⟩ := bind_ok h
  obtain ⟨a3, h3, h⟩ := bind_ok h
  obtain ⟨a4, h4, h⟩ := bind_ok h
  obtain ⟨a5, h5, h⟩ := bind_ok h
  obtain ⟨a6, h6, h⟩ := bind_ok h
  obtain ⟨a7, h7, h⟩ := bind_ok h
  obtain ⟨a8, h8, h⟩ := bind_ok h
  obtain ⟨a9, h9, h⟩ := bind_ok h
  obtain ⟨a10, h10, h⟩ := bind_ok h
  obtain ⟨a11, h11, h⟩ := bind_ok h
  obtain ⟨a12, h12, h⟩ := bind_ok h
  obtain ⟨a13, h13, h⟩ := bind_ok h
  obtain ⟨a14, h14, h⟩ := bind_ok h
  cases h
  intro x hx
  simp only [documented, List.mem_cons, List.not_mem_nil, or_false] at hx
  rcases hx with rfl | rfl | rfl | rfl | rfl | rfl | rfl | rfl | rfl | rfl | rfl | rfl | rfl
  · exact item_at h1
  · exact item_two h2 h3
  · exact item_at h4
  · exact item_at h5
  · exact item_at h6
  · exact item_at h7
  · exact item_at h8
  · exact item_at h9
  · exact item_at h10
  · exact item_at h11
  · exact item_at h12
  · exact item_at h13
  · exact item_at h14

theorem item_ok {f : Fields} {k : String} (h : ∃ v, (Js.dict f).at [str k] = some v) : ∃ v, item (.dict f) k = .ok v ∧ (Js.dict f).at [str k] = some v := by
  obtain ⟨v, h⟩ := h
  refine ⟨v, ?_, h⟩
  simp only [Js.at] at h
  simp only [item]
  cases hf : f.get? (str k) with
  | none => rw [hf] at h; simp at h
  | some w => rw [hf] at h; simpa [Js.at] using h

/-- What the merged configuration has where there is a default. -/
theorem merged_has {u merged : Fields} (h : updateVals u defaultOptions = .ok merged) (path : List Str)
    (hd : (leafAt (.dict defaultOptions) path).isSome ∨ dictAt (.dict defaultOptions) path) : ∃ v, (Js.dict merged).at path = some v := by
  obtain ⟨h1, h2⟩ := Config.C01_user_wins_defaults_fill u defaultOptions merged default_WF h path
  rcases hd with hd | hd
  · have : (leafAt (.dict merged) path).isSome := by
      rw [h1]
      cases leafAt (.dict u) path with
      | some l => rfl
      | none => exact hd
    unfold leafAt at this
    cases hm : (Js.dict merged).at path with
    | some v => exact ⟨v, rfl⟩
    | none => rw [hm] at this; simp at this
  · obtain ⟨g, hg⟩ := h2.2 (.inr hd)
    exact ⟨_, hg⟩

theorem read_ok {u merged : Fields} (h : updateVals u defaultOptions = .ok merged) : ∃ o, read (.dict merged) = .ok o := by
  have leaf : ∀ k : String, (leafAt (.dict defaultOptions) [str k]).isSome = true → ∃ v, item (.dict merged) k = .ok v ∧ (Js.dict merged).at [str k] = some v :=
    fun k hk => item_ok (merged_has h _ (.inl hk))
  have dct : ∀ k : String, dictAt (.dict defaultOptions) [str k] → ∃ v, item (.dict merged) k = .ok v ∧ (Js.dict merged).at [str k] = some v :=
    fun k hk => item_ok (merged_has h _ (.inr hk))
  obtain ⟨a1, h1, _⟩ := leaf "Seed" (by decide +kernel)
  obtain ⟨g, hg⟩ := (Config.C01_user_wins_defaults_fill u defaultOptions merged default_WF h [str "Sampling"]).2.2 (.inr ⟨_, rfl⟩)
  obtain ⟨a2, h2, k2⟩ := dct "Sampling" ⟨_, rfl⟩
  rw [hg, Option.some.injEq] at k2
  subst k2
  obtain ⟨v, hv⟩ := merged_has h [str "Sampling", str "SamplingMethod"] (.inl (by decide +kernel))
  rw [show [str "Sampling", str "SamplingMethod"] = [str "Sampling"] ++ [str "SamplingMethod"] from rfl, at_append, hg] at hv
  obtain ⟨a3, h3, _⟩ := item_ok ⟨v, hv⟩
  obtain ⟨a4, h4, _⟩ := leaf "ListAllDamageStates" (by decide +kernel)
  obtain ⟨a5, h5, _⟩ := leaf "UnitsFile" (by decide +kernel)
  obtain ⟨a6, h6, _⟩ := dct "DemandOffset" ⟨_, rfl⟩
  obtain ⟨a7, h7, _⟩ := dct "NonDirectionalMultipliers" ⟨_, rfl⟩
  obtain ⟨a8, h8, _⟩ := leaf "RepairCostAndTimeCorrelation" (by decide +kernel)
  obtain ⟨a9, h9, _⟩ := dct "EconomiesOfScale" ⟨_, rfl⟩
  obtain ⟨a10, h10, _⟩ := dct "ErrorSetup" ⟨_, rfl⟩
  obtain ⟨a11, h11, _⟩ := leaf "LogFile" (by decide +kernel)
  obtain ⟨a12, h12, _⟩ := leaf "Verbose" (by decide +kernel)
  obtain ⟨a13, h13, _⟩ := leaf "LogShowMS" (by decide +kernel)
  obtain ⟨a14, h14, _⟩ := leaf "PrintLog" (by decide +kernel)
  refine ⟨⟨a1, a3, a4, a5, a6, a7, a8, a9, a10, a11, a12, a13, a14⟩, ?_⟩
  unfold read
  rw [h1, h2, h4, h5, h6, h7, h8, h9, h10, h11, h12, h13, h14]
  show (do let s ← item (.dict g) "SamplingMethod"; _) = _
  rw [h3]
  rfl

theorem make_steps {user : Option Fields} {o : Options} {after : Fields} (h : makeOptions user = .ok (o, after)) :
    updateVals (user.getD .nil) defaultOptions = .ok after ∧ read (.dict after) = .ok o := by
  unfold makeOptions mergeDefaultConfig at h
  cases hm : updateVals (user.getD .nil) defaultOptions with
  | error e => rw [hm] at h; simp at h
  | ok merged =>
    rw [hm] at h
    simp only at h
    cases hr : read (.dict merged) with
    | error e => rw [hr] at h; simp at h
    | ok o' =>
      rw [hr] at h
      simp only [Except.ok.injEq, Prod.mk.injEq] at h
      obtain ⟨rfl, rfl⟩ := h
      exact ⟨rfl, hr⟩

/-- **C128, values.** Every plain value in every documented option, also inside of options that are dictionaries, is the one of the user if there is
one, and that of the default options otherwise. -/
theorem C128_values (user : Option Fields) (o : Options) (after : Fields) (h : makeOptions user = .ok (o, after))
    (name : List Str) (attr : Options → Js) (hx : (name, attr) ∈ documented) (path : List Str) :
    leafAt (attr o) path =
      (match leafAt (.dict (user.getD .nil)) (name ++ path) with
        | some l => some l
        | none => leafAt (.dict defaultOptions) (name ++ path)) := by
  obtain ⟨h1, h2⟩ := make_steps h
  have h3 := read_at h2 _ hx
  refine Eq.trans ?_ (Config.C01_user_wins_defaults_fill _ _ _ default_WF h1 (name ++ path)).1
  unfold leafAt
  rw [at_append, h3]
  rfl

/-- **C128, acceptance.** Options are made for every configuration, except if a plain value is given where the default is a dictionary or the other
way round; this is a `ValueError`. -/
theorem C128_accepted_iff (user : Option Fields) :
    ((∃ r, makeOptions user = .ok r) ↔ ¬ ∃ path, clashAt (.dict (user.getD .nil)) (.dict defaultOptions) path) ∧
    ∀ e, makeOptions user = .error e → e = .valueError := by
  obtain ⟨h1, h2⟩ := Config.C01_rejected_iff_clash (user.getD .nil) defaultOptions default_WF
  cases hm : updateVals (user.getD .nil) defaultOptions with
  | error e =>
    obtain rfl := h2 e hm
    have hmk : makeOptions user = .error .valueError := by unfold makeOptions mergeDefaultConfig; rw [hm]
    rw [hmk]
    refine ⟨⟨by simp, fun hn => absurd (h1.1 hm) hn⟩, fun e he => ?_⟩
    simp only [Except.error.injEq] at he
    exact he.symm
  | ok merged =>
    obtain ⟨o, ho⟩ := read_ok hm
    have hmk : makeOptions user = .ok (o, merged) := by unfold makeOptions mergeDefaultConfig; rw [hm]; simp only [ho]
    rw [hmk]
    refine ⟨⟨fun _ hn => ?_, fun _ => ⟨_, rfl⟩⟩, by simp⟩
    rw [h1.2 hn] at hm
    simp at hm

/-- **C128, defaults.** Without a configuration the options are the documented ones. -/
theorem C128_defaults : ∃ after, makeOptions none = .ok (⟨null, text "LHS", bool false, null, .dict (dict [("PFA", num (-1)), ("PFV", num (-1))]),
    .dict (dict [("ALL", num (6/5))]), num 0, .dict (dict [("AcrossFloors", bool true), ("AcrossDamageStates", bool false)]),
    .dict (dict [("Loss", .dict (dict [("ReplacementThreshold", .dict (dict [("RaiseOnUnknownKeys", bool true)]))]))]),
    null, bool false, bool false, bool false⟩, after) := by
  refine ⟨defaultOptions, ?_⟩
  decide +kernel

/-- **C128, other entries.** Two configurations that have the same values in the documented options, and are accepted, give the same values: what is
written anywhere else, such as an option with a wrong name, has no effect and is not reported. -/
theorem C128_other_entries (user user' : Option Fields) (o o' : Options) (after after' : Fields) (h : makeOptions user = .ok (o, after))
    (h' : makeOptions user' = .ok (o', after')) (name : List Str) (attr : Options → Js) (hx : (name, attr) ∈ documented) (path : List Str)
    (hs : leafAt (.dict (user.getD .nil)) (name ++ path) = leafAt (.dict (user'.getD .nil)) (name ++ path)) :
    leafAt (attr o) path = leafAt (attr o') path := by
  rw [C128_values user o after h name attr hx, C128_values user' o' after' h' name attr hx, hs]

/-- C128 does not hold for the dictionary of the user: it is changed, afterwards it has every default option that it did not have. -/
theorem C128_dictionary_changed (u : Fields) (o : Options) (after : Fields) (h : makeOptions (some u) = .ok (o, after)) (path : List Str) (l : Leaf)
    (hn : leafAt (.dict u) path = none) (hd : leafAt (.dict defaultOptions) path = some l) : leafAt (.dict after) path = some l := by
  obtain ⟨h1, _⟩ := make_steps h
  rw [(Config.C01_user_wins_defaults_fill _ _ _ default_WF h1 path).1]
  show (match leafAt (.dict u) path with | some l => some l | none => _) = _
  rw [hn]
  exact hd

/-- **C128, again.** What the user wrote stays in the dictionary, and another assessment with the same dictionary has the same options. -/
theorem C128_again (u : Fields) (o : Options) (after : Fields) (h : makeOptions (some u) = .ok (o, after)) :
    makeOptions (some after) = .ok (o, after) ∧ ∀ path l, leafAt (.dict u) path = some l → leafAt (.dict after) path = some l := by
  obtain ⟨h1, h2⟩ := make_steps h
  refine ⟨?_, fun path l hl => ?_⟩
  · have := Config.C02_merge_idempotent _ _ _ default_WF h1
    unfold makeOptions mergeDefaultConfig
    simp only [Option.getD_some, this, h2]
  · rw [(Config.C01_user_wins_defaults_fill _ _ _ default_WF h1 path).1]
    show (match leafAt (.dict u) path with | some l => some l | none => _) = _
    rw [hl]

/-! ### Units -/

/-- The unit file that the configuration names. -/
def NamesFile (user : Option Fields) (p : Str) : Prop := leafAt (.dict (user.getD .nil)) [str "UnitsFile"] = some (.atom (.str p)) ∧ p ≠ []

theorem units_leaf {user : Option Fields} {o : Options} {after : Fields} (h : makeOptions user = .ok (o, after)) {l : Leaf}
    (hl : leafAt (.dict (user.getD .nil)) [str "UnitsFile"] = some l) : o.unitsFile = .leaf l := by
  have := C128_values user o after h [str "UnitsFile"] (·.unitsFile) (by simp [documented]) []
  rw [List.append_nil, hl] at this
  simp only [leafAt, Js.at] at this
  cases hu : o.unitsFile with
  | leaf x => rw [hu] at this; simpa using this
  | dict f => rw [hu] at this; simp at this

variable (pyFloat : Str → Option ℚ) (default : RawFile) (files : Str → Except PyErr RawFile)

/-- **C128, units.** Without a unit file a unit has a factor exactly if the default file gives it; with a unit file, exactly if that one does.  Missing: that
default units are always there, where it is false. -/
theorem C128_units_partial (user : Option Fields) (o : Options) (t : Dict Str ℚ) (after : Fields)
    (h : newAssessment pyFloat default files user = .ok (o, t, after)) :
    (leafAt (.dict (user.getD .nil)) [str "UnitsFile"] = none →
      ∀ u q, t.get? u = some q ↔ ∃ v, (u, v) ∈ fileEntries default ∧ Means pyFloat v q) ∧
    ∀ p, NamesFile user p → ∃ f, files p = .ok f ∧ ∀ u q, t.get? u = some q ↔ ∃ v, (u, v) ∈ fileEntries f ∧ Means pyFloat v q := by
  unfold newAssessment at h
  cases hm : makeOptions user with
  | error e => rw [hm] at h; simp at h
  | ok r =>
    obtain ⟨o', after'⟩ := r
    rw [hm] at h
    simp only at h
    constructor
    · intro hn
      have hu : o'.unitsFile = null := by
        have := C128_values user o' after' hm [str "UnitsFile"] (·.unitsFile) (by simp [documented]) []
        rw [List.append_nil, hn] at this
        have hd : leafAt (.dict defaultOptions) [str "UnitsFile"] = some (.atom .null) := by decide +kernel
        simp only [hd] at this
        simp only [leafAt, Js.at] at this
        cases hu : o'.unitsFile with
        | leaf x => rw [hu] at this; simp only [Option.some.injEq] at this; rw [this]; rfl
        | dict f => rw [hu] at this; simp at this
      rw [hu] at h
      simp only [null, unitsPath] at h
      cases hp : parseUnits pyFloat default none with
      | error e => rw [hp] at h; simp at h
      | ok t' =>
        rw [hp] at h
        simp only [Except.ok.injEq, Prod.mk.injEq] at h
        obtain ⟨_, rfl, _⟩ := h
        exact (Units.C11_single_meaning pyFloat default none t' hp).2.2
    · intro p hp
      rw [units_leaf hm hp.1] at h
      simp only [unitsPath, if_neg hp.2] at h
      cases hf : files p with
      | error e => rw [hf] at h; simp at h
      | ok f =>
        rw [hf] at h
        simp only at h
        cases hq : parseUnits pyFloat default (some f) with
        | error e => rw [hq] at h; simp at h
        | ok t' =>
          rw [hq] at h
          simp only [Except.ok.injEq, Prod.mk.injEq] at h
          obtain ⟨_, rfl, _⟩ := h
          exact ⟨f, rfl, (Units.C11_single_meaning pyFloat default (some f) t' hq).2.2⟩

/-- C128 does not hold for default units when there is a unit file: they are documented as always loaded, but a unit that is not in the unit file of the
user is not known. -/
theorem C128_default_units_lost (user : Option Fields) (o : Options) (t : Dict Str ℚ) (after : Fields) (p : Str) (f : RawFile) (hp : NamesFile user p)
    (hf : files p = .ok f) (h : newAssessment pyFloat default files user = .ok (o, t, after)) (unit : Str)
    (hn : ∀ v, (unit, v) ∉ fileEntries f) : t.get? unit = none := by
  obtain ⟨f', h1, h2⟩ := (C128_units_partial pyFloat default files user o t after h).2 p hp
  rw [hf, Except.ok.injEq] at h1
  subst h1
  cases hg : t.get? unit with
  | none => rfl
  | some q =>
    obtain ⟨v, hv, _⟩ := (h2 unit q).1 hg
    exact absurd hv (hn v)

/-! ### The hypotheses are met -/

/-- `{'Seed': 7, 'SamplingMethod': 'MonteCarlo', 'NonDirectionalMultipliers': {'PFA': 1}, 'UnitsFile': 'u.json'}` -/
def exUser : Fields := dict [("Seed", num 7), ("SamplingMethod", text "MonteCarlo"), ("NonDirectionalMultipliers", .dict (dict [("PFA", num 1)])),
  ("UnitsFile", text "u.json")]

/-- The method is in the wrong place and has no effect; the multiplier of other demands stays. -/
example : ∃ o after, makeOptions (some exUser) = .ok (o, after) ∧ o.seed = num 7 ∧ o.samplingMethod = text "LHS" ∧
    o.nondirMulti = .dict (dict [("PFA", num 1), ("ALL", num (6/5))]) ∧ leafAt (.dict after) [str "Sampling", str "SampleSize"] = some (.atom (.num 1000)) ∧
    leafAt (.dict exUser) [str "Sampling", str "SampleSize"] = none :=
  ⟨_, _, rfl, by decide +kernel, by decide +kernel, by decide +kernel, by decide +kernel, by decide +kernel⟩

example : makeOptions (some (dict [("Sampling", text "MonteCarlo")])) = .error .valueError := rfl

def exDefaultUnits : RawFile := .obj [(str "length", .obj [(str "m", .num 1), (str "in", .num (127/5000))])]
def exFile : RawFile := .obj [(str "length", .obj [(str "smoot", .num (17/10))])]

/-- A user adds a unit, and inches are gone. -/
example : NamesFile (some exUser) (str "u.json") ∧
    ∃ o t after, newAssessment (fun _ => none) exDefaultUnits (fun _ => .ok exFile) (some exUser) = .ok (o, t, after) ∧
      t.get? (str "smoot") = some (17/10) ∧ t.get? (str "in") = none :=
  ⟨⟨by decide +kernel, by decide⟩, _, _, _, rfl, by decide +kernel, by decide +kernel⟩

end Verif.Options
