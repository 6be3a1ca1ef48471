import Verif.Props.ToolConfigSpec
import Verif.Lemmas.Config

/-!
# Lemmas about configurations: writing entries and the schema
-/

namespace Verif.ToolConfig

open Config Config.Fields

/-- What `update` writes. -/
def setAt (v : Js) : Fields → List Str → Str → Fields
  | f, [], k => f.set k v
  | f, k0 :: ks, k => f.set k0 (.dict (setAt v (subDict (f.get? k0)) ks k))

theorem updateAt_eq (np22 : Bool) (v : Js) (ks : List Str) : ∀ (f : Fields) (k : Str),
    updateAt np22 false v f ks k = .ok (setAt v f ks k) := by
  induction ks with
  | nil => intro f k; rfl
  | cons k0 ks ih => intro f k; simp only [updateAt, ih, setAt]

/-- The configuration with the entry. -/
def setPath (p : String) (v : Js) (c : Fields) : Fields :=
  setAt v c (pathKeys (str p)).dropLast ((pathKeys (str p)).getLast?.getD [])

theorem put_eq (np22 : Bool) (p : String) (v : Js) (c : Fields) : put np22 p v c = .ok (setPath p v c) := updateAt_eq ..

/-- The entry at a path. -/
def look (c : Fields) (ks : List Str) : Option Js := Js.at (.dict c) ks

theorem look_set_same (p : String) (v : Js) (c : Fields) : look (setPath p v c) (pathKeys (str p)) = some v := by
  have := updateAt_at true v _ c _ _ (updateAt_eq true v (pathKeys (str p)).dropLast c ((pathKeys (str p)).getLast?.getD []))
  rwa [dropLast_getLast _ (pathKeys_ne_nil _)] at this

/-- Neither of the paths leads to the other. -/
def Apart (a b : List Str) : Prop := ¬ a <+: b ∧ ¬ b <+: a

instance (a b : List Str) : Decidable (Apart a b) := by unfold Apart; infer_instance

theorem look_set_apart (p : String) (v : Js) (c : Fields) (q : List Str) (h : Apart (pathKeys (str p)) q) :
    look (setPath p v c) q = look c q := by
  have := updateAt_frame true false v _ c _ _ q
    (updateAt_eq true v (pathKeys (str p)).dropLast c ((pathKeys (str p)).getLast?.getD []))
  rw [dropLast_getLast _ (pathKeys_ne_nil _)] at this
  exact this h.1 h.2

theorem at_append (v : Js) : ∀ (a b : List Str), Js.at v (a ++ b) = (Js.at v a).bind fun w => Js.at w b := by
  intro a
  induction a generalizing v with
  | nil => intro b; simp [Js.at]
  | cons k a ih =>
    intro b
    cases v with
    | leaf l => simp [Js.at]
    | dict f =>
      rw [List.cons_append, at_dict_cons, at_dict_cons]
      cases f.get? k with
      | none => rfl
      | some w => simpa using ih w b

theorem look_set_below (p : String) (v : Js) (c : Fields) (r : List Str) :
    look (setPath p v c) (pathKeys (str p) ++ r) = Js.at v r := by
  have := look_set_same p v c
  unfold look at *
  rw [at_append, this]; rfl

/-- Above an entry there are objects with entries. -/
theorem above (c : Fields) (a b : List Str) (v : Js) (h : look c (a ++ b) = some v) (hb : b ≠ []) :
    ∃ k w f, look c a = some (.dict (.cons k w f)) := by
  unfold look at *
  rw [at_append] at h
  obtain ⟨b0, b, rfl⟩ := List.exists_cons_of_ne_nil hb
  cases ha : Js.at (.dict c) a with
  | none => rw [ha] at h; simp at h
  | some w =>
    rw [ha] at h
    cases w with
    | leaf l => simp [Js.at] at h
    | dict f =>
      cases f with
      | nil => simp [Js.at, Fields.get?] at h
      | cons k w f => exact ⟨k, w, f, rfl⟩

theorem val_eq (c : Fields) (p : String) : val c p = (look c (pathKeys (str p))).getD null := rfl

theorem unspec_eq (np22 : Bool) (c : Fields) (p : String) : unspec np22 c p = valueUnspecified np22 (val c p) := rfl

theorem val_set_same (p : String) (v : Js) (c : Fields) : val (setPath p v c) p = v := by
  rw [val_eq, look_set_same]; rfl

theorem val_set_apart (p q : String) (v : Js) (c : Fields) (h : Apart (pathKeys (str p)) (pathKeys (str q))) :
    val (setPath p v c) q = val c q := by
  rw [val_eq, look_set_apart p v c _ h]; rfl

theorem unspec_set_apart (np22 : Bool) (p q : String) (v : Js) (c : Fields)
    (h : Apart (pathKeys (str p)) (pathKeys (str q))) : unspec np22 (setPath p v c) q = unspec np22 c q := by
  rw [unspec_eq, unspec_eq, val_set_apart p q v c h]

theorem unspec_above (np22 : Bool) (c : Fields) (p : String) (b : List Str) (v : Js)
    (h : look c (pathKeys (str p) ++ b) = some v) (hb : b ≠ []) : unspec np22 c p = .ok false := by
  obtain ⟨k, w, f, hk⟩ := above c _ b v h hb
  rw [unspec_eq, val_eq, hk]; rfl

theorem putDefault_eq (np22 : Bool) (p : String) (v : Js) (c : Fields) :
    putDefault np22 p v c = (unspec np22 c p).bind fun b => .ok (if b then setPath p v c else c) := by
  unfold putDefault update
  rw [updateAt_only, dropLast_getLast _ (pathKeys_ne_nil _), updateAt_eq]
  show _ = (valueUnspecified np22 ((look c (pathKeys (str p))).getD null)).bind _
  unfold look null
  cases valueUnspecified np22 (((Js.dict c).at (pathKeys (str p))).getD (Js.leaf (Leaf.atom Atom.null))) with
  | error e => rfl
  | ok b => cases b <;> rfl

theorem putIf_eq (np22 : Bool) (p : String) (v : Js) (c : Fields) :
    putIf np22 p v c = (unspec np22 c p).bind fun b => .ok (if b then setPath p v c else c) := by
  unfold putIf
  simp only [put_eq]
  cases unspec np22 c p with
  | error e => rfl
  | ok b => cases b <;> rfl

theorem require_eq (np22 : Bool) (p : String) (c : Fields) :
    require np22 p c = .ok () ↔ unspec np22 c p = .ok false := by
  unfold require
  cases unspec np22 c p with
  | error e => simp [bind, Except.bind]
  | ok b => cases b <;> simp [bind, Except.bind, pure, Except.pure, throw, throwThe, MonadExceptOf.throw]

/-! ## The schema -/

theorem conformsAll_lookup (k : Str) (s : Schema) (f : Fields) (v : Js) (hv : f.get? k = some v) :
    ∀ props : List (Str × Schema), conformsAll props f = true → props.lookup k = some s → conforms s v = true
  | [], _, h => by simp at h
  | (k', s') :: rest, hc, h => by
    rw [conformsAll, Bool.and_eq_true] at hc
    rw [List.lookup_cons] at h
    by_cases hk : k = k'
    · subst hk
      simp at h
      subst h
      simpa [hv] using hc.1
    · have : (k == k') = false := by simpa using hk
      rw [this] at h
      exact conformsAll_lookup k s f v hv rest hc.2 h

theorem conforms_at (ks : List Str) : ∀ (s t : Schema) (v w : Js), conforms s v = true → schemaAt s ks = some t →
    Js.at v ks = some w → conforms t w = true := by
  induction ks with
  | nil => intro s t v w h hs hv; simp only [schemaAt, Option.some.injEq] at hs; simp only [Js.at, Option.some.injEq] at hv; subst hs hv; exact h
  | cons k ks ih =>
    intro s t v w h hs hv
    cases v with
    | leaf l => simp [Js.at] at hv
    | dict f =>
      cases s with
      | object req props =>
        rw [conforms, Bool.and_eq_true] at h
        simp only [schemaAt] at hs
        rw [at_dict_cons] at hv
        cases hk : f.get? k with
        | none => rw [hk] at hv; simp at hv
        | some x =>
          rw [hk] at hv
          cases hp : props.lookup k with
          | none => rw [hp] at hs; simp at hs
          | some s' =>
            rw [hp] at hs
            exact ih s' t x w (conformsAll_lookup k s' f x hk props h.2 hp) hs (by simpa using hv)
      | _ => simp [schemaAt] at hs

theorem conforms_required (s : Schema) (v : Js) (ks : List Str) (req : List Str) (props : List (Str × Schema)) (k : Str)
    (h : conforms s v = true) (hs : schemaAt s ks = some (.object req props)) (w : Js) (hv : Js.at v ks = some w)
    (hk : k ∈ req) : ∃ x, Js.at v (ks ++ [k]) = some x := by
  have hw := conforms_at ks s _ v w h hs hv
  cases w with
  | leaf l => simp [conforms] at hw
  | dict f =>
    rw [conforms, Bool.and_eq_true, List.all_eq_true] at hw
    obtain ⟨x, hx⟩ := Option.isSome_iff_exists.mp (hw.1 k hk)
    exact ⟨x, by rw [at_append, hv, Option.bind_some, at_dict_cons, hx]; rfl⟩

/-- Values that the schema allows are not lists. -/
theorem conforms_not_list : ∀ (s : Schema) (l : List Atom), conforms s (.leaf (.list l)) = false
  | .text, _ => rfl
  | .number, _ => rfl
  | .integer, _ => rfl
  | .boolean, _ => rfl
  | .either a b, l => by rw [conforms, conforms_not_list a l, conforms_not_list b l]; rfl
  | .object _ _, _ => rfl
  | .mapOf _, _ => rfl

theorem unspec_readable (np22 : Bool) (v : Js) (h : ∀ l, v ≠ .leaf (.list l)) : ∃ b, valueUnspecified np22 v = .ok b := by
  match v with
  | .leaf (.atom .null) => exact ⟨_, rfl⟩
  | .leaf (.atom .nan) => exact ⟨_, rfl⟩
  | .leaf (.atom (.bool _)) => exact ⟨_, rfl⟩
  | .leaf (.atom (.num _)) => exact ⟨_, rfl⟩
  | .leaf (.atom (.str _)) => exact ⟨_, rfl⟩
  | .leaf (.list l) => exact absurd rfl (h l)
  | .dict .nil => exact ⟨_, rfl⟩
  | .dict (.cons _ _ _) => exact ⟨_, rfl⟩

theorem at_readable (np22 : Bool) (s t : Schema) (v : Js) (ks : List Str) (h : conforms s v = true)
    (hs : schemaAt s ks = some t) : ∃ b, valueUnspecified np22 ((Js.at v ks).getD null) = .ok b := by
  apply unspec_readable
  intro l hl
  cases hv : Js.at v ks with
  | none => rw [hv] at hl; exact absurd hl (by simp [null])
  | some w =>
    rw [hv] at hl
    simp only [Option.getD_some] at hl
    subst hl
    have := conforms_at ks s t v _ h hs hv
    rw [conforms_not_list] at this
    cases this

/-- Entries of the schema can be checked. -/
theorem schema_readable (np22 : Bool) (c : Fields) (p : String) (t : Schema) (h : conforms inputSchema (.dict c) = true)
    (hs : schemaAt inputSchema (pathKeys (str p)) = some t) : ∃ b, unspec np22 c p = .ok b :=
  at_readable np22 inputSchema t (.dict c) _ h hs

/-! ## The steps -/

theorem bind_ok {α β : Type} (x : Except PyErr α) (f : α → Except PyErr β) (b : β) :
    (x >>= f) = .ok b ↔ ∃ a, x = .ok a ∧ f a = .ok b := by
  cases x with
  | error e => simp [bind, Except.bind]
  | ok a => simp [bind, Except.bind]

/-- The entries outside of the paths are the same. -/
def SameOutside (ps : List String) (c c' : Fields) : Prop :=
  ∀ q, (∀ p ∈ ps, Apart (pathKeys (str p)) q) → look c' q = look c q

theorem SameOutside.refl (ps : List String) (c : Fields) : SameOutside ps c c := fun _ _ => rfl

theorem SameOutside.trans {ps qs : List String} {a b c : Fields} (h1 : SameOutside ps a b) (h2 : SameOutside qs b c) :
    SameOutside (ps ++ qs) a c := fun q hq => by
  rw [h2 q fun p hp => hq p (List.mem_append_right _ hp), h1 q fun p hp => hq p (List.mem_append_left _ hp)]

theorem SameOutside.mono {ps qs : List String} {a b : Fields} (h : SameOutside ps a b) (hs : ∀ p ∈ ps, p ∈ qs) :
    SameOutside qs a b := fun q hq => h q fun p hp => hq p (hs p hp)

theorem SameOutside.set (p : String) (v : Js) (c : Fields) : SameOutside [p] c (setPath p v c) := fun q hq =>
  look_set_apart p v c q (hq p (List.mem_singleton_self p))

theorem SameOutside.val {ps : List String} {c c' : Fields} (h : SameOutside ps c c') (q : String)
    (hq : ∀ p ∈ ps, Apart (pathKeys (str p)) (pathKeys (str q))) : ToolConfig.val c' q = ToolConfig.val c q := by
  rw [val_eq, h _ hq]; rfl

theorem SameOutside.unspec {ps : List String} {c c' : Fields} (h : SameOutside ps c c') (np22 : Bool) (q : String)
    (hq : ∀ p ∈ ps, Apart (pathKeys (str p)) (pathKeys (str q))) :
    ToolConfig.unspec np22 c' q = ToolConfig.unspec np22 c q := by
  rw [unspec_eq, unspec_eq, h.val q hq]

theorem putIf_ok (np22 : Bool) (p : String) (v : Js) (c c' : Fields) :
    putIf np22 p v c = .ok c' ↔ ∃ b, unspec np22 c p = .ok b ∧ c' = if b then setPath p v c else c := by
  rw [putIf_eq]
  cases unspec np22 c p with
  | error e => simp [Except.bind]
  | ok b => simp [Except.bind, eq_comm]

theorem putDefault_ok (np22 : Bool) (p : String) (v : Js) (c c' : Fields) :
    putDefault np22 p v c = .ok c' ↔ ∃ b, unspec np22 c p = .ok b ∧ c' = if b then setPath p v c else c := by
  rw [putDefault_eq]
  cases unspec np22 c p with
  | error e => simp [Except.bind]
  | ok b => simp [Except.bind, eq_comm]

theorem same_if (p : String) (v : Js) (c : Fields) (b : Bool) : SameOutside [p] c (if b then setPath p v c else c) := by
  cases b
  · exact .refl _ _
  · exact .set p v c

/-- The number of samples: the first of the two entries that has a value. -/
def sizeEntry (c : Fields) : Js :=
  if truthy (val c "DL/Options/Sampling/SampleSize") then val c "DL/Options/Sampling/SampleSize" else val c "DL/Demands/SampleSize"

theorem sampleSize_ok (np22 : Bool) (c c' : Fields) :
    sampleSize np22 c = .ok c' ↔ ∃ n : Int, truthy (sizeEntry c) = true ∧ toInt (sizeEntry c) = .ok n ∧
      c' = setPath "DL/Options/Sampling/SampleSize" (number n) c := by
  unfold sampleSize
  show (if truthy (sizeEntry c) = true then _ else _) = _ ↔ _
  by_cases h : truthy (sizeEntry c) = true
  · rw [if_pos h, bind_ok]
    simp only [put_eq, Except.ok.injEq]
    constructor
    · rintro ⟨n, hn, rfl⟩; exact ⟨n, h, hn, rfl⟩
    · rintro ⟨n, _, hn, rfl⟩; exact ⟨n, hn, rfl⟩
  · rw [if_neg h]
    simp [h, throw, throwThe, MonadExceptOf.throw]

theorem outputDefaults_ok (np22 : Bool) (ds : Defaults) (a : Call) (c c' : Fields) :
    outputDefaults np22 ds a c = .ok c' ↔ ∃ b1 b2 b3 c1 c2 c3, unspec np22 c "DL/Outputs" = .ok b1 ∧
      c1 = (if b1 then setPath "DL/Outputs" (.dict ds.full) c else c) ∧ unspec np22 c1 "DL/Outputs/Format" = .ok b2 ∧
      c2 = (if b2 then setPath "DL/Outputs/Format" (formatValue true false) c1 else c1) ∧
      c3 = (match a.format with
        | none => c2
        | some l => setPath "DL/Outputs/Format" (formatValue (decide (str "csv" ∈ l)) (decide (str "json" ∈ l))) c2) ∧
      unspec np22 c3 "DL/Outputs/Settings" = .ok b3 ∧
      c' = (if b3 then setPath "DL/Outputs/Settings" (.dict ds.pbe) c3 else c3) := by
  unfold outputDefaults
  have hfmt : ∀ c2 c3, overrideFormat np22 a c2 = .ok c3 ↔ c3 = (match a.format with
        | none => c2
        | some l => setPath "DL/Outputs/Format" (formatValue (decide (str "csv" ∈ l)) (decide (str "json" ∈ l))) c2) := by
    intro c2 c3
    unfold overrideFormat
    cases a.format <;> simp [put_eq, eq_comm]
  simp only [bind_ok, putIf_ok, hfmt]
  constructor
  · rintro ⟨c1, ⟨b1, h1, rfl⟩, c2, ⟨b2, h2, rfl⟩, c3, h3, b3, h4, rfl⟩
    exact ⟨b1, b2, b3, _, _, c3, h1, rfl, h2, rfl, h3, h4, rfl⟩
  · rintro ⟨b1, b2, b3, c1, c2, c3, h1, rfl, h2, rfl, h3, h4, rfl⟩
    exact ⟨_, ⟨b1, h1, rfl⟩, _, ⟨b2, h2, rfl⟩, c3, h3, b3, h4, rfl⟩

theorem optionDefaults_ok (np22 : Bool) (a : Call) (c c' : Fields) :
    optionDefaults np22 a c = .ok c' ↔ ∃ b1 b2 b3 b4 c1 c2 c3, unspec np22 c "DL/Options/LogFile" = .ok b1 ∧
      c1 = (if b1 then setPath "DL/Options/LogFile" (text (str "pelicun_log.txt")) c else c) ∧
      unspec np22 c1 "DL/Options/Verbose" = .ok b2 ∧
      c2 = (if b2 then setPath "DL/Options/Verbose" (bool true) c1 else c1) ∧
      unspec np22 c2 "DL/Options/ListAllDamageStates" = .ok b3 ∧
      c3 = (if b3 then setPath "DL/Options/ListAllDamageStates" (bool true) c2 else c2) ∧
      unspec np22 c3 "DL/Demands/DemandFilePath" = .ok b4 ∧
      c' = (if b4 then setPath "DL/Demands/DemandFilePath" (text a.responseFile) c3 else c3) := by
  unfold optionDefaults
  simp only [bind_ok, putDefault_ok]
  constructor
  · rintro ⟨c1, ⟨b1, h1, rfl⟩, c2, ⟨b2, h2, rfl⟩, c3, ⟨b3, h3, rfl⟩, b4, h4, rfl⟩
    exact ⟨b1, b2, b3, b4, _, _, _, h1, rfl, h2, rfl, h3, rfl, h4, rfl⟩
  · rintro ⟨b1, b2, b3, b4, c1, c2, c3, h1, rfl, h2, rfl, h3, rfl, h4, rfl⟩
    exact ⟨_, ⟨b1, h1, rfl⟩, _, ⟨b2, h2, rfl⟩, _, ⟨b3, h3, rfl⟩, b4, h4, rfl⟩

/-- 899-907 -/
def legacyStep (c : Fields) : Fields :=
  let c := if truthy (val c "DL/Losses/BldgRepair") then setPath "DL/Losses/Repair" (val c "DL/Losses/BldgRepair") c else c
  if truthy (val c "DL/Outputs/Loss/BldgRepair") then setPath "DL/Outputs/Loss/Repair" (val c "DL/Outputs/Loss/BldgRepair") c else c

theorem legacy_ok (np22 : Bool) (c : Fields) : legacy np22 c = .ok (legacyStep c) := by
  unfold legacy legacyStep
  simp only [put_eq]
  split <;> simp only [bind, Except.bind] <;> split <;> rfl

theorem stories_ok (np22 : Bool) (c c' : Fields) :
    stories np22 c = .ok c' ↔ (unspec np22 c "DL/Asset/NumberOfStories" = .ok true ∧ c' = c) ∨
      (unspec np22 c "DL/Asset/NumberOfStories" = .ok false ∧ ∃ n : Int, toInt (val c "DL/Asset/NumberOfStories") = .ok n ∧
        c' = setPath "DL/Asset/NumberOfStories" (number n) c) := by
  unfold stories
  rw [bind_ok]
  simp only [put_eq]
  constructor
  · rintro ⟨b, hb, h⟩
    cases b with
    | true => exact .inl ⟨hb, (Except.ok.inj h).symm⟩
    | false =>
      rw [if_neg (by simp), bind_ok] at h
      obtain ⟨n, hn, h⟩ := h
      exact .inr ⟨hb, n, hn, (Except.ok.inj h).symm⟩
  · rintro (⟨hb, rfl⟩ | ⟨hb, n, hn, rfl⟩)
    · exact ⟨true, hb, rfl⟩
    · refine ⟨false, hb, ?_⟩
      rw [if_neg (by simp), bind_ok]
      exact ⟨n, hn, rfl⟩

/-- `if is_specified(config, p): ...` -/
theorem whenGiven (np22 : Bool) (c : Fields) (p : String) (x : Except PyErr Unit) :
    ((unspec np22 c p >>= fun b => if b = true then pure () else x) = .ok ()) ↔
      unspec np22 c p = .ok true ∨ (unspec np22 c p = .ok false ∧ x = .ok ()) := by
  cases unspec np22 c p with
  | error e => simp [bind, Except.bind]
  | ok b => cases b <;> simp [bind, Except.bind, pure, Except.pure]

theorem checkDrift_ok (np22 : Bool) (c : Fields) :
    checkDrift np22 c = .ok () ↔ unspec np22 c "DL/Demands/InferResidualDrift" = .ok true ∨
      (unspec np22 c "DL/Demands/InferResidualDrift" = .ok false ∧ unspec np22 c "DL/Demands/InferResidualDrift/method" = .ok false) := by
  unfold checkDrift
  rw [whenGiven, require_eq]

theorem seq_ok (x y : Except PyErr Unit) : (x >>= fun _ => y) = .ok () ↔ x = .ok () ∧ y = .ok () := by
  cases x <;> simp [bind, Except.bind]

theorem checkIrreparable_ok (np22 : Bool) (c : Fields) :
    checkIrreparable np22 c = .ok () ↔ unspec np22 c "DL/Damage/IrreparableDamage" = .ok true ∨
      (unspec np22 c "DL/Damage/IrreparableDamage" = .ok false ∧
        unspec np22 c "DL/Damage/IrreparableDamage/DriftCapacityMedian" = .ok false ∧
        unspec np22 c "DL/Damage/IrreparableDamage/DriftCapacityLogStd" = .ok false) := by
  unfold checkIrreparable
  rw [whenGiven, seq_ok, require_eq, require_eq]

theorem checkProcess_ok (np22 : Bool) (c : Fields) :
    checkProcess np22 c = .ok () ↔ (val c "DL/Damage/DamageProcess" = text (str "User Defined") →
      unspec np22 c "DL/Damage/DamageProcessFilePath" = .ok false) := by
  unfold checkProcess
  by_cases h : val c "DL/Damage/DamageProcess" = text (str "User Defined")
  · rw [if_pos h, require_eq]; simp [h]
  · rw [if_neg h]; simp [h, pure, Except.pure]

theorem checkOutput_ok (np22 : Bool) (out part : String) (c : Fields) :
    checkOutput np22 out part c = .ok () ↔ unspec np22 c out = .ok true ∨
      (unspec np22 c out = .ok false ∧ unspec np22 c part = .ok false) := by
  unfold checkOutput
  rw [whenGiven, require_eq]

theorem checkFiles_ok (np22 : Bool) (c : Fields) :
    checkFiles np22 c = .ok () ↔ unspec np22 c "DL/Asset" = .ok true ∨ (unspec np22 c "DL/Asset" = .ok false ∧
      ¬ (val c "DL/Asset/ComponentAssignmentFile" = null ↔ val c "DL/Asset/ComponentSampleFile" = null)) := by
  unfold checkFiles
  rw [whenGiven]
  by_cases h1 : val c "DL/Asset/ComponentAssignmentFile" = null <;>
    by_cases h2 : val c "DL/Asset/ComponentSampleFile" = null <;>
      simp [h1, h2, throw, throwThe, MonadExceptOf.throw, pure, Except.pure]

theorem collapse_ok (np22 : Bool) (c c' : Fields) :
    collapse np22 c = .ok c' ↔ (unspec np22 c "DL/Damage/CollapseFragility" = .ok true ∧ c' = c) ∨
      (unspec np22 c "DL/Damage/CollapseFragility" = .ok false ∧
        ((unspec np22 c "DL/Damage/CollapseFragility/CapacityDistribution" = .ok true ∧
            (∃ f, val c "DL/Damage/CollapseFragility" = .dict f) ∧
            c' = setPath "DL/Damage/CollapseFragility/Theta_1" (text (str "N/A"))
              (setPath "DL/Damage/CollapseFragility/CapacityDistribution" (text (str "deterministic")) c)) ∨
          (unspec np22 c "DL/Damage/CollapseFragility/CapacityDistribution" = .ok false ∧ c' = c)) ∧
        unspec np22 c' "DL/Damage/CollapseFragility/CapacityDistribution" = .ok false ∧
        unspec np22 c' "DL/Damage/CollapseFragility/CapacityMedian" = .ok false ∧
        unspec np22 c' "DL/Damage/CollapseFragility/Theta_1" = .ok false) := by
  have hdef : ∀ d, collapseDefaults np22 c = .ok d ↔ (unspec np22 c "DL/Damage/CollapseFragility/CapacityDistribution" = .ok true ∧
            (∃ f, val c "DL/Damage/CollapseFragility" = .dict f) ∧
            d = setPath "DL/Damage/CollapseFragility/Theta_1" (text (str "N/A"))
              (setPath "DL/Damage/CollapseFragility/CapacityDistribution" (text (str "deterministic")) c)) ∨
          (unspec np22 c "DL/Damage/CollapseFragility/CapacityDistribution" = .ok false ∧ d = c) := by
    intro d
    unfold collapseDefaults
    rw [bind_ok]
    constructor
    · rintro ⟨b, hb, h⟩
      cases b with
      | true =>
        rw [if_pos rfl] at h
        split at h
        · cases h
        · rename_i f hf
          rw [put_eq, bind_ok] at h
          obtain ⟨e, he, h⟩ := h
          cases he
          rw [put_eq] at h
          exact .inl ⟨hb, ⟨f, hf⟩, (Except.ok.inj h).symm⟩
      | false => exact .inr ⟨hb, (Except.ok.inj h).symm⟩
    · rintro (⟨hb, ⟨f, hf⟩, rfl⟩ | ⟨hb, rfl⟩)
      · refine ⟨true, hb, ?_⟩
        rw [if_pos rfl, hf]
        simp only [put_eq, bind_ok]
        exact ⟨_, rfl, rfl⟩
      · exact ⟨false, hb, rfl⟩
  unfold collapse
  have hreq : ∀ d : Fields, (do
      require np22 "DL/Damage/CollapseFragility/CapacityDistribution" d
      require np22 "DL/Damage/CollapseFragility/CapacityMedian" d
      require np22 "DL/Damage/CollapseFragility/Theta_1" d
      return d) = Except.ok c' ↔ d = c' ∧ unspec np22 c' "DL/Damage/CollapseFragility/CapacityDistribution" = .ok false ∧
        unspec np22 c' "DL/Damage/CollapseFragility/CapacityMedian" = .ok false ∧
        unspec np22 c' "DL/Damage/CollapseFragility/Theta_1" = .ok false := by
    intro d
    simp only [bind_ok]
    constructor
    · rintro ⟨_, h1, _, h2, _, h3, h4⟩
      cases h4
      exact ⟨rfl, (require_eq ..).1 h1, (require_eq ..).1 h2, (require_eq ..).1 h3⟩
    · rintro ⟨rfl, h1, h2, h3⟩
      exact ⟨(), (require_eq ..).2 h1, (), (require_eq ..).2 h2, (), (require_eq ..).2 h3, rfl⟩
  rw [bind_ok]
  constructor
  · rintro ⟨b, hb, h⟩
    cases b with
    | true => exact .inl ⟨hb, (Except.ok.inj h).symm⟩
    | false =>
      rw [if_neg (by simp), bind_ok] at h
      obtain ⟨d, hd, h⟩ := h
      obtain ⟨rfl, h⟩ := (hreq d).1 h
      exact .inr ⟨hb, (hdef _).1 hd, h⟩
  · rintro (⟨hb, rfl⟩ | ⟨hb, hd, h⟩)
    · exact ⟨true, hb, rfl⟩
    · refine ⟨false, hb, ?_⟩
      rw [if_neg (by simp), bind_ok]
      exact ⟨c', (hdef _).2 hd, (hreq c').2 ⟨rfl, h⟩⟩

theorem finish_ok (np22 : Bool) (ds : Defaults) (a : Call) (c c' : Fields) :
    finish np22 ds a c = .ok c' ↔ ∃ c1 c2 c3 c5, sampleSize np22 c = .ok c1 ∧ outputDefaults np22 ds a c1 = .ok c2 ∧
      unspec np22 c2 "DL/Demands" = .ok false ∧ unspec np22 c2 "DL/Asset" = .ok false ∧ optionDefaults np22 a c2 = .ok c3 ∧
      stories np22 (legacyStep c3) = .ok c5 ∧ checkDrift np22 c5 = .ok () ∧ collapse np22 c5 = .ok c' ∧
      checkIrreparable np22 c' = .ok () ∧ checkProcess np22 c' = .ok () ∧
      checkOutput np22 "DL/Outputs/Asset" "DL/Asset" c' = .ok () ∧ checkOutput np22 "DL/Outputs/Damage" "DL/Damage" c' = .ok () ∧
      checkOutput np22 "DL/Outputs/Loss" "DL/Losses" c' = .ok () ∧ checkFiles np22 c' = .ok () := by
  unfold finish
  simp only [bind_ok, legacy_ok]
  constructor
  · rintro ⟨c1, h1, c2, h2, _, h3, _, h4, c3, h5, _, ⟨⟩, c5, h6, _, h7, c6, h8, _, h9, _, h10, _, h11, _, h12, _, h13, _, h14, ⟨⟩⟩
    exact ⟨c1, c2, c3, c5, h1, h2, (require_eq ..).1 h3, (require_eq ..).1 h4, h5, h6, h7, h8, h9, h10, h11, h12, h13, h14⟩
  · rintro ⟨c1, c2, c3, c5, h1, h2, h3, h4, h5, h6, h7, h8, h9, h10, h11, h12, h13, h14⟩
    exact ⟨c1, h1, c2, h2, (), (require_eq ..).2 h3, (), (require_eq ..).2 h4, c3, h5, _, rfl, c5, h6, (), h7, c', h8, (), h9, (), h10,
      (), h11, (), h12, (), h13, (), h14, rfl⟩

/-- A part of a value. -/
theorem val_inside (c : Fields) (p q pq : String) (h : pathKeys (str pq) = pathKeys (str p) ++ pathKeys (str q)) :
    val c pq = get (some (val c p)) (str q) null := by
  rw [val_eq, val_eq, h]
  show (Js.at (.dict c) _).getD null = _
  rw [at_append]
  unfold look Config.get
  cases Js.at (.dict c) (pathKeys (str p)) with
  | some w => rfl
  | none =>
    simp only [Option.bind_none, Option.getD_none]
    obtain ⟨k, ks, hk⟩ := List.exists_cons_of_ne_nil (pathKeys_ne_nil (str q))
    rw [hk]; rfl

theorem val_set_below (p q pq : String) (v : Js) (c : Fields) (h : pathKeys (str pq) = pathKeys (str p) ++ pathKeys (str q)) :
    val (setPath p v c) pq = get (some v) (str q) null := by
  rw [val_inside _ p q pq h, val_set_same]

/-- What `sampleSize` changes. -/
theorem same_sampleSize {np22 : Bool} {c c' : Fields} (h : sampleSize np22 c = .ok c') :
    SameOutside ["DL/Options/Sampling/SampleSize"] c c' := by
  obtain ⟨n, _, _, rfl⟩ := (sampleSize_ok ..).1 h
  exact .set _ _ _

theorem same_outputDefaults {np22 : Bool} {ds : Defaults} {a : Call} {c c' : Fields} (h : outputDefaults np22 ds a c = .ok c') :
    SameOutside ["DL/Outputs", "DL/Outputs/Format", "DL/Outputs/Format", "DL/Outputs/Settings"] c c' := by
  obtain ⟨b1, b2, b3, c1, c2, c3, _, h1, _, h2, h3, _, h4⟩ := (outputDefaults_ok ..).1 h
  have k1 : SameOutside ["DL/Outputs"] c c1 := h1 ▸ same_if _ _ _ _
  have k2 : SameOutside ["DL/Outputs/Format"] c1 c2 := h2 ▸ same_if _ _ _ _
  have k3 : SameOutside ["DL/Outputs/Format"] c2 c3 := by
    subst h3
    cases a.format with
    | none => exact .refl _ _
    | some l => exact .set _ _ _
  have k4 : SameOutside ["DL/Outputs/Settings"] c3 c' := h4 ▸ same_if _ _ _ _
  exact k1.trans (k2.trans (k3.trans k4))

theorem same_optionDefaults {np22 : Bool} {a : Call} {c c' : Fields} (h : optionDefaults np22 a c = .ok c') :
    SameOutside ["DL/Options/LogFile", "DL/Options/Verbose", "DL/Options/ListAllDamageStates", "DL/Demands/DemandFilePath"] c c' := by
  obtain ⟨b1, b2, b3, b4, c1, c2, c3, _, rfl, _, rfl, _, rfl, _, rfl⟩ := (optionDefaults_ok ..).1 h
  exact (same_if "DL/Options/LogFile" _ c b1).trans ((same_if "DL/Options/Verbose" _ _ b2).trans
    ((same_if "DL/Options/ListAllDamageStates" _ _ b3).trans (same_if "DL/Demands/DemandFilePath" _ _ b4)))

theorem same_legacy (c : Fields) : SameOutside ["DL/Losses/Repair", "DL/Outputs/Loss/Repair"] c (legacyStep c) := by
  unfold legacyStep
  exact (same_if "DL/Losses/Repair" _ c _).trans (same_if "DL/Outputs/Loss/Repair" _ _ _)

theorem same_stories {np22 : Bool} {c c' : Fields} (h : stories np22 c = .ok c') :
    SameOutside ["DL/Asset/NumberOfStories"] c c' := by
  rcases (stories_ok ..).1 h with ⟨_, rfl⟩ | ⟨_, n, _, rfl⟩
  · exact .refl _ _
  · exact .set _ _ _

theorem same_collapse {np22 : Bool} {c c' : Fields} (h : collapse np22 c = .ok c') :
    SameOutside ["DL/Damage/CollapseFragility/CapacityDistribution", "DL/Damage/CollapseFragility/Theta_1"] c c' := by
  rcases (collapse_ok ..).1 h with ⟨_, rfl⟩ | ⟨_, ⟨_, _, rfl⟩ | ⟨_, rfl⟩, _⟩
  · exact .refl _ _
  · exact (SameOutside.set _ _ _).trans (.set _ _ _)
  · exact .refl _ _

/-- Writing below an entry that is given. -/
theorem given_set_below (np22 : Bool) (p q : String) (r : List Str) (v : Js) (c : Fields) (h : pathKeys (str p) = pathKeys (str q) ++ r)
    (hr : r ≠ []) : unspec np22 (setPath p v c) q = .ok false :=
  unspec_above np22 _ q r v (by rw [← h]; exact look_set_same p v c) hr

end Verif.ToolConfig
