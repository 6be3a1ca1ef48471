import Verif.Model.DefaultData
import Verif.Props.DefaultPath

/-! # Property C130: data of the built-in models -/

namespace Verif.DefaultData

open Verif.DefaultPath

theorem split_snoc {c : Char} {e : Str} (he : c ∉ e) : ∀ X : Str, splitChar c (X ++ c :: e) = splitChar c X ++ [e]
  | [] => by simp [splitChar, splitChar_no_sep c e he]
  | x :: X => by
    rw [List.cons_append, splitChar, splitChar, split_snoc he X]
    split
    · rfl
    · have := splitChar_ne_nil c X
      generalize splitChar c X = l at this
      match l, this with
      | w :: ws, _ => rfl

/-- Only the last part of a path depends on what is added at its end. -/
theorem split_end (c : Char) : ∀ X : Str, ∃ pre seg, c ∉ seg ∧ ∀ ext, c ∉ ext → splitChar c (X ++ ext) = pre ++ [seg ++ ext]
  | [] => ⟨[], [], by simp, fun ext h => by simpa using splitChar_no_sep c ext h⟩
  | x :: X => by
    obtain ⟨pre, seg, h1, h2⟩ := split_end c X
    by_cases hx : x = c
    · exact ⟨[] :: pre, seg, h1, fun ext h => by rw [List.cons_append, splitChar, if_pos hx, h2 ext h, List.cons_append]⟩
    · cases pre with
      | nil =>
        refine ⟨[], x :: seg, ?_, fun ext h => ?_⟩
        · rw [List.mem_cons]; rintro (h | h)
          · exact hx h.symm
          · exact h1 h
        · rw [List.cons_append, splitChar, if_neg hx, h2 ext h]; rfl
      | cons w ws =>
        exact ⟨(x :: w) :: ws, seg, h1, fun ext h => by rw [List.cons_append, splitChar, if_neg hx, h2 ext h]; rfl⟩

theorem prefix_dot {p : Str} (hp : '.' ∉ p) (seg e : Str) : p.isPrefixOf (seg ++ '.' :: e) = p.isPrefixOf seg := by
  induction p generalizing seg with
  | nil => simp
  | cons a p ih =>
    cases seg with
    | nil =>
      have : a ≠ '.' := fun h => hp (h ▸ List.mem_cons_self)
      simp [List.isPrefixOf, this]
    | cons b seg =>
      simp only [List.cons_append, List.isPrefixOf]
      rw [ih (fun h => hp (List.mem_cons_of_mem _ h))]

theorem head_dot (seg : Str) {e : Str} (he : '.' ∉ e) : (splitChar '.' (seg ++ '.' :: e)).headD [] = (splitChar '.' seg).headD [] := by
  rw [split_snoc he]
  have := splitChar_ne_nil '.' seg
  generalize splitChar '.' seg = l at this
  match l, this with
  | w :: ws, _ => rfl

theorem last_dot (seg : Str) {e : Str} (he : '.' ∉ e) : (splitChar '.' (seg ++ '.' :: e)).getLastD [] = e := by
  rw [split_snoc he]
  simp

/-- A name that is looked up stands for files with the same name in the same folder of the library, whatever the
extension is, or is refused with every extension. -/
theorem lookup_ext (s : Str) :
    (∃ m folder base, (m, folder) ∈ resourcePaths ∧ '/' ∉ base ∧ ∀ e : Str, e ≠ [] → '.' ∉ e → '/' ∉ e →
      lookup (str "PelicunDefault/" ++ s ++ '.' :: e) = .ok (.library folder (base ++ '.' :: e))) ∨
    ∃ err, ∀ e : Str, e ≠ [] → '.' ∉ e → '/' ∉ e → lookup (str "PelicunDefault/" ++ s ++ '.' :: e) = .error err := by
  obtain ⟨pre, seg, hseg, hsplit⟩ := split_end '/' (str "PelicunDefault/" ++ s)
  have hlook : ∀ e : Str, e ≠ [] → '/' ∉ e → lookup (str "PelicunDefault/" ++ s ++ '.' :: e) =
      substituteParts ((seg ++ '.' :: e) :: (pre.filter fun p => decide (p ≠ [] ∧ p ≠ str ".")).reverse) := by
    intro e hne hsl
    have hparts : pathParts (str "PelicunDefault/" ++ s ++ '.' :: e) =
        (pre.filter fun p => decide (p ≠ [] ∧ p ≠ str ".")) ++ [seg ++ '.' :: e] := by
      unfold pathParts
      rw [hsplit ('.' :: e) (by rw [List.mem_cons]; rintro (h | h); exact absurd h (by decide); exact hsl h), List.filter_append]
      congr 1
      apply List.filter_eq_self.2
      intro p hp
      cases List.mem_singleton.1 hp
      have : seg ++ '.' :: e ≠ str "." := by
        intro h
        have := congrArg List.length h
        rw [List.length_append, List.length_cons] at this
        have h2 : 0 < e.length := List.length_pos_iff.2 hne
        rw [show (str ".").length = 1 from rfl] at this
        omega
      simp [this]
    have hone : substituteOne (str "PelicunDefault/" ++ s ++ '.' :: e) =
        substituteParts ((seg ++ '.' :: e) :: (pre.filter fun p => decide (p ≠ [] ∧ p ≠ str ".")).reverse) := by
      unfold substituteOne
      rw [hparts, List.append_assoc, infix_default, if_pos rfl, List.reverse_append]
      rfl
    unfold lookup substitute
    rw [mapE, hone]
    cases substituteParts ((seg ++ '.' :: e) :: (pre.filter fun p => decide (p ≠ [] ∧ p ≠ str ".")).reverse) <;> rfl
  generalize (pre.filter fun p => decide (p ≠ [] ∧ p ≠ str ".")).reverse = before at hlook
  cases before with
  | nil => exact .inr ⟨.indexError, fun e h1 _ h3 => hlook e h1 h3⟩
  | cons method rest =>
    by_cases hm : method = str "PelicunDefault"
    · have hleg : ∀ e : Str, '.' ∉ e → legacyTarget (seg ++ '.' :: e) =
          if legacyPrefixes.any fun p => p.isPrefixOf seg then
            match legacyNames.get? ((splitChar '.' seg).headD []) with
            | none => .error .keyError
            | some m => .ok (m, dataType seg ++ '.' :: e)
          else .error .keyError := by
        intro e he
        have hdt : dataType (seg ++ '.' :: e) = dataType seg := by
          unfold dataType
          rw [prefix_dot (by decide), prefix_dot (by decide)]
        have hany : (legacyPrefixes.any fun p => p.isPrefixOf (seg ++ '.' :: e)) = legacyPrefixes.any fun p => p.isPrefixOf seg := by
          simp only [legacyPrefixes, List.any_cons, List.any_nil]
          rw [prefix_dot (by decide), prefix_dot (by decide), prefix_dot (by decide), prefix_dot (by decide)]
        unfold legacyTarget
        rw [hany, head_dot seg he, last_dot seg he, hdt]
        rfl
      have hsub : ∀ e : Str, e ≠ [] → '.' ∉ e → '/' ∉ e → lookup (str "PelicunDefault/" ++ s ++ '.' :: e) =
          match legacyTarget (seg ++ '.' :: e) with | .error err => .error err | .ok t => lookupMethod t := by
        intro e h1 h2 h3
        rw [hlook e h1 h3, substituteParts, if_pos hm]
        rfl
      by_cases hp : (legacyPrefixes.any fun p => p.isPrefixOf seg) = true
      · cases hn : legacyNames.get? ((splitChar '.' seg).headD []) with
        | none =>
          refine .inr ⟨.keyError, fun e h1 h2 h3 => ?_⟩
          rw [hsub e h1 h2 h3, hleg e h2, if_pos hp, hn]
        | some m =>
          cases hf : resourcePaths.get? m with
          | none =>
            refine .inr ⟨.keyError, fun e h1 h2 h3 => ?_⟩
            rw [hsub e h1 h2 h3, hleg e h2, if_pos hp, hn]
            simp only [lookupMethod, hf]
          | some folder =>
            refine .inl ⟨m, folder, dataType seg, Dict.mem_of_get? hf, ?_, fun e h1 h2 h3 => ?_⟩
            · unfold dataType; split <;> decide
            · rw [hsub e h1 h2 h3, hleg e h2, if_pos hp, hn]
              simp only [lookupMethod, hf]
      · refine .inr ⟨.keyError, fun e h1 h2 h3 => ?_⟩
        rw [hsub e h1 h2 h3, hleg e h2, if_neg hp]
    · cases hf : resourcePaths.get? method with
      | none =>
        refine .inr ⟨.keyError, fun e h1 h2 h3 => ?_⟩
        rw [hlook e h1 h3, substituteParts, if_neg hm]
        simp only [lookupMethod, hf]
      | some folder =>
        refine .inl ⟨method, folder, seg, Dict.mem_of_get? hf, hseg, fun e h1 h2 h3 => ?_⟩
        rw [hlook e h1 h3, substituteParts, if_neg hm]
        simp only [lookupMethod, hf]

theorem defaultName_eq (method : Str) (type : Option Str) : ∃ s, ∀ ext, defaultName method type ext = str "PelicunDefault/" ++ s ++ ext := by
  cases type with
  | none => exact ⟨method, fun _ => rfl⟩
  | some t => exact ⟨method ++ '/' :: t, fun ext => congrArg (· ++ ext) (List.append_assoc (str "PelicunDefault/") method ('/' :: t))⟩

variable {τ μ : Type}

/-- C130: whatever the name of the method and the type of the model are, data and metadata are read from a table and a JSON
file that differ in their extension only, directly in a folder that the library has for a method; or both are refused with
the same error, and no file is read. -/
theorem C130_same_model (method : Str) (type : Option Str) :
    (∃ m folder base, (m, folder) ∈ resourcePaths ∧ '/' ∉ base ∧ ∀ F : Files τ μ,
      getDefaultData F method type = F.table folder (base ++ str ".csv") ∧
      getDefaultMetadata F method type = F.json folder (base ++ str ".json")) ∨
    ∃ err, ∀ F : Files τ μ, getDefaultData F method type = .error err ∧ getDefaultMetadata F method type = .error err := by
  obtain ⟨s, hs⟩ := defaultName_eq method type
  rcases lookup_ext s with ⟨m, folder, base, h1, h2, h3⟩ | ⟨err, h⟩
  · refine .inl ⟨m, folder, base, h1, h2, fun F => ⟨?_, ?_⟩⟩
    · unfold getDefaultData
      rw [hs, show str ".csv" = '.' :: str "csv" from rfl, h3 (str "csv") (by decide) (by decide) (by decide)]
    · unfold getDefaultMetadata
      rw [hs, show str ".json" = '.' :: str "json" from rfl, h3 (str "json") (by decide) (by decide) (by decide)]
  · refine .inr ⟨err, fun F => ⟨?_, ?_⟩⟩
    · unfold getDefaultData
      rw [hs, show str ".csv" = '.' :: str "csv" from rfl, h (str "csv") (by decide) (by decide) (by decide)]
    · unfold getDefaultMetadata
      rw [hs, show str ".json" = '.' :: str "json" from rfl, h (str "json") (by decide) (by decide) (by decide)]

theorem lookup_one {name : Str} {x : Except PyErr Resolved} (h : substituteOne name = x) : lookup name = x := by
  unfold lookup substitute
  rw [mapE, h]
  cases x <;> rfl

theorem fileName_ext {t ext : Str} (ht : '/' ∉ t) (he : '/' ∉ ext) (hl : 2 ≤ ext.length) : FileName (t ++ ext) := by
  refine ⟨?_, ?_, ?_⟩
  · intro h
    have := congrArg List.length h
    rw [List.length_append, List.length_nil] at this
    omega
  · intro h
    have := congrArg List.length h
    rw [List.length_append, show (str ".").length = 1 from rfl] at this
    omega
  · rw [List.mem_append]; rintro (h | h)
    · exact ht h
    · exact he h

theorem method_names : ∀ e ∈ resourcePaths, e.1 ≠ [] ∧ e.1 ≠ str "." ∧ '/' ∉ e.1 := by decide +kernel

/-- C130: the data of a model of a method are those in the file of this type in the folder of the method, and the
metadata those in the JSON file beside it. -/
theorem C130_method (F : Files τ μ) (m folder t : Str) (hm : (m, folder) ∈ resourcePaths) (ht : '/' ∉ t) :
    getDefaultData F m (some t) = F.table folder (t ++ str ".csv") ∧
    getDefaultMetadata F m (some t) = F.json folder (t ++ str ".json") := by
  have hn : FileName m := method_names _ hm
  have key : ∀ ext : Str, '/' ∉ ext → 2 ≤ ext.length → lookup (defaultName m (some t) ext) = .ok (.library folder (t ++ ext)) := by
    intro ext h1 h2
    have := C84_method_folder m (t ++ ext) folder hn (fileName_ext ht h1 h2) hm
    exact lookup_one (Eq.trans (congrArg substituteOne (List.append_assoc (str "PelicunDefault/" ++ m) ('/' :: t) ext)) this)
  unfold getDefaultData getDefaultMetadata
  rw [key (str ".csv") (by decide) (by decide), key (str ".json") (by decide) (by decide)]
  exact ⟨rfl, rfl⟩

/-- C130: a method that is not in the library is refused. -/
theorem C130_unknown_method (F : Files τ μ) (m t : Str) (hm : FileName m) (hk : ∀ folder, (m, folder) ∉ resourcePaths)
    (hne : m ≠ str "PelicunDefault") (ht : '/' ∉ t) :
    getDefaultData F m (some t) = .error .keyError ∧ getDefaultMetadata F m (some t) = .error .keyError := by
  have key : ∀ ext : Str, '/' ∉ ext → 2 ≤ ext.length → lookup (defaultName m (some t) ext) = .error .keyError := by
    intro ext h1 h2
    have := C84_unknown_method_refused m (t ++ ext) hm (fileName_ext ht h1 h2) hk hne
    exact lookup_one (Eq.trans (congrArg substituteOne (List.append_assoc (str "PelicunDefault/" ++ m) ('/' :: t) ext)) this)
  unfold getDefaultData getDefaultMetadata
  rw [key (str ".csv") (by decide) (by decide), key (str ".json") (by decide) (by decide)]
  exact ⟨rfl, rfl⟩

/-- C130: the type can also be part of the name. -/
theorem C130_name_with_type (F : Files τ μ) (m t : Str) :
    getDefaultData F (m ++ '/' :: t) none = getDefaultData F m (some t) ∧
    getDefaultMetadata F (m ++ '/' :: t) none = getDefaultMetadata F m (some t) := by
  have key : ∀ ext : Str, defaultName (m ++ '/' :: t) none ext = defaultName m (some t) ext := by
    exact fun ext => congrArg (· ++ ext) (List.append_assoc (str "PelicunDefault/") m ('/' :: t)).symm
  unfold getDefaultData getDefaultMetadata
  rw [key, key]
  exact ⟨rfl, rfl⟩

/-- C130, legacy names, whose method is known: a name of damage models stands for the fragilities of the method, a name of
loss models for its consequences.  The full property wants this for all legacy names; that is false, see
`C130_legacy_refused`. -/
theorem C130_legacy_partial (F : Files τ μ) (name m folder : Str) (hn : (name, m) ∈ legacyNames) (hm : (m, folder) ∈ resourcePaths) :
    getDefaultData F name none = F.table folder (newName name ++ str ".csv") ∧
    getDefaultMetadata F name none = F.json folder (newName name ++ str ".json") := by
  have key : ∀ e : Str, '.' ∉ e ∧ '/' ∉ e → lookup (defaultName name none ('.' :: e)) = .ok (.library folder (newName name ++ '.' :: e)) :=
    fun e he => lookup_one (C84_legacy_partial name m folder e hn hm he)
  unfold getDefaultData getDefaultMetadata
  rw [show str ".csv" = '.' :: str "csv" from rfl, show str ".json" = '.' :: str "json" from rfl,
    key (str "csv") (by decide), key (str "json") (by decide)]
  exact ⟨rfl, rfl⟩

/-- Violation of C130: two of the legacy names are refused. -/
theorem C130_legacy_refused (F : Files τ μ) :
    (∃ m, (str "damage_DB_Hazus_EQ_water", m) ∈ legacyNames) ∧ (∃ m, (str "damage_DB_Hazus_EQ_power", m) ∈ legacyNames) ∧
    getDefaultData F (str "damage_DB_Hazus_EQ_water") none = .error .keyError ∧
    getDefaultData F (str "damage_DB_Hazus_EQ_power") none = .error .keyError := by
  have k1 := lookup_one C84_legacy_name_without_method.1
  have k2 := lookup_one C84_legacy_name_without_method.2.1
  refine ⟨⟨str "Hazus Earthquake - Water", by decide +kernel⟩, ⟨str "Hazus Earthquake - Power", by decide +kernel⟩, ?_, ?_⟩
  · unfold getDefaultData
    rw [show defaultName (str "damage_DB_Hazus_EQ_water") none (str ".csv") = str "PelicunDefault/damage_DB_Hazus_EQ_water.csv" from by decide +kernel, k1]
  · unfold getDefaultData
    rw [show defaultName (str "damage_DB_Hazus_EQ_power") none (str ".csv") = str "PelicunDefault/damage_DB_Hazus_EQ_power.csv" from by decide +kernel, k2]

/-- A library with the fragilities of FEMA P-58, and no other file. -/
def library : Files Nat Nat where
  table folder file := if folder = str "seismic/building/component/FEMA P-58 2nd Edition/" ∧ file = str "fragility.csv" then .ok 58 else .error .fileNotFoundError
  json folder file := if folder = str "seismic/building/component/FEMA P-58 2nd Edition/" ∧ file = str "fragility.json" then .ok 59 else .error .fileNotFoundError
  tableElsewhere _ := .error .fileNotFoundError
  jsonElsewhere _ := .error .fileNotFoundError

example : getDefaultData library (str "FEMA P-58") (some (str "fragility")) = .ok 58 ∧
    getDefaultMetadata library (str "FEMA P-58") (some (str "fragility")) = .ok 59 := by
  obtain ⟨h1, h2⟩ := C130_method library (str "FEMA P-58") (str "seismic/building/component/FEMA P-58 2nd Edition/") (str "fragility")
    (by decide +kernel) (by decide)
  rw [h1, h2]
  exact ⟨rfl, rfl⟩

example : getDefaultData library (str "damage_DB_FEMA_P58_2nd") none = .ok 58 := by
  rw [(C130_legacy_partial library (str "damage_DB_FEMA_P58_2nd") (str "FEMA P-58") (str "seismic/building/component/FEMA P-58 2nd Edition/")
    (by decide +kernel) (by decide +kernel)).1]
  rfl

example : getDefaultData library (str "FEMA P-85") (some (str "fragility")) = .error .keyError :=
  (C130_unknown_method library (str "FEMA P-85") (str "fragility") (by unfold FileName; decide) (by
    intro folder h
    have : str "FEMA P-85" ∉ resourcePaths.map Prod.fst := by decide +kernel
    exact this (List.mem_map.2 ⟨_, h, rfl⟩)) (by decide) (by decide)).1

end Verif.DefaultData
