import Verif.Model.DefaultPath
import Verif.Props.LossParams
import Verif.Lemmas.PyStr
import Verif.Lemmas.Lists

/-!
# Property C84: names of built-in models
-/

namespace Verif.DefaultPath

open LossParams (hasInfix hasInfix_iff)

/-- C84: paths without the placeholder are not changed. -/
theorem C84_other_paths_unchanged (paths : List Str) (h : ∀ p ∈ paths, ¬ str "PelicunDefault/" <:+: p) :
    substitute paths = .ok (paths.map .asIs) := by
  unfold substitute
  apply mapE_pure
  intro p hp
  unfold substituteOne
  rw [if_neg]
  rw [hasInfix_iff]; exact h p hp

/-- A name that can be a folder or a file. -/
def FileName (s : Str) : Prop := s ≠ [] ∧ s ≠ str "." ∧ '/' ∉ s

theorem parts_default (m f : Str) (hm : FileName m) (hf : FileName f) :
    pathParts (str "PelicunDefault/" ++ m ++ '/' :: f) = [str "PelicunDefault", m, f] := by
  have e : str "PelicunDefault/" ++ m ++ '/' :: f = str "PelicunDefault" ++ '/' :: (m ++ '/' :: f) := by
    rw [show str "PelicunDefault/" = str "PelicunDefault" ++ ['/'] from by decide]
    simp
  unfold pathParts
  rw [e, splitChar_append_sep _ _ _ (by decide), splitChar_append_sep _ _ _ hm.2.2, splitChar_no_sep _ _ hf.2.2]
  apply List.filter_eq_self.2
  intro p hp
  simp only [List.mem_cons, List.not_mem_nil, or_false] at hp
  rcases hp with rfl | rfl | rfl
  · decide
  · simp [hm.1, hm.2.1]
  · simp [hf.1, hf.2.1]

theorem infix_default (s : Str) : hasInfix (str "PelicunDefault/") (str "PelicunDefault/" ++ s) = true := by
  rw [hasInfix_iff]
  exact (List.prefix_append _ _).isInfix

/-- C84: `PelicunDefault/method/file` is that file in the folder of the method. -/
theorem C84_method_folder (m f folder : Str) (hm : FileName m) (hf : FileName f) (hk : (m, folder) ∈ resourcePaths) :
    substituteOne (str "PelicunDefault/" ++ m ++ '/' :: f) = .ok (.library folder f) := by
  unfold substituteOne
  rw [List.append_assoc, infix_default, if_pos rfl, ← List.append_assoc, parts_default m f hm hf]
  have hne : m ≠ str "PelicunDefault" := by
    rintro rfl
    have : str "PelicunDefault" ∉ resourcePaths.map Prod.fst := by decide +kernel
    exact this (List.mem_map.2 ⟨_, hk, rfl⟩)
  have hget : resourcePaths.get? m = some folder := by
    refine Dict.get?_of_mem ?_ hk
    unfold Dict.NoDupKeys; decide +kernel
  change (if m = str "PelicunDefault" then _ else lookupMethod (m, f)) = _
  rw [if_neg hne]
  simp only [lookupMethod, hget]

/-- C84: an unknown method is refused. -/
theorem C84_unknown_method_refused (m f : Str) (hm : FileName m) (hf : FileName f) (hk : ∀ folder, (m, folder) ∉ resourcePaths)
    (hne : m ≠ str "PelicunDefault") :
    substituteOne (str "PelicunDefault/" ++ m ++ '/' :: f) = .error .keyError := by
  unfold substituteOne
  rw [List.append_assoc, infix_default, if_pos rfl, ← List.append_assoc, parts_default m f hm hf]
  change (if m = str "PelicunDefault" then _ else lookupMethod (m, f)) = _
  rw [if_neg hne]
  have : resourcePaths.get? m = none := by
    cases h : resourcePaths.get? m with
    | none => rfl
    | some v => exact absurd (Dict.mem_of_get? h) (hk v)
  simp only [lookupMethod, this]

/-- C84: the paths are substituted one by one, in order; one bad path stops everything. -/
theorem C84_each_path (paths : List Str) (r : List Resolved) :
    substitute paths = .ok r ↔ List.Forall₂ (fun p x => substituteOne p = .ok x) paths r := mapE_ok_iff

/-- What a legacy file name stands for: the damage files are now called `fragility`, those of losses
`consequence_repair`. -/
def newName (legacy : Str) : Str := if str "damage" <+: legacy then str "fragility" else str "consequence_repair"

/-- C84, legacy names: a legacy file name whose method is known stands for the file of that method.  The full property
wants this for all legacy names; that is false, see `C84_legacy_name_without_method`. -/
theorem C84_legacy_partial (name m folder ext : Str) (hn : (name, m) ∈ legacyNames) (hm : (m, folder) ∈ resourcePaths)
    (hext : '.' ∉ ext ∧ '/' ∉ ext) :
    substituteOne (str "PelicunDefault/" ++ name ++ '.' :: ext) = .ok (.library folder (newName name ++ '.' :: ext)) := by
  have hname : '/' ∉ name ∧ '.' ∉ name ∧ name ≠ [] := by
    have : ∀ e ∈ legacyNames, '/' ∉ e.1 ∧ '.' ∉ e.1 ∧ e.1 ≠ [] := by decide +kernel
    exact this _ hn
  have hget : legacyNames.get? name = some m := by
    refine Dict.get?_of_mem ?_ hn
    unfold Dict.NoDupKeys; decide +kernel
  have hgetm : resourcePaths.get? m = some folder := by
    refine Dict.get?_of_mem ?_ hm
    unfold Dict.NoDupKeys; decide +kernel
  unfold substituteOne
  rw [List.append_assoc, infix_default, if_pos rfl]
  have hparts : pathParts (str "PelicunDefault/" ++ (name ++ '.' :: ext)) = [str "PelicunDefault", name ++ '.' :: ext] := by
    have e : str "PelicunDefault/" ++ (name ++ '.' :: ext) = str "PelicunDefault" ++ '/' :: (name ++ '.' :: ext) := by
      rw [show str "PelicunDefault/" = str "PelicunDefault" ++ ['/'] from by decide]
      simp
    have hf : '/' ∉ name ++ '.' :: ext := by
      simp only [List.mem_append, List.mem_cons, not_or]
      exact ⟨hname.1, by decide, hext.2⟩
    unfold pathParts
    rw [e, splitChar_append_sep _ _ _ (by decide), splitChar_no_sep _ _ hf]
    apply List.filter_eq_self.2
    intro p hp
    simp only [List.mem_cons, List.not_mem_nil, or_false] at hp
    rcases hp with rfl | rfl
    · decide
    · have : name ++ '.' :: ext ≠ str "." := by
        intro h
        have := congrArg List.length h
        rw [List.length_append, List.length_cons] at this
        have h2 : 0 < name.length := List.length_pos_iff.2 hname.2.2
        rw [show (str ".").length = 1 from rfl] at this
        omega
      simp [this]
  rw [hparts]
  change (if str "PelicunDefault" = str "PelicunDefault" then _ else lookupMethod (str "PelicunDefault", name ++ '.' :: ext)) = _
  rw [if_pos rfl]
  have hsplit : splitChar '.' (name ++ '.' :: ext) = [name, ext] := by
    rw [splitChar_append_sep _ _ _ hname.2.1, splitChar_no_sep _ _ hext.1]
  have hpre : (legacyPrefixes.any fun p => p.isPrefixOf (name ++ '.' :: ext)) = true := by
    have : ∀ e ∈ legacyNames, ∃ p ∈ legacyPrefixes, p <+: e.1 := by decide +kernel
    obtain ⟨p, hp, hpn⟩ := this _ hn
    rw [List.any_eq_true]
    exact ⟨p, hp, List.isPrefixOf_iff_prefix.2 (hpn.trans (List.prefix_append _ _))⟩
  have hdt : dataType (name ++ '.' :: ext) = newName name := by
    have key : ∀ w : Str, w.length ≤ name.length → (w.isPrefixOf (name ++ '.' :: ext) = true ↔ w <+: name) := by
      intro w hw
      rw [List.isPrefixOf_iff_prefix]
      exact ⟨fun h => List.prefix_of_prefix_length_le h (List.prefix_append _ _) hw, fun h => h.trans (List.prefix_append _ _)⟩
    have hl : ∀ e ∈ legacyNames, (str "fragility").length ≤ e.1.length ∧ (str "damage").length ≤ e.1.length ∧ ¬ str "fragility" <+: e.1 := by
      decide +kernel
    obtain ⟨l1, l2, l3⟩ := hl _ hn
    unfold dataType newName
    by_cases h : str "damage" <+: name
    · rw [if_pos h, if_pos]
      rw [Bool.or_eq_true]; exact .inr ((key _ l2).2 h)
    · rw [if_neg h, if_neg]
      rw [Bool.or_eq_true, key _ l1, key _ l2]
      rintro (h' | h')
      · exact l3 h'
      · exact h h'
  simp only [legacyTarget, hpre, if_true, hsplit, List.headD_cons, hget, hdt, lookupMethod, hgetm]
  rfl

/-- Violation of C84: the legacy names of two damage models stand for methods that do not exist, and the announced
prefixes `fragility_DB` and `bldg_repair_DB` have no legacy name at all. -/
theorem C84_legacy_name_without_method :
    substituteOne (str "PelicunDefault/damage_DB_Hazus_EQ_water.csv") = .error .keyError ∧
    substituteOne (str "PelicunDefault/damage_DB_Hazus_EQ_power.csv") = .error .keyError ∧
    ∀ e ∈ legacyNames, ¬ str "fragility_DB" <+: e.1 ∧ ¬ str "bldg_repair_DB" <+: e.1 := by
  refine ⟨by decide +kernel, by decide +kernel, by decide +kernel⟩

theorem splitChar_append (c : Char) (a b : Str) : splitChar c (a ++ c :: b) = splitChar c a ++ splitChar c b := by
  induction a with
  | nil => simp [splitChar]
  | cons x a ih =>
    rw [List.cons_append]
    simp only [splitChar]
    rw [ih]
    by_cases hx : x = c
    · simp [hx]
    · rw [if_neg hx, if_neg hx]
      cases hs : splitChar c a with
      | nil => exact absurd hs (splitChar_ne_nil _ _)
      | cons w ws => rfl

/-- C84: a part `.` and an empty part (two slashes) of a path in the library do not matter. -/
theorem C84_redundant_parts (a b : Str) :
    substituteOne (str "PelicunDefault/" ++ a ++ (str "/./" ++ b)) = substituteOne (str "PelicunDefault/" ++ a ++ '/' :: b) ∧
    substituteOne (str "PelicunDefault/" ++ a ++ (str "//" ++ b)) = substituteOne (str "PelicunDefault/" ++ a ++ '/' :: b) := by
  have hin : ∀ x : Str, hasInfix (str "PelicunDefault/") (str "PelicunDefault/" ++ a ++ x) = true := by
    intro x
    rw [hasInfix_iff]
    exact ⟨[], a ++ x, by rw [List.nil_append, List.append_assoc]⟩
  unfold substituteOne
  rw [hin, hin, hin]
  simp only [if_true]
  constructor
  · have : str "/./" ++ b = '/' :: (str "." ++ '/' :: b) := rfl
    rw [this]
    unfold pathParts
    rw [splitChar_append, splitChar_append '/' (str "."), splitChar_append, List.filter_append, List.filter_append,
      List.filter_append, show (splitChar '/' (str ".")).filter (fun p => decide (p ≠ [] ∧ p ≠ str ".")) = [] by decide,
      List.nil_append]
  · have : str "//" ++ b = '/' :: ([] ++ '/' :: b) := rfl
    rw [this]
    unfold pathParts
    rw [splitChar_append, splitChar_append '/' [], splitChar_append, List.filter_append, List.filter_append,
      List.filter_append, show (splitChar '/' []).filter (fun p => decide (p ≠ [] ∧ p ≠ str ".")) = [] by decide,
      List.nil_append]

example : substituteOne (str "PelicunDefault/FEMA P-58/./fragility.csv") =
      .ok (.library (str "seismic/building/component/FEMA P-58 2nd Edition/") (str "fragility.csv")) := by decide +kernel

/-- Each legacy name but two has a method. -/
example : ∀ e ∈ legacyNames, (e.1 ≠ str "damage_DB_Hazus_EQ_water" ∧ e.1 ≠ str "damage_DB_Hazus_EQ_power") →
    ∃ f ∈ resourcePaths, f.1 = e.2 := by decide +kernel

example : FileName (str "FEMA P-58") ∧ FileName (str "fragility.csv") ∧
    substituteOne (str "PelicunDefault/FEMA P-58/fragility.csv") =
      .ok (.library (str "seismic/building/component/FEMA P-58 2nd Edition/") (str "fragility.csv")) ∧
    substituteOne (str "PelicunDefault/loss_repair_DB_Hazus_EQ_story.json") =
      .ok (.library (str "seismic/building/subassembly/Hazus v5.1/") (str "consequence_repair.json")) ∧
    substituteOne (str "data/file2.txt") = .ok (.asIs (str "data/file2.txt")) := by
  refine ⟨⟨by decide, by decide, by decide⟩, ⟨by decide, by decide, by decide⟩, by decide +kernel, by decide +kernel, by decide +kernel⟩

end Verif.DefaultPath
