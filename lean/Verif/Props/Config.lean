import Verif.Lemmas.Config

/-!
# Properties C01–C05: configuration trees
-/

namespace Verif.Config

open Fields

/-! ### Sample data for the non-vacuity examples -/

/-- `{'Seed': 5, 'Sampling': {'Size': 7}}` -/
def exUser : Fields :=
  .cons (str "Seed") (.leaf (.atom (.num 5)))
    (.cons (str "Sampling") (.dict (.cons (str "Size") (.leaf (.atom (.num 7))) .nil)) .nil)

/-- `{'Seed': None, 'Sampling': {'Size': 1000, 'Method': 'LHS'}, 'Verbose': False}` -/
def exDefault : Fields :=
  .cons (str "Seed") (.leaf (.atom .null))
    (.cons (str "Sampling") (.dict
      (.cons (str "Size") (.leaf (.atom (.num 1000)))
        (.cons (str "Method") (.leaf (.atom (.str (str "LHS")))) .nil)))
      (.cons (str "Verbose") (.leaf (.atom (.bool false))) .nil))

/-- `{'Seed': {'x': 1}}`, clashes with the plain default. -/
def exClash : Fields :=
  .cons (str "Seed") (.dict (.cons (str "x") (.leaf (.atom (.num 1))) .nil)) .nil

mutual
/-- Computable check used only to show that the example trees are well formed. -/
def wfB : Js → Bool
  | .leaf _ => true
  | .dict f => decide f.keys.Nodup && wfFieldsB f
/-- See `wfB`. -/
def wfFieldsB : Fields → Bool
  | .nil => true
  | .cons _ v r => wfB v && wfFieldsB r
end

theorem wfFieldsB_get {f : Fields} {k : Str} {v : Js} (h : wfFieldsB f = true)
    (hk : f.get? k = some v) : wfB v = true := by
  match f with
  | .nil => simp [Fields.get?] at hk
  | .cons k' x r =>
    simp only [wfFieldsB, Bool.and_eq_true] at h
    simp only [Fields.get?] at hk
    split at hk
    · cases hk; exact h.1
    · exact wfFieldsB_get h.2 hk

theorem wfB_sound (path : List Str) : ∀ (t : Js) (g : Fields), wfB t = true →
    t.at path = some (.dict g) → g.keys.Nodup := by
  induction path with
  | nil =>
    intro t g h ht
    simp [Js.at] at ht; subst ht
    simp only [wfB, Bool.and_eq_true, decide_eq_true_eq] at h; exact h.1
  | cons k ks ih =>
    intro t g h ht
    cases t with
    | leaf l => simp [Js.at] at ht
    | dict f =>
      rw [at_dict_cons] at ht
      simp only [wfB, Bool.and_eq_true] at h
      cases hk : f.get? k with
      | none => simp [hk] at ht
      | some v => simp [hk] at ht; exact ih v g (wfFieldsB_get h.2 hk) ht

theorem exDefault_WF : WF (.dict exDefault) := fun path g h =>
  wfB_sound path _ g (by decide +kernel) h

/-! ### C01 -/

/-- C01 (values).  After a successful merge each path holds a plain value exactly
when the user or the defaults have one there, and it is the user's if the user has
one; dictionaries appear exactly where one of the two sides has one. -/
theorem C01_user_wins_defaults_fill (user defaults merged : Fields)
    (hwf : WF (.dict defaults)) (h : updateVals user defaults = .ok merged) (path : List Str) :
    leafAt (.dict merged) path =
      (match leafAt (.dict user) path with
        | some l => some l
        | none => leafAt (.dict defaults) path) ∧
    (dictAt (.dict merged) path ↔ dictAt (.dict user) path ∨ dictAt (.dict defaults) path) := by
  obtain ⟨h1, h2, _⟩ := updateVals_paths path user defaults merged hwf h
  refine ⟨?_, h2⟩
  rw [h1]
  cases leafAt (.dict user) path <;> rfl

example : ∃ merged, updateVals exUser exDefault = .ok merged ∧
    leafAt (.dict merged) [str "Sampling", str "Size"] = some (.atom (.num 7)) ∧
    leafAt (.dict merged) [str "Sampling", str "Method"] = some (.atom (.str (str "LHS"))) :=
  ⟨_, rfl, by decide +kernel, by decide +kernel⟩

/-- C01 (rejection).  The merge is rejected exactly when some path is a dictionary on
one side and a plain value on the other one; the error is a `ValueError`. -/
theorem C01_rejected_iff_clash (user defaults : Fields) (hwf : WF (.dict defaults)) :
    (updateVals user defaults = .error .valueError ↔
      ∃ path, clashAt (.dict user) (.dict defaults) path) ∧
    (∀ e, updateVals user defaults = .error e → e = .valueError) := by
  have herr := updateVals_err (sizeOf defaults + 1) user defaults (by omega)
  refine ⟨⟨?_, ?_⟩, herr⟩
  · intro h
    apply Classical.byContradiction
    intro hno
    obtain ⟨r, hr⟩ := updateVals_ok_of_no_clash (sizeOf defaults + 1) user defaults (by omega) hwf
      (fun path hc => hno ⟨path, hc⟩)
    rw [hr] at h; simp at h
  · rintro ⟨path, hc⟩
    cases h : updateVals user defaults with
    | ok r => exact absurd hc (updateVals_paths path user defaults r hwf h).2.2
    | error e => rw [herr e h]

example : updateVals exClash exDefault = .error .valueError := rfl
example : ∃ r, updateVals exUser exDefault = .ok r := ⟨_, rfl⟩
example : WF (.dict exDefault) := exDefault_WF

/-- C01 for `merge_default_config`: with no user configuration the result has
exactly the default values. -/
theorem C01_no_user_config (defaults merged : Fields) (hwf : WF (.dict defaults))
    (h : mergeDefaultConfig none defaults = .ok merged) (path : List Str) :
    leafAt (.dict merged) path = leafAt (.dict defaults) path := by
  have := (C01_user_wins_defaults_fill .nil defaults merged hwf h path).1
  rw [this, leafAt_empty]

/-! ### C02 -/

/-- C02.  Merging again with the same defaults changes nothing. -/
theorem C02_merge_idempotent (user defaults merged : Fields) (hwf : WF (.dict defaults))
    (h : updateVals user defaults = .ok merged) : updateVals merged defaults = .ok merged :=
  updateVals_idem (sizeOf defaults + 1) user defaults merged (by omega) hwf h

/-! ### C03 -/

/-- C03 (read back).  A write always succeeds and reading the same path returns the
written value, whatever was stored before. -/
theorem C03_read_back (np22 : Bool) (d : Fields) (path : Str) (v default : Js) :
    ∃ d', update np22 d path v false = .ok d' ∧ get (some (.dict d')) path default = v := by
  obtain ⟨d', h⟩ := updateAt_ok np22 v (pathKeys path).dropLast d ((pathKeys path).getLast?.getD [])
  refine ⟨d', h, ?_⟩
  have := updateAt_at np22 v _ _ _ _ h
  rw [dropLast_getLast _ (pathKeys_ne_nil path)] at this
  simp [get, this]

/-- C03 (frame).  Any path that does not extend the written path and is not a prefix
of it reads the same before and after – also for default-only writes. -/
theorem C03_other_paths_unchanged (np22 only : Bool) (d d' : Fields) (path other : Str)
    (v default : Js) (h : update np22 d path v only = .ok d')
    (h1 : ¬ pathKeys path <+: pathKeys other) (h2 : ¬ pathKeys other <+: pathKeys path) :
    get (some (.dict d')) other default = get (some (.dict d)) other default := by
  have := updateAt_frame np22 only v _ d d' _ (pathKeys other) h
  rw [dropLast_getLast _ (pathKeys_ne_nil path)] at this
  simp [get, this h1 h2]

example : ¬ pathKeys (str "/DL/Outputs/Format") <+: pathKeys (str "DL/Outputs/Settings") ∧
    ¬ pathKeys (str "DL/Outputs/Settings") <+: pathKeys (str "/DL/Outputs/Format") := by
  decide +kernel

example : pathKeys (str "/DL/Outputs/Format/") = [str "DL", str "Outputs", str "Format"] := by
  decide +kernel

/-! Reading a path: slashes at both ends do not count, the keys in between are looked up one after the
other. -/

theorem dropWhile_replicate (c : Char) (n : Nat) (s : Str) :
    (List.replicate n c ++ s).dropWhile (fun x => decide (x = c)) = s.dropWhile (fun x => decide (x = c)) := by
  induction n with
  | zero => rfl
  | succ n ih => rw [List.replicate_succ, List.cons_append, List.dropWhile_cons_of_pos (by simp), ih]

theorem rstrip_slashes (c : Char) (n : Nat) (s : Str) :
    rstrip (fun x => decide (x = c)) (s ++ List.replicate n c) = rstrip (fun x => decide (x = c)) s := by
  unfold rstrip
  rw [List.reverse_append, List.reverse_replicate, dropWhile_replicate]

theorem strip_slashes (c : Char) (a b : Nat) (s : Str) :
    strip (fun x => decide (x = c)) (List.replicate a c ++ s ++ List.replicate b c) = strip (fun x => decide (x = c)) s := by
  unfold strip lstrip
  rw [List.append_assoc, dropWhile_replicate]
  by_cases h : ∃ x ∈ s, x ≠ c
  · have key : ∀ t : Str, (∃ x ∈ t, x ≠ c) → (t ++ List.replicate b c).dropWhile (fun x => decide (x = c)) =
        t.dropWhile (fun x => decide (x = c)) ++ List.replicate b c := by
      intro t
      induction t with
      | nil => rintro ⟨x, hx, _⟩; cases hx
      | cons y t ih =>
        rintro ⟨x, hx, hne⟩
        by_cases hy : y = c
        · rw [List.cons_append, List.dropWhile_cons_of_pos (by simp [hy]), List.dropWhile_cons_of_pos (by simp [hy])]
          apply ih
          rcases List.mem_cons.1 hx with rfl | hx
          · exact absurd hy hne
          · exact ⟨x, hx, hne⟩
        · rw [List.cons_append, List.dropWhile_cons_of_neg (by simp [hy]), List.dropWhile_cons_of_neg (by simp [hy])]
          rfl
    rw [key s h, rstrip_slashes]
  · have hs : s = List.replicate s.length c := by
      rw [List.eq_replicate_iff]
      refine ⟨rfl, fun x hx => ?_⟩
      by_contra hne
      exact h ⟨x, hx, hne⟩
    rw [hs, List.replicate_append_replicate]
    have e : ∀ n, (List.replicate n c).dropWhile (fun x => decide (x = c)) = [] := by
      intro n
      have := dropWhile_replicate c n []
      rw [List.append_nil] at this
      exact this
    rw [e, e]

/-- C03: slashes in front of and behind a path make no difference. -/
theorem C03_outer_slashes (np22 only : Bool) (d : Fields) (path : Str) (v default : Js) (a b : Nat) :
    get (some (.dict d)) (List.replicate a '/' ++ path ++ List.replicate b '/') default = get (some (.dict d)) path default ∧
    update np22 d (List.replicate a '/' ++ path ++ List.replicate b '/') v only = update np22 d path v only := by
  simp only [get, update, pathKeys, strip_slashes, and_self]

theorem joinChar_ends (ws : List Str) (hne : ws ≠ []) (h : ∀ w ∈ ws, w ≠ [] ∧ '/' ∉ w) :
    strip (fun x => decide (x = '/')) (joinChar '/' ws) = joinChar '/' ws := by
  have hfirst : ∀ ws : List Str, ws ≠ [] → (∀ w ∈ ws, w ≠ [] ∧ '/' ∉ w) → ∃ x t, joinChar '/' ws = x :: t ∧ x ≠ '/' := by
    intro ws hne h
    match ws, hne with
    | [w], _ =>
      obtain ⟨h1, h2⟩ := h w (by simp)
      cases w with
      | nil => exact absurd rfl h1
      | cons x t => exact ⟨x, t, rfl, fun e => h2 (by simp [e])⟩
    | w :: w' :: ws, _ =>
      obtain ⟨h1, h2⟩ := h w (by simp)
      cases w with
      | nil => exact absurd rfl h1
      | cons x t => exact ⟨x, _, rfl, fun e => h2 (by simp [e])⟩
  have hlast : ∀ ws : List Str, ws ≠ [] → (∀ w ∈ ws, w ≠ [] ∧ '/' ∉ w) → ∃ t x, joinChar '/' ws = t ++ [x] ∧ x ≠ '/' := by
    intro ws
    induction ws with
    | nil => intro h; exact absurd rfl h
    | cons w ws ih =>
      intro _ h
      cases ws with
      | nil =>
        obtain ⟨h1, h2⟩ := h w (by simp)
        refine ⟨w.dropLast, w.getLast h1, (List.dropLast_append_getLast h1).symm, fun e => h2 ?_⟩
        rw [← e]; exact List.getLast_mem h1
      | cons w' ws =>
        obtain ⟨t, x, e, hx⟩ := ih (by simp) (fun u hu => h u (List.mem_cons_of_mem _ hu))
        exact ⟨w ++ '/' :: t, x, by simp [joinChar, e], hx⟩
  obtain ⟨x, t, e1, hx⟩ := hfirst ws hne h
  obtain ⟨t', x', e2, hx'⟩ := hlast ws hne h
  unfold strip lstrip
  have : (joinChar '/' ws).dropWhile (fun x => decide (x = '/')) = joinChar '/' ws := by
    rw [e1, List.dropWhile_cons_of_neg (by simp [hx])]
  rw [this]
  unfold rstrip
  rw [e2, List.reverse_append, List.reverse_singleton, List.singleton_append, List.dropWhile_cons_of_neg (by simp [hx'])]
  simp

/-- C03: reading `k` looks up the key `k`; reading `k/rest` reads `rest` in what is stored under `k`. -/
theorem C03_reading_nested (f : Fields) (k : Str) (ks : List Str) (default : Js) (hk : k ≠ [] ∧ '/' ∉ k)
    (hks : ∀ w ∈ ks, w ≠ [] ∧ '/' ∉ w) :
    get (some (.dict f)) k default = (f.get? k).getD default ∧
    (ks ≠ [] → get (some (.dict f)) (k ++ '/' :: joinChar '/' ks) default =
      match f.get? k with
      | some x => get (some x) (joinChar '/' ks) default
      | none => default) := by
  have hp : ∀ ws : List Str, ws ≠ [] → (∀ w ∈ ws, w ≠ [] ∧ '/' ∉ w) → pathKeys (joinChar '/' ws) = ws := by
    intro ws hne h
    unfold pathKeys
    rw [joinChar_ends ws hne h, split_join '/' ws hne (fun w hw => (h w hw).2)]
  constructor
  · have := hp [k] (by simp) (by simpa using hk)
    simp only [joinChar] at this
    simp only [get, this, at_dict_cons]
    cases f.get? k <;> rfl
  · intro hne
    have h2 := hp ks hne hks
    have h1 := hp (k :: ks) (by simp) (by
      intro w hw
      rcases List.mem_cons.1 hw with rfl | hw
      · exact hk
      · exact hks w hw)
    have e : joinChar '/' (k :: ks) = k ++ '/' :: joinChar '/' ks := by
      cases ks with
      | nil => exact absurd rfl hne
      | cons a as => rfl
    rw [e] at h1
    simp only [get, h1, h2, at_dict_cons]
    cases f.get? k <;> rfl

example : get (some (.dict exUser)) (str "/Sampling/Size") (.leaf (.atom .null)) = .leaf (.atom (.num 7)) ∧
    (str "Sampling" ≠ [] ∧ '/' ∉ str "Sampling") := by decide +kernel

/-! ### C04 -/

/-- C04.  A default-only write does nothing at all when a specified value is stored
at the path, acts as a normal write when nothing, None, NaN or an empty container is
stored there. -/
theorem C04_default_only_write (np22 : Bool) (d : Fields) (path : Str) (v : Js) :
    (isUnspecified np22 (.dict d) path = .ok false → update np22 d path v true = .ok d) ∧
    (isUnspecified np22 (.dict d) path = .ok true →
      ∃ d', update np22 d path v true = .ok d' ∧ update np22 d path v false = .ok d' ∧
        ∀ default, get (some (.dict d')) path default = v) := by
  have key := updateAt_only np22 v (pathKeys path).dropLast d ((pathKeys path).getLast?.getD [])
  rw [dropLast_getLast _ (pathKeys_ne_nil path)] at key
  constructor
  · intro h
    simp only [isUnspecified, get] at h
    simp only [update, key, h]
  · intro h
    obtain ⟨d', hd', _⟩ := C03_read_back np22 d path v v
    refine ⟨d', ?_, hd', ?_⟩
    · simp only [isUnspecified, get] at h
      simp only [update] at hd' ⊢
      rw [key, h]; exact hd'
    · intro default
      obtain ⟨d'', h1, h2⟩ := C03_read_back np22 d path v default
      rw [hd'] at h1; cases h1; exact h2

example : isUnspecified true (.dict exUser) (str "Sampling/Size") = .ok false ∧
    isUnspecified true (.dict exUser) (str "Sampling/Method") = .ok true := by
  constructor <;> decide +kernel

/-- C04 (caveat, true of the code).  The write also happens when a *prefix* of the path
holds a plain value, and that plain value is lost even though the write is
default-only: `update({'DL': {'Options': 'x'}}, 'DL/Options/LogFile', 1,
only_if_empty_or_none=True)` drops `'x'`. -/
theorem C04_plain_prefix_value_lost : ∃ (d d' : Fields) (path pre : Str) (v : Js),
    update true d path v true = .ok d' ∧
    get (some (.dict d)) pre (.leaf (.atom .null)) = .leaf (.atom (.str (str "x"))) ∧
    get (some (.dict d')) pre (.leaf (.atom .null)) ≠ .leaf (.atom (.str (str "x"))) :=
  ⟨.cons (str "DL") (.dict (.cons (str "Options") (.leaf (.atom (.str (str "x")))) .nil)) .nil,
   _, str "DL/Options/LogFile", str "DL/Options", .leaf (.atom (.num 1)),
   rfl, by decide +kernel, by decide +kernel⟩

/-! ### C05 -/

/-- C05 (partial).  Full statement: for *every* configuration and path neither predicate
raises and `is_unspecified` holds exactly for a missing path, None, NaN, `{}` and
`[]`.  Proved for all stored values that are not lists; the list case is false of the
code, see `C05_list_values_raise`. -/
theorem C05_classification_partial (np22 : Bool) (d : Js) (path : Str)
    (hlist : ∀ l, d.at (pathKeys path) ≠ some (.leaf (.list l))) :
    ∃ b : Bool, isUnspecified np22 d path = .ok b ∧ isSpecified np22 d path = .ok (!b) ∧
      (b = true ↔ d.at (pathKeys path) = none ∨
        ∃ v, d.at (pathKeys path) = some v ∧ docUnspecified v) := by
  have e : isUnspecified np22 d path =
    valueUnspecified np22 ((d.at (pathKeys path)).getD (.leaf (.atom .null))) := rfl
  unfold isSpecified
  rw [e]
  cases h : d.at (pathKeys path) with
  | none => exact ⟨true, rfl, rfl, by simp⟩
  | some v =>
    match v with
    | .leaf (.atom .null) => exact ⟨true, rfl, rfl, by simp [docUnspecified]⟩
    | .leaf (.atom .nan) => exact ⟨true, rfl, rfl, by simp [docUnspecified]⟩
    | .leaf (.atom (.bool _)) => exact ⟨false, rfl, rfl, by simp [docUnspecified]⟩
    | .leaf (.atom (.num _)) => exact ⟨false, rfl, rfl, by simp [docUnspecified]⟩
    | .leaf (.atom (.str _)) => exact ⟨false, rfl, rfl, by simp [docUnspecified]⟩
    | .leaf (.list l) => exact absurd h (hlist l)
    | .dict .nil => exact ⟨true, rfl, rfl, by simp [docUnspecified]⟩
    | .dict (.cons _ _ _) => exact ⟨false, rfl, rfl, by simp [docUnspecified]⟩

/-- C05 (negation on lists, true of the code).  Whatever the path, a list with two or
more items makes both predicates raise `ValueError`, and a list that holds just `None`
is reported as unspecified although it is not empty. -/
theorem C05_list_values_raise (np22 : Bool) (d : Js) (path : Str) (a b : Atom) (l : List Atom)
    (h : d.at (pathKeys path) = some (.leaf (.list (a :: b :: l)))) :
    isUnspecified np22 d path = .error .valueError ∧
    isSpecified np22 d path = .error .valueError := by
  have e : isUnspecified np22 d path =
    valueUnspecified np22 ((d.at (pathKeys path)).getD (.leaf (.atom .null))) := rfl
  unfold isSpecified
  rw [e, h]
  exact ⟨rfl, rfl⟩

example : isUnspecified false
    (.dict (.cons (str "a") (.leaf (.list [.num 1, .num 2])) .nil)) (str "/a")
      = .error .valueError := by decide +kernel
example : isUnspecified false
    (.dict (.cons (str "a") (.leaf (.list [.null])) .nil)) (str "/a") = .ok true := by
  decide +kernel

end Verif.Config
