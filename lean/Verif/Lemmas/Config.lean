import Verif.Spec.Config
import Verif.Lemmas.PyStr

namespace Verif.Config

namespace Fields

@[simp] theorem get?_nil (k : Str) : get? nil k = none := rfl

theorem get?_set (f : Fields) (k k' : Str) (v : Js) :
    (f.set k v).get? k' = if k = k' then some v else f.get? k' := by
  match f with
  | nil => simp [set, get?]
  | cons a b f =>
    have ih := get?_set f k k' v
    by_cases h : a = k
    · subst h
      by_cases h' : a = k' <;> simp [set, get?, h']
    · by_cases h' : a = k'
      · subst h'
        have : ¬ k = a := fun x => h x.symm
        simp [set, get?, h, this]
      · simp [set, get?, h, h', ih]

theorem set_self (f : Fields) (k : Str) (v : Js) (h : f.get? k = some v) : f.set k v = f := by
  match f with
  | nil => simp at h
  | cons a b f =>
    by_cases h' : a = k
    · subst h'; simp [get?] at h; subst h; simp [set]
    · simp [get?, h'] at h
      simp [set, h', set_self f k v h]

theorem get?_none_of_not_mem (f : Fields) (k : Str) (h : k ∉ f.keys) : f.get? k = none := by
  match f with
  | nil => rfl
  | cons a b f =>
    simp [keys] at h
    have : ¬ a = k := fun e => h.1 e.symm
    simp [get?, this, get?_none_of_not_mem f k h.2]

theorem sizeOf_get? (f : Fields) (k : Str) (v : Js) (h : f.get? k = some v) :
    sizeOf v < sizeOf f := by
  match f with
  | nil => simp at h
  | cons a b f =>
    by_cases h' : a = k
    · simp [get?, h'] at h; subst h; simp; omega
    · simp [get?, h'] at h
      have := sizeOf_get? f k v h
      simp; omega

end Fields

open Fields

/-- What `updateVals` leaves under each key. -/
theorem updateVals_get (p : Fields) : ∀ (u r : Fields), p.keys.Nodup → updateVals u p = .ok r →
    ∀ k, (p.get? k = none → r.get? k = u.get? k) ∧
      (∀ v, p.get? k = some v → ∃ w, mergeVal (u.get? k) v = .ok w ∧ r.get? k = some w) := by
  match p with
  | .nil =>
    intro u r _ h k
    simp [updateVals] at h; subst h
    simp
  | .cons a v rest =>
    intro u r hn h k
    simp [keys] at hn
    simp only [updateVals] at h
    split at h
    · rename_i w hw
      have ih := updateVals_get rest (u.set a w) r hn.2 h k
      have hrest : rest.get? a = none := get?_none_of_not_mem _ _ hn.1
      by_cases hk : a = k
      · subst hk
        refine ⟨by simp [get?], ?_⟩
        intro v' hv'
        simp [get?] at hv'; subst hv'
        refine ⟨w, hw, ?_⟩
        rw [ih.1 hrest, get?_set]; simp
      · simp only [get?_set, if_neg hk] at ih
        simpa [get?, hk] using ih
    · simp at h

theorem updateVals_ok_of (p : Fields) : ∀ (u : Fields), p.keys.Nodup →
    (∀ k v, p.get? k = some v → ∃ w, mergeVal (u.get? k) v = .ok w) →
    ∃ r, updateVals u p = .ok r := by
  match p with
  | .nil => intro u _ _; exact ⟨u, rfl⟩
  | .cons a v rest =>
    intro u hn h
    simp [keys] at hn
    obtain ⟨w, hw⟩ := h a v (by simp [get?])
    simp only [updateVals, hw]
    apply updateVals_ok_of rest _ hn.2
    intro k v' hv'
    have hka : a ≠ k := by
      rintro rfl
      rw [get?_none_of_not_mem _ _ hn.1] at hv'
      simp at hv'
    rw [get?_set, if_neg hka]
    exact h k v' (by simp [get?, hka, hv'])

theorem updateVals_fix (p : Fields) : ∀ (r : Fields),
    (∀ k v, p.get? k = some v → ∃ w, r.get? k = some w ∧ mergeVal (some w) v = .ok w) →
    p.keys.Nodup → updateVals r p = .ok r := by
  match p with
  | .nil => intro r _ _; rfl
  | .cons a v rest =>
    intro r h hn
    simp [keys] at hn
    obtain ⟨w, hw, hm⟩ := h a v (by simp [get?])
    simp only [updateVals, hw, hm]
    rw [set_self r a w hw]
    apply updateVals_fix rest r _ hn.2
    intro k v' hv'
    have hka : a ≠ k := by
      rintro rfl
      rw [get?_none_of_not_mem _ _ hn.1] at hv'
      simp at hv'
    exact h k v' (by simp [get?, hka, hv'])

/-! ### Well-formedness -/

theorem WF.nodup {f : Fields} (h : WF (.dict f)) : f.keys.Nodup := h [] f rfl

theorem WF.child {f : Fields} (h : WF (.dict f)) {k : Str} {v : Js} (hk : f.get? k = some v) :
    WF v := by
  intro path g hg
  exact h (k :: path) g (by simp [Js.at, hk, hg])

theorem at_dict_cons (f : Fields) (k : Str) (ks : List Str) :
    Js.at (.dict f) (k :: ks) = (f.get? k).bind (fun v => v.at ks) := by
  simp only [Js.at]
  cases f.get? k <;> rfl

theorem leafAt_cons (f : Fields) (k : Str) (ks : List Str) :
    leafAt (.dict f) (k :: ks) = (f.get? k).bind (fun v => leafAt v ks) := by
  unfold leafAt
  rw [at_dict_cons]
  cases f.get? k <;> rfl

theorem dictAt_cons (f : Fields) (k : Str) (ks : List Str) :
    dictAt (.dict f) (k :: ks) ↔ ∃ v, f.get? k = some v ∧ dictAt v ks := by
  unfold dictAt
  rw [at_dict_cons]
  cases f.get? k <;> simp

@[simp] theorem leafAt_dict_nil (f : Fields) : leafAt (.dict f) [] = none := rfl
@[simp] theorem leafAt_leaf_nil (l : Leaf) : leafAt (.leaf l) [] = some l := rfl
@[simp] theorem leafAt_leaf_cons (l : Leaf) (k ks) : leafAt (.leaf l) (k :: ks) = none := rfl
@[simp] theorem dictAt_dict_nil (f : Fields) : dictAt (.dict f) [] := ⟨f, rfl⟩
@[simp] theorem not_dictAt_leaf (l : Leaf) (ks) : ¬ dictAt (.leaf l) ks := by
  rintro ⟨g, hg⟩; cases ks <;> simp [Js.at] at hg

theorem leafAt_empty (ks : List Str) : leafAt (.dict .nil) ks = none := by
  cases ks with
  | nil => rfl
  | cons k ks => rw [leafAt_cons]; simp

theorem dictAt_empty (ks : List Str) : dictAt (.dict .nil) ks ↔ ks = [] := by
  cases ks with
  | nil => simp
  | cons k ks => rw [dictAt_cons]; simp

/-- Cases of a successful `mergeVal`. -/
theorem mergeVal_ok {o : Option Js} {v w : Js} (h : mergeVal o v = .ok w) :
    (∃ l x, v = .leaf l ∧ w = .leaf x ∧ (o = none ∧ x = l ∨ o = some (.leaf x))) ∨
    (∃ p r u, v = .dict p ∧ w = .dict r ∧ updateVals u p = .ok r ∧
      (o = none ∧ u = .nil ∨ o = some (.dict u))) := by
  cases v with
  | leaf l =>
    left
    match o with
    | none => simp [mergeVal] at h; exact ⟨l, l, rfl, h.symm, .inl ⟨rfl, rfl⟩⟩
    | some (.leaf x) => simp [mergeVal] at h; exact ⟨l, x, rfl, h.symm, .inr rfl⟩
    | some (.dict u) => simp [mergeVal] at h
  | dict p =>
    right
    match o with
    | none =>
      simp only [mergeVal] at h
      split at h
      · rename_i r hr; cases h; exact ⟨p, r, .nil, rfl, rfl, hr, .inl ⟨rfl, rfl⟩⟩
      · simp at h
    | some (.leaf x) => simp [mergeVal] at h
    | some (.dict u) =>
      simp only [mergeVal] at h
      split at h
      · rename_i r hr; cases h; exact ⟨p, r, u, rfl, rfl, hr, .inr rfl⟩
      · simp at h

/-- The merged tree, path by path. -/
theorem updateVals_paths (path : List Str) : ∀ (u p r : Fields), WF (.dict p) →
    updateVals u p = .ok r →
    (leafAt (.dict r) path = (leafAt (.dict u) path).or (leafAt (.dict p) path)) ∧
    (dictAt (.dict r) path ↔ dictAt (.dict u) path ∨ dictAt (.dict p) path) ∧
    ¬ clashAt (.dict u) (.dict p) path := by
  induction path with
  | nil => intro u p r _ _; simp [clashAt]
  | cons k ks ih =>
    intro u p r hwf h
    obtain ⟨h1, h2⟩ := updateVals_get p u r hwf.nodup h k
    simp only [clashAt, leafAt_cons, dictAt_cons]
    cases hp : p.get? k with
    | none =>
      rw [h1 hp]
      simp
    | some v =>
      obtain ⟨w, hw, hr⟩ := h2 v hp
      rw [hr]
      rcases mergeVal_ok hw with ⟨l, x, rfl, rfl, ho⟩ | ⟨p', r', u', rfl, rfl, hu', ho⟩
      · rcases ho with ⟨ho, rfl⟩ | ho
        · rw [ho]; simp
        · rw [ho]
          cases ks with
          | nil => simp
          | cons _ _ => simp
      · have := ih u' p' r' (hwf.child hp) hu'
        rcases ho with ⟨ho, rfl⟩ | ho
        · rw [ho]
          simp only [clashAt, leafAt_empty, dictAt_empty] at this
          obtain ⟨a, b, c⟩ := this
          refine ⟨by simpa using a, ?_, by simp⟩
          simp
          rw [b]
          constructor
          · rintro (rfl | h)
            · simp
            · exact h
          · exact .inr
        · rw [ho]
          simpa [clashAt] using this

theorem updateVals_err (n : Nat) : ∀ (u p : Fields), sizeOf p < n → ∀ e,
    updateVals u p = .error e → e = .valueError := by
  induction n with
  | zero => intro u p h; omega
  | succ n ih =>
    intro u p hs e he
    match p with
    | .nil => simp [updateVals] at he
    | .cons k v rest =>
      simp only [updateVals] at he
      simp at hs
      split at he
      · exact ih _ rest (by omega) _ he
      · rename_i e' hm
        cases he
        cases v with
        | leaf l =>
          match ho : u.get? k with
          | none => rw [ho] at hm; simp [mergeVal] at hm
          | some (.leaf x) => rw [ho] at hm; simp [mergeVal] at hm
          | some (.dict x) => rw [ho] at hm; simp [mergeVal] at hm; exact hm.symm
        | dict p' =>
          simp at hs
          match ho : u.get? k with
          | none =>
            rw [ho] at hm; simp only [mergeVal] at hm
            split at hm
            · simp at hm
            · rename_i e'' hh; cases hm; exact ih _ p' (by omega) _ hh
          | some (.leaf x) => rw [ho] at hm; simp [mergeVal] at hm; exact hm.symm
          | some (.dict x) =>
            rw [ho] at hm; simp only [mergeVal] at hm
            split at hm
            · simp at hm
            · rename_i e'' hh; cases hm; exact ih _ p' (by omega) _ hh

theorem updateVals_ok_of_no_clash (n : Nat) : ∀ (u p : Fields), sizeOf p < n → WF (.dict p) →
    (∀ path, ¬ clashAt (.dict u) (.dict p) path) → ∃ r, updateVals u p = .ok r := by
  induction n with
  | zero => intro u p h; omega
  | succ n ih =>
    intro u p hs hwf hc
    apply updateVals_ok_of p u hwf.nodup
    intro k v hv
    cases v with
    | leaf l =>
      match ho : u.get? k with
      | none => exact ⟨_, rfl⟩
      | some (.leaf x) => exact ⟨_, rfl⟩
      | some (.dict x) =>
        exfalso
        apply hc [k]
        left
        refine ⟨(dictAt_cons _ _ _).2 ⟨_, ho, by simp⟩, ?_⟩
        rw [leafAt_cons, hv]; simp
    | dict p' =>
      have hlt := sizeOf_get? _ _ _ hv
      simp at hlt
      match ho : u.get? k with
      | none =>
        obtain ⟨r, hr⟩ := ih .nil p' (by omega) (hwf.child hv) (by
          intro path hcl
          rcases hcl with ⟨h1, h2⟩ | ⟨h1, h2⟩
          · rw [dictAt_empty] at h1; subst h1; simp at h2
          · rw [leafAt_empty] at h1; simp at h1)
        exact ⟨.dict r, by simp [mergeVal, hr]⟩
      | some (.leaf x) =>
        exfalso
        apply hc [k]
        right
        refine ⟨?_, (dictAt_cons _ _ _).2 ⟨_, hv, by simp⟩⟩
        rw [leafAt_cons, ho]; simp
      | some (.dict x) =>
        obtain ⟨r, hr⟩ := ih x p' (by omega) (hwf.child hv) (by
          intro path hcl
          apply hc (k :: path)
          rcases hcl with ⟨h1, h2⟩ | ⟨h1, h2⟩
          · left
            refine ⟨(dictAt_cons _ _ _).2 ⟨_, ho, h1⟩, ?_⟩
            rw [leafAt_cons, hv]; exact h2
          · right
            refine ⟨?_, (dictAt_cons _ _ _).2 ⟨_, hv, h2⟩⟩
            rw [leafAt_cons, ho]; exact h1)
        exact ⟨.dict r, by simp [mergeVal, hr]⟩

theorem updateVals_idem (n : Nat) : ∀ (u p r : Fields), sizeOf p < n → WF (.dict p) →
    updateVals u p = .ok r → updateVals r p = .ok r := by
  induction n with
  | zero => intro u p r h; omega
  | succ n ih =>
    intro u p r hs hwf h
    apply updateVals_fix p r _ hwf.nodup
    intro k v hv
    obtain ⟨w, hw, hr⟩ := (updateVals_get p u r hwf.nodup h k).2 v hv
    refine ⟨w, hr, ?_⟩
    rcases mergeVal_ok hw with ⟨l, x, rfl, rfl, ho⟩ | ⟨p', r', u', rfl, rfl, hu', ho⟩
    · rfl
    · have hlt := sizeOf_get? _ _ _ hv
      simp at hlt
      have := ih u' p' r' (by omega) (hwf.child hv) hu'
      simp [mergeVal, this]

/-! ### get / update -/

theorem pathKeys_ne_nil (path : Str) : pathKeys path ≠ [] := splitChar_ne_nil _ _

theorem dropLast_getLast (l : List Str) (h : l ≠ []) :
    l.dropLast ++ [l.getLast?.getD []] = l := by
  rw [List.getLast?_eq_some_getLast h]
  simpa using List.dropLast_append_getLast h

/-- The unconditional write never fails. -/
theorem updateAt_ok (np22 : Bool) (v : Js) (ks : List Str) : ∀ (f : Fields) (k : Str),
    ∃ g, updateAt np22 false v f ks k = .ok g := by
  induction ks with
  | nil => intro f k; exact ⟨_, rfl⟩
  | cons k0 ks ih =>
    intro f k
    simp only [updateAt]
    obtain ⟨g, hg⟩ := ih (subDict (f.get? k0)) k
    rw [hg]
    exact ⟨_, rfl⟩

theorem updateAt_at (np22 : Bool) (v : Js) (ks : List Str) : ∀ (f g : Fields) (k : Str),
    updateAt np22 false v f ks k = .ok g → Js.at (.dict g) (ks ++ [k]) = some v := by
  induction ks with
  | nil =>
    intro f g k h
    simp [updateAt] at h; subst h
    simp [at_dict_cons, get?_set, Js.at]
  | cons k0 ks ih =>
    intro f g k h
    simp only [updateAt] at h
    split at h
    · rename_i g' hg'
      cases h
      rw [List.cons_append, at_dict_cons, get?_set]
      simpa using ih _ _ _ hg'
    · simp at h

/-- Reading anywhere that is neither below nor above the written path. -/
theorem updateAt_frame (np22 only : Bool) (v : Js) (ks : List Str) : ∀ (f g : Fields) (k : Str)
    (q : List Str), updateAt np22 only v f ks k = .ok g → ¬ (ks ++ [k]) <+: q → ¬ q <+: (ks ++ [k]) →
    Js.at (.dict g) q = Js.at (.dict f) q := by
  induction ks with
  | nil =>
    intro f g k q h h1 h2
    cases q with
    | nil => simp at h2
    | cons q0 q =>
      have hk : k ≠ q0 := by rintro rfl; simp at h1
      have key : (f.set k v).get? q0 = f.get? q0 := by rw [get?_set, if_neg hk]
      simp only [updateAt] at h
      split at h
      · split at h
        · cases h; rw [at_dict_cons, key, at_dict_cons]
        · cases h; rfl
        · simp at h
      · cases h; rw [at_dict_cons, key, at_dict_cons]
  | cons k0 ks ih =>
    intro f g k q h h1 h2
    cases q with
    | nil => simp at h2
    | cons q0 q =>
      simp only [updateAt] at h
      split at h
      · rename_i g' hg'
        cases h
        by_cases hk : k0 = q0
        · subst hk
          have h1' : ¬ (ks ++ [k]) <+: q := by simpa using h1
          have h2' : ¬ q <+: (ks ++ [k]) := by simpa using h2
          have := ih _ _ _ _ hg' h1' h2'
          rw [at_dict_cons, get?_set, at_dict_cons]
          simp only [if_true, Option.bind_some]
          have hq : q ≠ [] := by rintro rfl; simp at h2'
          obtain ⟨q1, q', rfl⟩ := List.exists_cons_of_ne_nil hq
          cases hf : f.get? k0 with
          | none =>
            simp only [hf, subDict] at this
            rw [this]; simp [at_dict_cons]
          | some x =>
            simp only [hf, subDict] at this
            cases x with
            | dict x => rw [this]; rfl
            | leaf l => rw [this]; simp [Js.at]
        · rw [at_dict_cons, get?_set, if_neg hk, at_dict_cons]
      · simp at h

/-- The default-only write: what it does depends on the value read at the path. -/
theorem updateAt_only (np22 : Bool) (v : Js) (ks : List Str) : ∀ (f : Fields) (k : Str),
    updateAt np22 true v f ks k =
      match valueUnspecified np22 ((Js.at (.dict f) (ks ++ [k])).getD (.leaf (.atom .null))) with
      | .ok true => updateAt np22 false v f ks k
      | .ok false => .ok f
      | .error e => .error e := by
  induction ks with
  | nil =>
    intro f k
    simp only [updateAt, List.nil_append, at_dict_cons, if_true]
    cases f.get? k with
    | none => rfl
    | some x => rfl
  | cons k0 ks ih =>
    intro f k
    rw [updateAt, ih]
    rw [List.cons_append, at_dict_cons]
    cases hf : f.get? k0 with
    | none =>
      have : Js.at (.dict .nil) (ks ++ [k]) = none := by
        cases ks <;> simp [at_dict_cons]
      simp only [subDict, this, Option.bind_none, Option.getD_none, valueUnspecified]
      rw [updateAt, hf]; rfl
    | some x =>
      cases x with
      | leaf l =>
        have : Js.at (.dict .nil) (ks ++ [k]) = none := by
          cases ks <;> simp [at_dict_cons]
        have h2 : Js.at (.leaf l) (ks ++ [k]) = none := by cases ks <;> rfl
        simp only [subDict, this, h2, Option.bind_some, Option.getD_none, valueUnspecified]
        rw [updateAt, hf]; rfl
      | dict g =>
        simp only [subDict, Option.bind_some]
        cases valueUnspecified np22 ((Js.at (.dict g) (ks ++ [k])).getD (.leaf (.atom .null))) with
        | error e => rfl
        | ok b =>
          cases b with
          | true => simp only; rw [updateAt, hf]; rfl
          | false =>
            simp only
            rw [set_self _ _ _ hf]

end Verif.Config
