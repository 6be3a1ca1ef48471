import Verif.Spec.Units
import Verif.Lemmas.Units

/-! # Properties C09–C12: mappings, units, scaling of selected rows -/

namespace Verif.Units

/-! ### C09 -/

section
variable {κ ν : Type} [DecidableEq ν]

theorem invertInner_spec (key : κ) (vs : List ν) : ∀ acc : Dict ν κ, acc.NoDupKeys →
    (∀ r, invertInner acc key vs = .ok r →
      r.NoDupKeys ∧ (acc.keys ++ vs).Nodup ∧ r = acc ++ vs.map (fun v => (v, key))) ∧
    (∀ e, invertInner acc key vs = .error e → e = .valueError ∧ ¬ (acc.keys ++ vs).Nodup) := by
  induction vs with
  | nil =>
    intro acc hn
    simp only [invertInner]
    exact ⟨fun r h => by cases h; exact ⟨hn, by rw [List.append_nil]; exact hn, by simp⟩, fun e h => by simp at h⟩
  | cons v vs ih =>
    intro acc hn
    simp only [invertInner]
    by_cases hc : acc.contains v = true
    · rw [if_pos hc]
      refine ⟨fun r h => by simp at h, fun e h => ⟨by cases h; rfl, ?_⟩⟩
      intro hnd
      rw [List.nodup_append] at hnd
      exact hnd.2.2 v ((Dict.contains_iff _ _).1 hc) v (by simp) rfl
    · rw [if_neg hc]
      have hk : v ∉ acc.keys := fun h => hc ((Dict.contains_iff _ _).2 h)
      obtain ⟨h1, h2⟩ := ih _ (Dict.noDupKeys_set hn v key)
      rw [Dict.set_of_not_mem hk] at h1 h2 ⊢
      have ek : Dict.keys (acc ++ [(v, key)]) ++ vs = acc.keys ++ v :: vs := by simp [Dict.keys]
      rw [ek] at h1 h2
      refine ⟨fun r h => ?_, h2⟩
      obtain ⟨a, b, c⟩ := h1 r h
      exact ⟨a, b, by rw [c]; simp⟩

theorem invertLoop_spec (d : Dict κ (List ν)) : ∀ acc : Dict ν κ, acc.NoDupKeys →
    (∀ r, invertLoop acc d = .ok r →
      r.NoDupKeys ∧ (acc.keys ++ d.flatMap Prod.snd).Nodup ∧
        r = acc ++ d.flatMap (fun p => p.2.map (fun v => (v, p.1)))) ∧
    (∀ e, invertLoop acc d = .error e → e = .valueError ∧ ¬ (acc.keys ++ d.flatMap Prod.snd).Nodup) := by
  induction d with
  | nil =>
    intro acc hn
    simp only [invertLoop]
    exact ⟨fun r h => by cases h; exact ⟨hn, by rw [List.flatMap_nil, List.append_nil]; exact hn, by simp⟩, fun e h => by simp at h⟩
  | cons p d ih =>
    intro acc hn
    obtain ⟨k, vs⟩ := p
    obtain ⟨h1, h2⟩ := invertInner_spec k vs acc hn
    simp only [invertLoop]
    cases h : invertInner acc k vs with
    | error e =>
      obtain ⟨a, b⟩ := h2 e h
      refine ⟨fun r h => by simp at h, fun e' h => ?_⟩
      simp at h; subst h
      refine ⟨a, fun hnd => b ?_⟩
      rw [List.flatMap_cons, ← List.append_assoc] at hnd
      exact (List.nodup_append.1 hnd).1
    | ok acc' =>
      obtain ⟨a, b, c⟩ := h1 acc' h
      obtain ⟨i1, i2⟩ := ih acc' a
      have ek : acc'.keys ++ d.flatMap Prod.snd =
          acc.keys ++ List.flatMap Prod.snd ((k, vs) :: d) := by
        rw [c]; simp [Dict.keys, Function.comp_def]
      rw [ek] at i1 i2
      refine ⟨fun r hr => ?_, i2⟩
      obtain ⟨x, y, z⟩ := i1 r hr
      refine ⟨x, y, ?_⟩
      rw [z, c]; simp

/-- C09: a successful inversion sends `x` to `k` exactly when the original mapping lists
`x` under `k`. -/
theorem C09_inverse_exact (d : Dict κ (List ν)) (r : Dict ν κ) (h : invertMapping d = .ok r)
    (x : ν) (k : κ) : r.get? x = some k ↔ ∃ vs, (k, vs) ∈ d ∧ x ∈ vs := by
  obtain ⟨h1, _, h3⟩ := (invertLoop_spec d [] (by simp [Dict.NoDupKeys, Dict.keys])).1 r h
  rw [Dict.get?_iff_mem h1, h3]
  simp only [List.nil_append, List.mem_flatMap, List.mem_map, Prod.mk.injEq]
  constructor
  · rintro ⟨⟨k', vs⟩, hm, v, hv, rfl, rfl⟩; exact ⟨vs, hm, hv⟩
  · rintro ⟨vs, hm, hv⟩; exact ⟨(k, vs), hm, x, hv, rfl, rfl⟩

/-- C09: the inversion is refused (`ValueError`) exactly when some value is listed
more than once, under two keys or twice under one. -/
theorem C09_refused_iff_repeated (d : Dict κ (List ν)) :
    invertMapping d = .error .valueError ↔ ¬ (d.flatMap Prod.snd).Nodup := by
  have hs := invertLoop_spec d [] (by simp [Dict.NoDupKeys, Dict.keys])
  simp only [Dict.keys, List.map_nil, List.nil_append] at hs
  constructor
  · intro h; exact (hs.2 _ h).2
  · intro h
    cases hr : invertMapping d with
    | ok r => exact absurd (hs.1 r hr).2.1 h
    | error e => rw [(hs.2 e hr).1]

end

example : invertMapping [(1, ['a', 'b']), (2, ['c'])] = .ok [('a', 1), ('b', 1), ('c', 2)] := by
  decide +kernel
example : invertMapping [(1, ['a', 'b']), (2, ['a'])] = .error .valueError := by decide +kernel

/-! ### C10 -/

theorem selectUnits_iff (t : Table) (u v : Str) (cat : Option Str) (us : Dict Str ℚ) :
    selectUnits t u v cat = .ok us ↔ Chosen t u cat us ∧ u ∈ us.keys ∧ v ∈ us.keys := by
  have hinf : inferUnits t u v = .ok us ↔
      (∃ (i : Nat) (c : Str), t[i]? = some (c, us) ∧ u ∈ us.keys ∧
        ∀ j < i, ∀ c' us', t[j]? = some (c', us') → u ∉ us'.keys) ∧ u ∈ us.keys ∧ v ∈ us.keys := by
    unfold inferUnits
    cases h : findCategory t u with
    | none =>
      constructor
      · simp
      · rintro ⟨⟨i, c, h1, _⟩, h2, _⟩
        exact absurd h2 (findCategory_none h _ (List.mem_of_getElem? h1))
    | some vs =>
      obtain ⟨i, c, h1, h2, h3⟩ := findCategory_some h
      simp only
      split
      · rename_i hv
        constructor
        · intro e; cases e
          exact ⟨⟨i, c, h1, h2, h3⟩, h2, (Dict.contains_iff _ _).1 hv⟩
        · rintro ⟨⟨j, c', g1, g2, g3⟩, _⟩
          rcases Nat.lt_trichotomy i j with hij | hij | hij
          · exact absurd h2 (g3 i hij _ _ h1)
          · subst hij; rw [h1] at g1; simp at g1; rw [g1.2]
          · exact absurd g2 (h3 j hij _ _ g1)
      · rename_i hv
        constructor
        · simp
        · rintro ⟨⟨j, c', g1, g2, g3⟩, _, hv'⟩
          rcases Nat.lt_trichotomy i j with hij | hij | hij
          · exact absurd h2 (g3 i hij _ _ h1)
          · subst hij; rw [h1] at g1; simp at g1
            rw [← g1.2] at hv'
            exact absurd ((Dict.contains_iff _ _).2 hv') hv
          · exact absurd g2 (h3 j hij _ _ g1)
  match cat with
  | none => simpa [selectUnits, Chosen] using hinf
  | some [] => simpa [selectUnits, Chosen] using hinf
  | some (c :: cs) =>
    simp only [selectUnits, Chosen, Option.getD_some, List.cons_ne_nil, if_false]
    unfold givenUnits
    cases h : t.get? (c :: cs) with
    | none => simp
    | some vs =>
      simp only [Option.some.injEq]
      split
      · rename_i hu
        split
        · rename_i hv
          constructor
          · intro e; cases e
            exact ⟨rfl, (Dict.contains_iff _ _).1 hu, (Dict.contains_iff _ _).1 hv⟩
          · rintro ⟨rfl, _⟩; rfl
        · rename_i hv
          simp only [reduceCtorEq, false_iff]
          rintro ⟨rfl, _, hv'⟩
          exact hv ((Dict.contains_iff _ _).2 hv')
      · rename_i hu
        simp only [reduceCtorEq, false_iff]
        rintro ⟨rfl, hu', _⟩
        exact hu ((Dict.contains_iff _ _).2 hu')

theorem selectUnits_error {t : Table} {u v : Str} {cat : Option Str} {e : PyErr}
    (h : selectUnits t u v cat = .error e) : e = .valueError := by
  have hinf : ∀ e, inferUnits t u v = .error e → e = .valueError := by
    intro e h
    unfold inferUnits at h
    split at h
    · cases h; rfl
    · split at h <;> cases h; rfl
  match cat with
  | none => exact hinf e h
  | some [] => exact hinf e h
  | some (c :: cs) =>
    simp only [selectUnits, givenUnits] at h
    split at h
    · cases h; rfl
    · split at h
      · split at h <;> cases h; rfl
      · cases h; rfl

theorem mem_keys_get {d : Dict Str ℚ} {u : Str} (h : u ∈ d.keys) : ∃ a, d.get? u = some a := by
  cases hh : d.get? u with
  | some a => exact ⟨a, rfl⟩
  | none => exact absurd h ((Dict.get?_eq_none_iff _ _).1 hh)

theorem keys_of_get {d : Dict Str ℚ} {u : Str} {a : ℚ} (h : d.get? u = some a) : u ∈ d.keys := by
  by_contra hc
  rw [(Dict.get?_eq_none_iff _ _).2 hc] at h; simp at h

theorem scale_eq_each (a b : ℚ) (x : Vals) : x.scale a b = x.each (fun q => q * (a / b)) := by
  cases x <;> simp [Vals.scale, Vals.each, mul_div_assoc]

/-- C10: a conversion succeeds exactly when both units are in the category in question,
and then every number is multiplied with the quotient of the two factors. -/
theorem C10_value (t : Table) (x w : Vals) (hx : x ≠ .other) (u v : Str) (cat : Option Str) :
    convertUnits t x u v cat = .ok w ↔
      ∃ us a b, Chosen t u cat us ∧ us.get? u = some a ∧ us.get? v = some b ∧
        w = x.each (fun q => q * (a / b)) := by
  simp only [convertUnits, hx, if_false]
  cases h : selectUnits t u v cat with
  | error e =>
    simp only [reduceCtorEq, false_iff]
    rintro ⟨us, a, b, h1, h2, h3, _⟩
    have := (selectUnits_iff t u v cat us).2 ⟨h1, keys_of_get h2, keys_of_get h3⟩
    rw [h] at this; simp at this
  | ok us =>
    obtain ⟨h1, h2, h3⟩ := (selectUnits_iff t u v cat us).1 h
    obtain ⟨a, ha⟩ := mem_keys_get h2
    obtain ⟨b, hb⟩ := mem_keys_get h3
    simp only [ha, hb, Except.ok.injEq, scale_eq_each]
    constructor
    · intro e; exact ⟨us, a, b, h1, ha, hb, e.symm⟩
    · rintro ⟨us', a', b', g1, g2, g3, g4⟩
      have := (selectUnits_iff t u v cat us').2 ⟨g1, keys_of_get g2, keys_of_get g3⟩
      rw [h] at this; cases this
      rw [ha] at g2; rw [hb] at g3; cases g2; cases g3
      exact g4.symm

/-- C10: everything else is refused: `TypeError` for values that are no float, list or
array, `ValueError` for unknown units and categories and for units of another category. -/
theorem C10_rejection (t : Table) (x : Vals) (u v : Str) (cat : Option Str) (e : PyErr)
    (h : convertUnits t x u v cat = .error e) :
    (x = .other ∧ e = .typeError) ∨
    (e = .valueError ∧ ¬ ∃ us, Chosen t u cat us ∧ u ∈ us.keys ∧ v ∈ us.keys) := by
  by_cases hx : x = .other
  · left; simp [convertUnits, hx] at h; exact ⟨hx, h.symm⟩
  · right
    simp only [convertUnits, hx, if_false] at h
    cases hs : selectUnits t u v cat with
    | error e' =>
      rw [hs] at h; simp at h; subst h
      refine ⟨selectUnits_error hs, ?_⟩
      rintro ⟨us, hc⟩
      rw [(selectUnits_iff t u v cat us).2 hc] at hs; simp at hs
    | ok us =>
      obtain ⟨h1, h2, h3⟩ := (selectUnits_iff t u v cat us).1 hs
      obtain ⟨a, ha⟩ := mem_keys_get h2
      obtain ⟨b, hb⟩ := mem_keys_get h3
      rw [hs] at h; simp [ha, hb] at h

theorem chosen_switch {t : Table} {u v : Str} {cat : Option Str} {us : Dict Str ℚ}
    (hu : cat.getD [] ≠ [] ∨ UniqueNames t) (h : Chosen t u cat us) (hv : v ∈ us.keys) :
    Chosen t v cat us := by
  unfold Chosen at *
  by_cases hc : cat.getD [] = []
  · rw [if_pos hc] at h ⊢
    obtain ⟨i, c, h1, _, _⟩ := h
    have := findCategory_unique (hu.resolve_left (fun x => x hc)) (List.mem_of_getElem? h1) hv
    exact findCategory_some this
  · rw [if_neg hc] at h ⊢; exact h

theorem chosen_unique {t : Table} {u : Str} {cat : Option Str} {us us' : Dict Str ℚ}
    (h : Chosen t u cat us) (h' : Chosen t u cat us') : us = us' := by
  unfold Chosen at *
  by_cases hc : cat.getD [] = []
  · rw [if_pos hc] at h h'
    obtain ⟨i, c, h1, h2, h3⟩ := h
    obtain ⟨j, c', g1, g2, g3⟩ := h'
    rcases Nat.lt_trichotomy i j with hij | hij | hij
    · exact absurd h2 (g3 i hij _ _ h1)
    · subst hij; rw [h1] at g1; simp at g1; exact g1.2
    · exact absurd g2 (h3 j hij _ _ g1)
  · rw [if_neg hc] at h h'; rw [h] at h'; cases h'; rfl

theorem chosen_mem {t : Table} {u : Str} {cat : Option Str} {us : Dict Str ℚ}
    (h : Chosen t u cat us) : ∃ c, (c, us) ∈ t := by
  unfold Chosen at h
  split at h
  · obtain ⟨i, c, h1, _⟩ := h; exact ⟨c, List.mem_of_getElem? h1⟩
  · exact ⟨_, Dict.mem_of_get? h⟩

theorem each_each (f g : ℚ → ℚ) (x : Vals) : (x.each f).each g = x.each (fun q => g (f q)) := by
  cases x <;> simp [Vals.each, Function.comp_def]

theorem each_id {f : ℚ → ℚ} (hf : ∀ q, f q = q) (x : Vals) : x.each f = x := by
  have : f = id := funext hf
  cases x <;> simp [Vals.each, this]

theorem convert_not_other {t : Table} {x y : Vals} {u v : Str} {cat : Option Str}
    (h : convertUnits t x u v cat = .ok y) : x ≠ .other := by
  rintro rfl; simp [convertUnits] at h

/-- C10 (round trip): converting back restores the values, provided the category is named
or unit names are unique across categories, and no factor is zero. -/
theorem C10_round_trip (t : Table) (hz : NonzeroFactors t) (x y : Vals) (u v : Str)
    (cat : Option Str) (hu : cat.getD [] ≠ [] ∨ UniqueNames t)
    (h : convertUnits t x u v cat = .ok y) : convertUnits t y v u cat = .ok x := by
  have hx := convert_not_other h
  obtain ⟨us, a, b, h1, h2, h3, rfl⟩ := (C10_value t x y hx u v cat).1 h
  obtain ⟨c, hc⟩ := chosen_mem h1
  have ha : a ≠ 0 := hz _ hc (u, a) (Dict.mem_of_get? h2)
  have hb : b ≠ 0 := hz _ hc (v, b) (Dict.mem_of_get? h3)
  rw [C10_value _ _ _ (by cases x <;> simp [Vals.each] at hx ⊢)]
  refine ⟨us, b, a, chosen_switch hu h1 (keys_of_get h3), h3, h2, ?_⟩
  rw [each_each, each_id]
  intro q; field_simp

/-- C10 (transitivity): converting in two steps equals converting directly. -/
theorem C10_composition (t : Table) (hz : NonzeroFactors t) (x y z : Vals) (u v w : Str)
    (cat : Option Str) (hu : cat.getD [] ≠ [] ∨ UniqueNames t)
    (h : convertUnits t x u v cat = .ok y) (h' : convertUnits t y v w cat = .ok z) :
    convertUnits t x u w cat = .ok z := by
  have hx := convert_not_other h
  have hy := convert_not_other h'
  obtain ⟨us, a, b, h1, h2, h3, rfl⟩ := (C10_value t x y hx u v cat).1 h
  obtain ⟨us', b', c, g1, g2, g3, rfl⟩ := (C10_value t _ z hy v w cat).1 h'
  have := chosen_unique (chosen_switch hu h1 (keys_of_get h3)) g1
  subst this
  rw [h3] at g2; cases g2
  obtain ⟨ct, hc⟩ := chosen_mem h1
  have hb : b ≠ 0 := hz _ hc (v, b) (Dict.mem_of_get? h3)
  rw [C10_value _ _ _ hx]
  refine ⟨us, a, c, h1, h2, g3, ?_⟩
  rw [each_each]
  congr 1
  funext q
  field_simp

/-- The shipped unit table meets the hypotheses of the two theorems above. -/
theorem C10_default_table : UniqueNames defaultUnits ∧ NonzeroFactors defaultUnits := by
  constructor
  · unfold UniqueNames; decide +kernel
  · unfold NonzeroFactors; decide +kernel

example : convertUnits defaultUnits (.lst [1, 2]) (str "km") (str "m") none =
    .ok (.lst [1000, 2000]) := by decide +kernel
example : convertUnits defaultUnits (.flt 1) (str "m") (str "sec") none = .error .valueError := by
  decide +kernel
example : convertUnits defaultUnits .other (str "m") (str "sec") none = .error .typeError := by
  decide +kernel

/-- Finding: the shipped table lists areas in the category "length", hence converting a
length to an area is accepted. -/
theorem C10_default_table_length_to_area :
    convertUnits defaultUnits (.flt 1) (str "km") (str "m2") none = .ok (.flt 1000) := by
  decide +kernel

/-- The shipped table is consistent with itself: areas and volumes are the powers of the lengths, speeds
and accelerations are lengths per second and per second squared, `mph` is a mile per hour, a foot
is twelve inches, a mile 5280 feet. -/
theorem C10_default_table_derived :
    (∀ u ∈ [str "m", str "mm", str "cm", str "km", str "in", str "inch", str "ft", str "mile"],
      factorOf defaultUnits (u ++ ['2']) = (factorOf defaultUnits u).map (fun q => q ^ 2)) ∧
    (∀ u ∈ [str "m", str "in", str "inch", str "ft"],
      factorOf defaultUnits (u ++ ['3']) = (factorOf defaultUnits u).map (fun q => q ^ 3) ∧
      factorOf defaultUnits (u ++ str "ps") = factorOf defaultUnits u ∧
      factorOf defaultUnits (u ++ str "ps2") = factorOf defaultUnits u) ∧
    factorOf defaultUnits (str "ft") = (factorOf defaultUnits (str "in")).map (fun q => 12 * q) ∧
    factorOf defaultUnits (str "mile") = (factorOf defaultUnits (str "ft")).map (fun q => 5280 * q) ∧
    factorOf defaultUnits (str "mph") = (factorOf defaultUnits (str "mile")).map (fun q => q / 3600) ∧
    factorOf defaultUnits (str "minute") = (factorOf defaultUnits (str "sec")).map (fun q => 60 * q) ∧
    factorOf defaultUnits (str "hour") = (factorOf defaultUnits (str "minute")).map (fun q => 60 * q) ∧
    factorOf defaultUnits (str "day") = (factorOf defaultUnits (str "hour")).map (fun q => 24 * q) ∧
    factorOf defaultUnits (str "kip") = (factorOf defaultUnits (str "lbf")).map (fun q => 1000 * q) ∧
    factorOf defaultUnits (str "ksi") = (factorOf defaultUnits (str "psi")).map (fun q => 1000 * q) ∧
    factorOf defaultUnits (str "SF") = factorOf defaultUnits (str "ft2") ∧
    factorOf defaultUnits (str "LF") = factorOf defaultUnits (str "ft") ∧
    factorOf defaultUnits (str "CF") = (factorOf defaultUnits (str "ft3")).map (fun q => q / 60) := by
  decide +kernel

/-! ### C11 -/

theorem hookVal_eq {v w : RawVal} (h : hookVal v = .ok w) : w = v := by
  cases v with
  | nested b => cases b <;> simp [hookVal] at h; exact h.symm
  | _ => simp [hookVal] at h; exact h.symm

theorem hookCat_obj {ps : List (Str × RawVal)} {c : RawCat} (h : hookCat (.obj ps) = .ok c) :
    c = .obj ps ∧ (ps.map Prod.fst).Nodup := by
  simp only [hookCat] at h
  split at h
  · simp at h
  · rename_i qs hq
    have hqs : qs = ps := by
      have := mapE_ok_iff.1 hq
      clear hq h
      induction this with
      | nil => rfl
      | @cons p q ps qs h1 _ ih =>
        rw [ih]
        cases hv : hookVal p.2 with
        | error e => rw [hv] at h1; simp [Except.map] at h1
        | ok w =>
          rw [hv] at h1; simp [Except.map] at h1
          rw [← h1, hookVal_eq hv]
    subst hqs
    rw [dictRaise_nil] at h
    split at h
    · simp at h
    · rename_i d hd
      split at hd
      · rename_i hn
        cases hd; cases h; exact ⟨rfl, hn⟩
      · simp at hd

theorem hookCat_eq {c c' : RawCat} (h : hookCat c = .ok c') : c' = c := by
  cases c with
  | obj ps => exact (hookCat_obj h).1
  | other b => cases b <;> simp [hookCat] at h; exact h.symm

theorem loadFile_obj {ps : List (Str × RawCat)} {g : RawFile} (h : loadFile (.obj ps) = .ok g) :
    g = .obj ps ∧ (ps.map Prod.fst).Nodup ∧ ∀ p ∈ ps, hookCat p.2 = .ok p.2 := by
  simp only [loadFile] at h
  split at h
  · simp at h
  · rename_i qs hq
    have hqs : qs = ps ∧ ∀ p ∈ ps, hookCat p.2 = .ok p.2 := by
      have := mapE_ok_iff.1 hq
      clear hq h
      induction this with
      | nil => simp
      | @cons p q ps qs h1 _ ih =>
        cases hv : hookCat p.2 with
        | error e => rw [hv] at h1; simp [Except.map] at h1
        | ok w =>
          have hw := hookCat_eq hv
          rw [hv] at h1; simp [Except.map] at h1
          refine ⟨by rw [ih.1, ← h1, hw], ?_⟩
          intro x hx
          rcases List.mem_cons.1 hx with rfl | hx
          · rw [hv, hw]
          · exact ih.2 x hx
    obtain ⟨rfl, hall⟩ := hqs
    rw [dictRaise_nil] at h
    split at h
    · simp at h
    · rename_i d hd
      split at hd
      · rename_i hn
        cases hd; cases h; exact ⟨rfl, hn, hall⟩
      · simp at hd

/-- What a successfully parsed table contains, against the file. -/
theorem parse_entries {pyFloat : Str → Option ℚ} {f : RawFile} {t : Table}
    (h : parseCategories pyFloat f = .ok t) :
    List.Forall₂ (fun (e : Str × RawVal) (r : Str × ℚ) => r.1 = e.1 ∧ toFloat pyFloat e.2 = .ok r.2)
      (fileEntries f) (t.flatMap Prod.snd) := by
  cases f with
  | invalid => simp [parseCategories, loadFile] at h
  | other b => cases b <;> simp [parseCategories, loadFile] at h
  | obj ps =>
    simp only [parseCategories] at h
    split at h
    · simp at h
    · rename_i qs hl
      have e := (loadFile_obj hl).1
      cases e
      clear hl
      have := mapE_ok_iff.1 h
      clear h
      simp only [fileEntries]
      induction this with
      | nil => simp
      | @cons p q ps qs h1 _ ih =>
        simp only [List.flatMap_cons]
        apply List.rel_append _ ih
        obtain ⟨c, cat⟩ := p
        cases cat with
        | other b => simp [catFloats, Except.map] at h1
        | obj us =>
          simp only [catFloats] at h1
          cases hm : mapE (fun p => (toFloat pyFloat p.2).map (fun q => (p.1, q))) us with
          | error e => rw [hm] at h1; simp [Except.map] at h1
          | ok rs =>
            rw [hm] at h1; simp [Except.map] at h1
            rw [← h1]
            simp only
            refine (mapE_ok_iff.1 hm).imp ?_
            intro a b hab
            cases hv : toFloat pyFloat a.2 with
            | error e => rw [hv] at hab; simp [Except.map] at hab
            | ok w => rw [hv] at hab; simp [Except.map] at hab; rw [← hab]; exact ⟨rfl, rfl⟩
    · simp at h

theorem forall2_fst {l : List (Str × RawVal)} {r : List (Str × ℚ)} {R : RawVal → ℚ → Prop}
    (h : List.Forall₂ (fun e r => r.1 = e.1 ∧ R e.2 r.2) l r) :
    r.map Prod.fst = l.map Prod.fst := by
  induction h with
  | nil => rfl
  | cons h1 _ ih => simp [h1.1, ih]

theorem toFloat_iff (pyFloat : Str → Option ℚ) (v : RawVal) (q : ℚ) : toFloat pyFloat v = .ok q ↔ Means pyFloat v q := by
  cases v with
  | num q' => simp [toFloat, Means]
  | text s => cases h : pyFloat s <;> simp [toFloat, Means, h]
  | null => simp [toFloat, Means]
  | nested b => simp [toFloat, Means]

/-- See `C11_single_meaning`: if a unit file is accepted, each unit name occurs exactly once in all of its
categories, and the table maps a name to a factor exactly when the file lists the name
with a value that reads as that factor. -/
theorem single_meaning (pyFloat : Str → Option ℚ) (default : RawFile)
    (custom : Option RawFile) (tbl : Dict Str ℚ)
    (h : parseUnits pyFloat default custom = .ok tbl) :
    ((fileEntries (custom.getD default)).map Prod.fst).Nodup ∧
    (∀ e ∈ fileEntries (custom.getD default), ∃ q, toFloat pyFloat e.2 = .ok q) ∧
    ∀ u q, tbl.get? u = some q ↔
      ∃ v, (u, v) ∈ fileEntries (custom.getD default) ∧ toFloat pyFloat v = .ok q := by
  simp only [parseUnits] at h
  split at h
  · simp at h
  · rename_i t ht
    have he := parse_entries ht
    rw [flatten_eq, dictRaise_nil] at h
    split at h
    · rename_i hn
      cases h
      have hfst := forall2_fst (R := fun v q => toFloat pyFloat v = .ok q) he
      refine ⟨by rw [← hfst]; exact hn, ?_, ?_⟩
      · clear hn hfst ht
        intro e hm
        generalize fileEntries (custom.getD default) = fe at *
        generalize t.flatMap Prod.snd = te at *
        induction he with
        | nil => simp at hm
        | cons h1 _ ih =>
          rcases List.mem_cons.1 hm with rfl | hm
          · exact ⟨_, h1.2⟩
          · exact ih hm
      · intro u q
        have hnd : Dict.NoDupKeys (t.flatMap Prod.snd) := hn
        rw [Dict.get?_iff_mem hnd]
        clear hn hfst hnd ht
        generalize fileEntries (custom.getD default) = fe at *
        generalize t.flatMap Prod.snd = te at *
        induction he with
        | nil => simp
        | @cons a b l r h1 _ ih =>
          obtain ⟨b1, b2⟩ := b
          obtain ⟨a1, a2⟩ := a
          simp only at h1
          obtain ⟨rfl, h1⟩ := h1
          constructor
          · intro hm
            rcases List.mem_cons.1 hm with hm | hm
            · cases hm; exact ⟨a2, by simp, h1⟩
            · obtain ⟨v, hv, hq⟩ := ih.1 hm; exact ⟨v, List.mem_cons_of_mem _ hv, hq⟩
          · rintro ⟨v, hv, hq⟩
            rcases List.mem_cons.1 hv with hm | hm
            · cases hm; rw [h1] at hq; cases hq; simp
            · exact List.mem_cons_of_mem _ (ih.2 ⟨v, hm, hq⟩)
    · simp at h

/-- See `C11_accepted_iff`. A unit file is accepted exactly when it is an object whose
category names are distinct, all categories are objects, every value reads as a number
and no unit name occurs twice in the file. -/
theorem accepted_iff (pyFloat : Str → Option ℚ) (default : RawFile) (custom : Option RawFile) :
    (∃ tbl, parseUnits pyFloat default custom = .ok tbl) ↔
      ∃ cats : List (Str × List (Str × RawVal)),
        custom.getD default = .obj (cats.map (fun c => (c.1, .obj c.2))) ∧
        (cats.map Prod.fst).Nodup ∧
        (∀ c ∈ cats, ∀ e ∈ c.2, ∃ q, toFloat pyFloat e.2 = .ok q) ∧
        ((cats.flatMap Prod.snd).map Prod.fst).Nodup := by
  constructor
  · rintro ⟨tbl, h⟩
    have hs := single_meaning pyFloat default custom tbl h
    simp only [parseUnits] at h
    split at h
    · simp at h
    · rename_i t ht
      generalize custom.getD default = f at *
      cases f with
      | invalid => simp [parseCategories, loadFile] at ht
      | other b => cases b <;> simp [parseCategories, loadFile] at ht
      | obj ps =>
        simp only [parseCategories] at ht
        split at ht
        · simp at ht
        · rename_i qs hl
          obtain ⟨e, hnd, _⟩ := loadFile_obj hl
          cases e
          have hall := mapE_ok_iff.1 ht
          have : ∃ cats : List (Str × List (Str × RawVal)),
              ps = cats.map (fun c => (c.1, .obj c.2)) := by
            clear * - hall
            induction hall with
            | nil => exact ⟨[], rfl⟩
            | @cons p q ps qs h1 _ ih =>
              obtain ⟨cats, rfl⟩ := ih
              obtain ⟨c, cat⟩ := p
              cases cat with
              | other b => simp [catFloats, Except.map] at h1
              | obj us => exact ⟨(c, us) :: cats, rfl⟩
          obtain ⟨cats, rfl⟩ := this
          have hent : fileEntries (.obj (cats.map (fun c => (c.1, .obj c.2)))) =
              cats.flatMap Prod.snd := by
            simp [fileEntries, List.flatMap_map]
          rw [hent] at hs
          refine ⟨cats, rfl, by simpa [Function.comp_def] using hnd, ?_, hs.1⟩
          intro c hc e he
          exact hs.2.1 e (List.mem_flatMap.2 ⟨c, hc, he⟩)
        · simp at ht
  · rintro ⟨cats, hf, hnd, hq, hu⟩
    have hhook : ∀ c ∈ cats, hookCat (.obj c.2) = .ok (.obj c.2) := by
      intro c hc
      have h1 : mapE (fun p => (hookVal p.2).map (fun v => (p.1, v))) c.2 = .ok (c.2.map id) := by
        apply mapE_pure
        intro e he
        obtain ⟨q, hq⟩ := hq c hc e he
        obtain ⟨e1, e2⟩ := e
        cases e2 <;> simp_all [toFloat, hookVal, Except.map]
      have h2 : (c.2.map Prod.fst).Nodup := by
        clear * - hc hu
        induction cats with
        | nil => simp at hc
        | cons a cats ih =>
          rw [List.flatMap_cons, List.map_append, List.nodup_append] at hu
          rcases List.mem_cons.1 hc with rfl | hc
          · exact hu.1
          · exact ih hu.2.1 hc
      rw [List.map_id] at h1
      simp [hookCat, h1, dictRaise_nil, h2]
    have hload : loadFile (.obj (cats.map (fun c => (c.1, .obj c.2)))) =
        .ok (.obj (cats.map (fun c => (c.1, .obj c.2)))) := by
      have h1 : mapE (fun p => (hookCat p.2).map (fun v => (p.1, v)))
          (cats.map (fun c => (c.1, RawCat.obj c.2))) =
          .ok ((cats.map (fun c => (c.1, RawCat.obj c.2))).map id) := by
        apply mapE_pure
        intro e he
        obtain ⟨c, hc, rfl⟩ := List.mem_map.1 he
        simp [hhook c hc, Except.map]
      rw [List.map_id] at h1
      have h2 : ((cats.map (fun c => (c.1, RawCat.obj c.2))).map Prod.fst).Nodup := by
        simpa [Function.comp_def] using hnd
      simp only [loadFile, h1, dictRaise_nil, if_pos h2]
    have hparse : ∃ t, parseCategories pyFloat (custom.getD default) = .ok t := by
      rw [hf]
      simp only [parseCategories, hload]
      apply mapE_ok_of_forall
      intro e he
      obtain ⟨c, hc, rfl⟩ := List.mem_map.1 he
      obtain ⟨r, hr⟩ := mapE_ok_of_forall
        (f := fun p => (toFloat pyFloat p.2).map (fun q => (p.1, q))) (l := c.2) (by
          intro e he
          obtain ⟨q, hq⟩ := hq c hc e he
          exact ⟨(e.1, q), by rw [hq]; rfl⟩)
      exact ⟨(c.1, r), by simp only [catFloats, hr]; rfl⟩
    obtain ⟨t, ht⟩ := hparse
    have hfst := forall2_fst (R := fun v q => toFloat pyFloat v = .ok q) (parse_entries ht)
    have hent : fileEntries (.obj (cats.map (fun c => (c.1, .obj c.2)))) =
        cats.flatMap Prod.snd := by
      simp [fileEntries, List.flatMap_map]
    rw [hf, hent] at hfst
    refine ⟨t.flatMap Prod.snd, ?_⟩
    simp only [parseUnits, ht, flatten_eq, dictRaise_nil]
    rw [hfst, if_pos hu]

example : parseUnits (fun _ => none) .invalid
    (some (.obj [(str "length", .obj [(str "m", .num 1), (str "cm", .num (1/100))]),
      (str "time", .obj [(str "s", .num 1)])])) =
    .ok [(str "m", 1), (str "cm", 1/100), (str "s", 1)] := by decide +kernel
/-- The same name in two categories is refused, as is a repeated name in one. -/
example : parseUnits (fun _ => none) .invalid
    (some (.obj [(str "length", .obj [(str "m", .num 1)]), (str "time", .obj [(str "m", .num 60)])])) =
    .error .valueError := by decide +kernel

/-- C11: if a unit file is accepted, each unit name occurs exactly once in all of its
categories, and the table maps a name to a factor exactly when the file lists the name
with a value that stands for that factor. -/
theorem C11_single_meaning (pyFloat : Str → Option ℚ) (default : RawFile) (custom : Option RawFile) (tbl : Dict Str ℚ)
    (h : parseUnits pyFloat default custom = .ok tbl) :
    ((fileEntries (custom.getD default)).map Prod.fst).Nodup ∧
    (∀ e ∈ fileEntries (custom.getD default), ∃ q, Means pyFloat e.2 q) ∧
    ∀ u q, tbl.get? u = some q ↔ ∃ v, (u, v) ∈ fileEntries (custom.getD default) ∧ Means pyFloat v q := by
  have := single_meaning pyFloat default custom tbl h
  simp only [toFloat_iff] at this
  exact this

/-- C11: acceptance. A unit file is accepted exactly when it is an object whose
category names are distinct, all categories are objects, every value stands for a number
and no unit name occurs twice in the file. -/
theorem C11_accepted_iff (pyFloat : Str → Option ℚ) (default : RawFile) (custom : Option RawFile) :
    (∃ tbl, parseUnits pyFloat default custom = .ok tbl) ↔
      ∃ cats : List (Str × List (Str × RawVal)),
        custom.getD default = .obj (cats.map (fun c => (c.1, .obj c.2))) ∧
        (cats.map Prod.fst).Nodup ∧
        (∀ c ∈ cats, ∀ e ∈ c.2, ∃ q, Means pyFloat e.2 q) ∧
        ((cats.flatMap Prod.snd).map Prod.fst).Nodup := by
  have := accepted_iff pyFloat default custom
  simp only [toFloat_iff] at this
  exact this

/-! ### C12 -/

section
variable {L : Type} [DecidableEq L]

theorem zipWith_map_left {α β γ δ : Type} (f : γ → β → δ) (g : α → γ) (l : List α) (k : α → β)  :
    List.zipWith f (l.map g) (l.map k) = l.map (fun a => f (g a) (k a)) := by
  induction l with
  | nil => rfl
  | cons a l ih => simp [ih]

theorem maskLoop_eq (names : List Str) (lines : List (Line L)) (conds : Dict Str L) :
    ∀ (p : Line L → Bool),
    (∀ m, maskLoop names lines (lines.map p) conds = .ok m →
      m = lines.map (fun l => p l && conds.all (fun c =>
        decide (∃ i, names.idxOf? c.1 = some i ∧ l.labels[i]? = some c.2)))) ∧
    (∀ e, maskLoop names lines (lines.map p) conds = .error e →
      e = .keyError ∧ ∃ c ∈ conds, c.1 ∉ names) := by
  induction conds with
  | nil =>
    intro p
    simp only [maskLoop]
    exact ⟨fun m h => by cases h; simp, fun e h => by simp at h⟩
  | cons c conds ih =>
    intro p
    obtain ⟨level, value⟩ := c
    simp only [maskLoop, levelPos]
    cases hi : names.idxOf? level with
    | none =>
      refine ⟨fun m h => by simp at h, fun e h => ?_⟩
      simp at h
      exact ⟨h.symm, (level, value), by simp, by simpa using List.idxOf?_eq_none_iff.1 hi⟩
    | some i =>
      simp only
      have hz : List.zipWith (fun m (l : Line L) => m && decide (l.labels[i]? = some value))
          (lines.map p) lines = lines.map (fun l => p l && decide (l.labels[i]? = some value)) := by
        have := zipWith_map_left (fun m (l : Line L) => m && decide (l.labels[i]? = some value)) p lines id
        simpa using this
      rw [hz]
      obtain ⟨h1, h2⟩ := ih (fun l => p l && decide (l.labels[i]? = some value))
      refine ⟨fun m h => ?_, fun e h => ?_⟩
      · rw [h1 m h]
        apply List.map_congr_left
        intro l _
        simp [hi, Bool.and_assoc]
      · obtain ⟨a, c, hc, hn⟩ := h2 e h
        exact ⟨a, c, List.mem_cons_of_mem _ hc, hn⟩

/-- A line satisfies all conditions: each named level has the wanted value. -/
def Matches (names : List Str) (conds : Dict Str L) (l : Line L) : Prop :=
  ∀ c ∈ conds, ∃ i, names.idxOf? c.1 = some i ∧ l.labels[i]? = some c.2

/-- C12: exactly the matching lines are multiplied, all others stay the same, in the same
order. -/
theorem C12_exactly_matching_lines (names : List Str) (lines r : List (Line L))
    (conds : Dict Str L) (factor : ℚ) (raise : Bool)
    (h : multiplyFactor names lines conds factor raise = .ok r) :
    r.length = lines.length ∧
    ∀ (i : Nat) (l l' : Line L), lines[i]? = some l → r[i]? = some l' →
      l'.labels = l.labels ∧
      (Matches names conds l → l'.data = l.data.map (fun x => x * factor)) ∧
      (¬ Matches names conds l → l' = l) := by
  simp only [multiplyFactor] at h
  split at h
  · simp at h
  · rename_i m hm
    have hm' := (maskLoop_eq names lines conds (fun _ => true)).1 m hm
    split at h
    · simp at h
    · cases h
      subst hm'
      have hz := zipWith_map_left
        (fun m (l : Line L) => if m = true then { l with data := l.data.map (fun x => x * factor) } else l)
        (fun l : Line L => true && conds.all (fun c =>
          decide (∃ i, names.idxOf? c.1 = some i ∧ l.labels[i]? = some c.2))) lines id
      simp only [List.map_id, id] at hz
      rw [hz]
      refine ⟨by simp, ?_⟩
      intro i l l' hl hl'
      simp only [List.getElem?_map, hl, Option.map_some, Option.some.injEq] at hl'
      subst hl'
      have hiff : (true && conds.all (fun c =>
          decide (∃ i, names.idxOf? c.1 = some i ∧ l.labels[i]? = some c.2))) = true ↔
          Matches names conds l := by
        simp [Matches, List.all_eq_true]
      refine ⟨by split <;> rfl, fun hM => ?_, fun hM => ?_⟩
      · rw [if_pos (hiff.2 hM)]
      · rw [if_neg (fun x => hM (hiff.1 x))]

/-- C12: with known level names the call fails exactly when missing lines are to be
reported and no line matches, and the error is a `ValueError`. -/
theorem C12_error_iff (names : List Str) (lines : List (Line L)) (conds : Dict Str L)
    (factor : ℚ) (raise : Bool) (hk : ∀ c ∈ conds, c.1 ∈ names) :
    (∃ e, multiplyFactor names lines conds factor raise = .error e) ↔
      raise = true ∧ ∀ l ∈ lines, ¬ Matches names conds l := by
  simp only [multiplyFactor]
  cases hm : maskLoop names lines (lines.map (fun _ => true)) conds with
  | error e =>
    obtain ⟨_, c, hc, hn⟩ := (maskLoop_eq names lines conds (fun _ => true)).2 e hm
    exact absurd (hk c hc) hn
  | ok m =>
    have hm' := (maskLoop_eq names lines conds (fun _ => true)).1 m hm
    subst hm'
    have hiff : (lines.map (fun l => true && conds.all (fun c =>
        decide (∃ i, names.idxOf? c.1 = some i ∧ l.labels[i]? = some c.2)))).all (fun b => b == false)
          = true ↔ ∀ l ∈ lines, ¬ Matches names conds l := by
      rw [List.all_map, List.all_eq_true]
      apply forall_congr'
      intro l
      apply imp_congr_right
      intro _
      simp [Matches]
    simp only
    split
    · rename_i hc
      rw [Bool.and_eq_true] at hc
      exact ⟨fun _ => ⟨hc.2, hiff.1 hc.1⟩, fun _ => ⟨_, rfl⟩⟩
    · rename_i hc
      rw [Bool.and_eq_true] at hc
      refine ⟨fun ⟨e, he⟩ => by simp at he, fun ⟨h1, h2⟩ => absurd ⟨hiff.2 h2, h1⟩ hc⟩

end

example : multiplyFactor [str "dv", str "loc"]
    [⟨[1, 5], [10, 20]⟩, ⟨[2, 5], [30, 40]⟩, ⟨[1, 6], [50, 60]⟩] [(str "dv", 1), (str "loc", 5)] 2 true =
    .ok [⟨[1, 5], [20, 40]⟩, ⟨[2, 5], [30, 40]⟩, ⟨[1, 6], [50, 60]⟩] := by decide +kernel
example : multiplyFactor [str "dv"] [⟨[1], [10]⟩] [(str "dv", 3)] 2 true = .error .valueError := by
  decide +kernel

end Verif.Units
