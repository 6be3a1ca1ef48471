import Verif.Model.AsmProcess
import Verif.Props.LossParams
import Verif.Props.DemandGen

/-! # Lemmas about correlated sets, names with dashes and replacing words -/

namespace Verif.UQ

theorem forall₂_imp_mem {α β : Type} {R S : α → β → Prop} {l : List α} {l' : List β} (h : List.Forall₂ R l l') :
    (∀ a ∈ l, ∀ b, R a b → S a b) → List.Forall₂ S l l' := by
  induction h with
  | nil => intro _; exact .nil
  | cons hr _ ih =>
    intro hs
    exact .cons (hs _ (by simp) _ hr) (ih fun a ha => hs a (List.mem_cons_of_mem _ ha))

section
variable {F : Type} [Field F] [LinearOrder F]

theorem setRows_self {vs : List (RV F)} (hnd : (vs.map RV.name).Nodup) {rows : List (List F)} {uni : Dict Str (List F)}
    {j : Nat} {v : RV F} {u : List F} (hv : vs[j]? = some v) (hu : rows[j]? = some u) :
    (setRows vs rows uni).get? v.name = some u := by
  induction vs generalizing rows uni j with
  | nil => simp at hv
  | cons w vs ih =>
    rw [List.map_cons, List.nodup_cons] at hnd
    cases rows with
    | nil => simp at hu
    | cons r rows =>
      simp only [setRows]
      cases j with
      | zero =>
        simp only [List.getElem?_cons_zero, Option.some.injEq] at hv hu
        subst hv; subst hu
        rw [setRows_get? vs rows _ w.name (fun x hx e => hnd.1 (e ▸ List.mem_map_of_mem hx)), Dict.get?_set, if_pos rfl]
      | succ j => exact ih hnd.2 (by simpa using hv) (by simpa using hu)

/-- With disjoint sets of variables that are their own anchors, each set is correlated by itself. -/
theorem applySets_disjoint (sets : List (RVSet F)) : ∀ (uni uni' : Dict Str (List F)),
    (∀ s ∈ sets, ∀ v ∈ s.members, v.root = v) → (∀ s ∈ sets, (s.members.map RV.name).Nodup) →
    sets.Pairwise (fun s t => ∀ v ∈ s.members, ∀ w ∈ t.members, v.name ≠ w.name) →
    applySets sets uni = .ok uni' →
    ∀ s ∈ sets, ∃ rows, List.Forall₂ (fun (v : RV F) row => uni.get? v.name = some row) s.members rows ∧
      ∀ (j : Nat) (v : RV F) (u : List F), s.members[j]? = some v → (s.copula rows)[j]? = some u → uni'.get? v.name = some u := by
  induction sets with
  | nil => intro uni uni' _ _ _ _ s hs; simp at hs
  | cons t sets ih =>
    intro uni uni' hroot hnd hdis h s hs
    rw [List.pairwise_cons] at hdis
    simp only [applySets] at h
    cases hc : applyCorrelation t uni with
    | error e => rw [hc] at h; simp at h
    | ok u1 =>
      rw [hc] at h
      simp only at h
      unfold applyCorrelation at hc
      split at hc
      · simp at hc
      · rename_i rows hrows
        cases hc
        rcases List.mem_cons.1 hs with rfl | hs
        · refine ⟨rows, ?_, ?_⟩
          · refine forall₂_imp_mem (mapE_ok_iff.1 hrows) ?_
            intro v hv row h1
            unfold Registry.uniOf at h1
            rw [hroot s (by simp) v hv] at h1
            cases hg : uni.get? v.name with
            | none => rw [hg] at h1; simp at h1
            | some r => rw [hg] at h1; simp only [Except.ok.injEq] at h1; rw [h1]
          · intro j v u hv hu
            rw [applySets_get? sets _ _ v.name (fun t' ht w hw e =>
              hdis.1 t' ht v (List.mem_of_getElem? hv) w hw e.symm) h]
            exact setRows_self (hnd s (by simp)) hv hu
        · obtain ⟨rows', g1, g2⟩ := ih _ _ (fun s hs => hroot s (List.mem_cons_of_mem _ hs))
            (fun s hs => hnd s (List.mem_cons_of_mem _ hs)) hdis.2 h s hs
          refine ⟨rows', ?_, g2⟩
          refine forall₂_imp_mem g1 ?_
          intro v hv row hg
          rw [← hg, setRows_get? t.members _ uni v.name (fun w hw => hdis.1 s hs w hw v hv)]

/-- Correlating never fails if all members have uniform samples. -/
theorem applySets_runs (sets : List (RVSet F)) : ∀ (uni : Dict Str (List F)),
    (∀ s ∈ sets, ∀ v ∈ s.members, (uni.get? v.root.name).isSome = true) → ∃ uni', applySets sets uni = .ok uni' := by
  induction sets with
  | nil => intro uni _; exact ⟨uni, rfl⟩
  | cons t sets ih =>
    intro uni h
    have : ∃ rows, applyCorrelation t uni = .ok (setRows t.members (t.copula rows) uni) := by
      unfold applyCorrelation
      split
      · rename_i e he
        obtain ⟨v, hv, hve⟩ := mapE_error he
        have := h t (by simp) v hv
        unfold Registry.uniOf at hve
        cases hg : uni.get? v.root.name with
        | none => rw [hg] at this; simp at this
        | some r => rw [hg] at hve; simp at hve
      · exact ⟨_, rfl⟩
    obtain ⟨rows, hr⟩ := this
    simp only [applySets, hr]
    refine ih _ ?_
    intro s hs v hv
    exact setRows_isSome _ _ _ _ (h s (List.mem_cons_of_mem _ hs) v hv)

end

/-! ### Words in joined labels -/

theorem infix_append_sep {w a b : Str} {c : Char} (hw : c ∉ w) (h : w <:+: a ++ c :: b) : w <:+: a ∨ w <:+: b := by
  obtain ⟨s, t, h⟩ := h
  rw [List.append_assoc, List.append_eq_append_iff] at h
  rcases h with ⟨m, rfl, h⟩ | ⟨m, h1, h2⟩
  · rw [List.append_eq_append_iff] at h
    rcases h with ⟨m', rfl, _⟩ | ⟨m', h1, h2⟩
    · exact .inl ⟨s, m', by simp⟩
    · cases m' with
      | nil => rw [List.append_nil] at h1; exact .inl ⟨s, [], by simp [h1]⟩
      | cons x m' =>
        simp only [List.cons_append, List.cons.injEq] at h2
        exact absurd (by rw [h1, h2.1]; simp) hw
  · cases m with
    | nil =>
      cases w with
      | nil => exact .inl ⟨[], a, by simp⟩
      | cons x w =>
        simp only [List.nil_append, List.cons_append, List.cons.injEq] at h2
        exact absurd (by rw [h2.1]; simp) hw
    | cons x m =>
      simp only [List.cons_append, List.cons.injEq] at h2
      exact .inr ⟨m, t, by rw [h2.2]; simp⟩

theorem infix_join {w : Str} {c : Char} (hw : c ∉ w) (hne : w ≠ []) : ∀ {l : List Str}, w <:+: joinChar c l → ∃ p ∈ l, w <:+: p := by
  intro l
  induction l with
  | nil =>
    intro h
    simp only [joinChar, List.infix_nil] at h
    exact absurd h hne
  | cons p l ih =>
    intro h
    cases l with
    | nil => exact ⟨p, by simp, by simpa [joinChar] using h⟩
    | cons q l =>
      simp only [joinChar] at h
      rcases infix_append_sep hw h with h | h
      · exact ⟨p, by simp, h⟩
      · obtain ⟨r, hr, hr'⟩ := ih h
        exact ⟨r, List.mem_cons_of_mem _ hr, hr'⟩

/-- Replacing a word that does not occur. -/
theorem replace_none {w r : Str} : ∀ {s : Str}, ¬ w <:+: s → AsmProcess.replaceFrom w r 0 s = s := by
  intro s
  induction s with
  | nil => intro _; rfl
  | cons c s ih =>
    intro h
    have h1 : w.isPrefixOf (c :: s) = false := by
      cases hp : w.isPrefixOf (c :: s) with
      | false => rfl
      | true => exact absurd (List.IsPrefix.isInfix (List.isPrefixOf_iff_prefix.1 hp)) h
    simp only [AsmProcess.replaceFrom, h1, Bool.false_eq_true, if_false]
    rw [ih (fun h' => h (List.infix_cons h'))]

/-- The number of parts of a joined name, when it is split again. -/
theorem split_join_length (c : Char) : ∀ (l : List Str), l ≠ [] →
    (splitChar c (joinChar c l)).length = l.length + (l.map fun p => p.count c).sum := by
  have happ : ∀ (a b : Str), (splitChar c (a ++ c :: b)).length = (splitChar c a).length + (splitChar c b).length := by
    intro a b
    induction a with
    | nil => simp [splitChar]; omega
    | cons x a ih =>
      simp only [List.cons_append, splitChar]
      by_cases hx : x = c
      · simp only [if_pos hx, List.length_cons, ih]; omega
      · simp only [if_neg hx]
        cases h1 : splitChar c (a ++ c :: b) with
        | nil => exact absurd h1 (splitChar_ne_nil _ _)
        | cons y ys =>
          cases h2 : splitChar c a with
          | nil => exact absurd h2 (splitChar_ne_nil _ _)
          | cons z zs =>
            rw [h1, h2] at ih
            simpa using ih
  have hone : ∀ a : Str, (splitChar c a).length = 1 + a.count c := by
    intro a
    induction a with
    | nil => simp [splitChar]
    | cons x a ih =>
      simp only [splitChar]
      by_cases hx : x = c
      · subst hx; simp only [if_true, List.length_cons, ih, List.count_cons_self]; omega
      · simp only [if_neg hx]
        rw [List.count_cons_of_ne hx]
        cases h2 : splitChar c a with
        | nil => exact absurd h2 (splitChar_ne_nil _ _)
        | cons z zs => rw [h2] at ih; simpa using ih
  intro l hne
  induction l with
  | nil => exact absurd rfl hne
  | cons p l ih =>
    cases l with
    | nil => simp [joinChar, hone]
    | cons q l =>
      simp only [joinChar]
      rw [happ, hone, ih (by simp)]
      simp only [List.length_cons, List.map_cons, List.sum_cons]
      omega

end Verif.UQ
