import Verif.Model.LossDev
import Verif.Lemmas.UQSets

/-! # The sample of deviations: lemmas -/

namespace Verif.LossDev

open Verif.UQ Verif.FileIO Verif.LossDs
open Verif.DemandGen (rvSample)

/-! ### Replacing "Cost" with "Time" -/

theorem prefix_replace : ∀ {s w : Str}, 'T' ∉ w →
    w <+: AsmProcess.replaceFrom (str "Cost") (str "Time") 0 s → w <+: s := by
  intro s
  induction s with
  | nil => intro w _ h; simpa [AsmProcess.replaceFrom] using h
  | cons c s ih =>
    intro w hw h
    simp only [AsmProcess.replaceFrom] at h
    split at h
    · cases w with
      | nil => exact List.nil_prefix
      | cons x w =>
        have h' : x :: w <+: 'T' :: ('i' :: 'm' :: 'e' :: AsmProcess.replaceFrom (str "Cost") (str "Time") ((str "Cost").length - 1) s) := h
        rw [List.cons_prefix_cons] at h'
        rw [h'.1] at hw
        simp at hw
    · cases w with
      | nil => exact List.nil_prefix
      | cons x w =>
        rw [List.cons_prefix_cons] at h ⊢
        exact ⟨h.1, ih (fun hh => hw (List.mem_cons_of_mem _ hh)) h.2⟩

/-- No "Cost" is left. -/
theorem replace_no_cost : ∀ (s : Str) (k : Nat),
    ¬ str "Cost" <:+: AsmProcess.replaceFrom (str "Cost") (str "Time") k s := by
  intro s
  induction s with
  | nil =>
    intro k h
    have : AsmProcess.replaceFrom (str "Cost") (str "Time") k [] = [] := by cases k <;> rfl
    rw [this, List.infix_nil] at h
    exact absurd h (by decide)
  | cons c s ih =>
    intro k
    cases k with
    | succ k => exact ih k
    | zero =>
      intro h
      have h0 := h
      simp only [AsmProcess.replaceFrom] at h
      split at h
      · have h' : str "Cost" <:+: 'T' :: ('i' :: 'm' :: 'e' :: AsmProcess.replaceFrom (str "Cost") (str "Time") ((str "Cost").length - 1) s) := h
        have step : ∀ {x : Char} {l : Str}, x ≠ 'C' → str "Cost" <:+: x :: l → str "Cost" <:+: l := by
          intro x l hx hi
          rcases List.infix_cons_iff.1 hi with hp | hi
          · have : 'C' :: ['o', 's', 't'] <+: x :: l := hp
            rw [List.cons_prefix_cons] at this
            exact absurd this.1.symm hx
          · exact hi
        exact ih _ (step (by decide) (step (by decide) (step (by decide) (step (by decide) h'))))
      · rename_i hnp
        rcases List.infix_cons_iff.1 h with hp | hi
        · have hp0 : str "Cost" <+: AsmProcess.replaceFrom (str "Cost") (str "Time") 0 (c :: s) := by
            simp only [AsmProcess.replaceFrom, if_neg hnp]; exact hp
          exact hnp (List.isPrefixOf_iff_prefix.2 (prefix_replace (by decide) hp0))
        · exact ih 0 hi

theorem timeName_no_cost (s : Str) : ¬ str "Cost" <:+: timeName s := replace_no_cost s 0

theorem timeName_cost {s : Str} (h : ¬ str "Cost" <:+: s) : timeName (str "Cost" ++ s) = str "Time" ++ s := by
  have h1 : (str "Cost").isPrefixOf ('C' :: 'o' :: 's' :: 't' :: s) = true :=
    List.isPrefixOf_iff_prefix.2 ⟨s, rfl⟩
  show AsmProcess.replaceFrom (str "Cost") (str "Time") 0 ('C' :: 'o' :: 's' :: 't' :: s) = _
  simp only [AsmProcess.replaceFrom, h1, if_true]
  show str "Time" ++ AsmProcess.replaceFrom (str "Cost") (str "Time") 0 s = _
  rw [replace_none h]

section
variable {F : Type} [Field F] [LinearOrder F]

/-! ### Creating the variables -/

theorem kindOf_plain {family : Str} {theta : List F} {k : RVKind F} (h : kindOf family theta = .ok k) :
    k.utility = false ∧ k.isMultinomial = false := by
  unfold kindOf at h
  split at h
  · split at h
    · rename_i m c _ 
      cases hc : covStd m c with
      | error e => rw [hc] at h; simp [Except.map] at h
      | ok s => rw [hc] at h; simp only [Except.map, Except.ok.injEq] at h; subst h; exact ⟨rfl, rfl⟩
    · simp at h
  · split at h
    · split at h
      · cases h; exact ⟨rfl, rfl⟩
      · simp at h
    · split at h <;> simp at h

theorem addVars_spec (vs : List (DvVar F)) : ∀ r r' : Registry F, RegInv r → addVars vs r = .ok r' →
    RegInv r' ∧ r'.sets = r.sets ∧ r'.samples = r.samples ∧ r'.uni = r.uni ∧
    ∃ ks, List.Forall₂ (fun (v : DvVar F) k => kindOf v.family v.theta = .ok k) vs ks ∧
      r'.vars = r.vars ++ (vs.zip ks).map (fun x => (name x.1.label, .mk (name x.1.label) x.2 none)) := by
  induction vs with
  | nil =>
    intro r r' hr h
    simp only [addVars, Except.ok.injEq] at h
    subst h
    exact ⟨hr, rfl, rfl, rfl, [], .nil, by simp⟩
  | cons v vs ih =>
    intro r r' hr h
    simp only [addVars] at h
    cases hk : kindOf v.family v.theta with
    | error x => rw [hk] at h; simp at h
    | ok k =>
      rw [hk] at h
      simp only at h
      cases ha : r.addRV (.mk (name v.label) k none) with
      | error x => rw [ha] at h; simp at h
      | ok r1 =>
        rw [ha] at h
        simp only at h
        obtain ⟨h1, h2⟩ := addRV_inv hr ha
        have h3 : r1.sets = r.sets ∧ r1.samples = r.samples ∧ r1.uni = r.uni := by
          unfold Registry.addRV at ha
          split at ha
          · simp at ha
          · cases ha; exact ⟨rfl, rfl, rfl⟩
        obtain ⟨g1, g2, g3, g4, ks, g5, g6⟩ := ih r1 r' h1 h
        refine ⟨g1, g2.trans h3.1, g3.trans h3.2.1, g4.trans h3.2.2, k :: ks, .cons hk g5, ?_⟩
        rw [g6, h2]
        simp [RV.name]

/-- The set of a variable, if it is one for cost that has a counterpart. -/
def pairOf (levels : Nat) (copula : List (List F) → List (List F)) (vars : Dict Str (RV F)) (x : Str) : Option (RVSet F) :=
  if (str "Cost").isPrefixOf x then
    match vars.get? x, vars.get? (timeName x) with
    | some c, some t => some ⟨setName levels x, pySort (fun a b => strLe a.name b.name) [c, t], copula⟩
    | _, _ => none
  else none

theorem addPairs_cons (levels : Nat) (copula : List (List F) → List (List F)) (x : Str) (l : List Str) (r : Registry F) :
    addPairs levels copula (x :: l) r = addPairs levels copula l (match pairOf levels copula r.vars x with
      | some s => r.addRVSet s
      | none => r) := by
  simp only [addPairs, pairOf]
  by_cases hc : (str "Cost").isPrefixOf x = true
  · simp only [hc, if_true]
    cases r.vars.get? x with
    | none => rfl
    | some c =>
      cases r.vars.get? (timeName x) with
      | none => rfl
      | some t => rfl
  · simp only [hc]; rfl

theorem mem_set {κ ν : Type} [DecidableEq κ] {d : Dict κ ν} {k : κ} {v : ν} {p : κ × ν} (h : p ∈ d.set k v) :
    p = (k, v) ∨ p ∈ d := by
  induction d with
  | nil => simp only [Dict.set, List.mem_singleton] at h; exact .inl h
  | cons q d ih =>
    simp only [Dict.set] at h
    split at h
    · rcases List.mem_cons.1 h with h | h
      · rename_i e _; rw [e] at h; exact .inl h
      · exact .inr (List.mem_cons_of_mem _ h)
    · rcases List.mem_cons.1 h with h | h
      · exact .inr (by rw [h]; simp)
      · rcases ih h with h | h
        · exact .inl h
        · exact .inr (List.mem_cons_of_mem _ h)

/-- Which sets there are: at most one of each variable for cost. -/
theorem addPairs_weak (levels : Nat) (copula : List (List F) → List (List F)) (l : List Str) : ∀ (r : Registry F),
    (addPairs levels copula l r).vars = r.vars ∧ (addPairs levels copula l r).samples = r.samples ∧
    (addPairs levels copula l r).uni = r.uni ∧
    ∀ p ∈ (addPairs levels copula l r).sets, p ∈ r.sets ∨ ∃ x ∈ l, pairOf levels copula r.vars x = some p.2 := by
  induction l with
  | nil => intro r; exact ⟨rfl, rfl, rfl, fun p hp => .inl hp⟩
  | cons x l ih =>
    intro r
    rw [addPairs_cons]
    cases hx : pairOf levels copula r.vars x with
    | none =>
      obtain ⟨h1, h2, h3, h4⟩ := ih r
      refine ⟨h1, h2, h3, fun p hp => ?_⟩
      rcases h4 p hp with h | ⟨y, hy, h⟩
      · exact .inl h
      · exact .inr ⟨y, List.mem_cons_of_mem _ hy, h⟩
    | some s =>
      obtain ⟨h1, h2, h3, h4⟩ := ih (r.addRVSet s)
      refine ⟨h1, h2, h3, fun p hp => ?_⟩
      rcases h4 p hp with h | ⟨y, hy, h⟩
      · simp only [Registry.addRVSet] at h
        rcases mem_set h with h | h
        · subst h; exact .inr ⟨x, by simp, hx⟩
        · exact .inl h
      · exact .inr ⟨y, List.mem_cons_of_mem _ hy, h⟩

theorem pairOf_name {levels : Nat} {copula : List (List F) → List (List F)} {vars : Dict Str (RV F)} {x : Str} {s : RVSet F}
    (h : pairOf levels copula vars x = some s) : (str "Cost").isPrefixOf x = true ∧ ∃ c t, vars.get? x = some c ∧
      vars.get? (timeName x) = some t ∧ s = ⟨setName levels x, pySort (fun a b => strLe a.name b.name) [c, t], copula⟩ := by
  unfold pairOf at h
  split at h
  · rename_i hc
    split at h
    · rename_i c t h1 h2
      cases h
      exact ⟨hc, c, t, h1, h2, rfl⟩
    · simp at h
  · simp at h

/-- With different names of the sets, each pair has its set. -/
theorem addPairs_strong (levels : Nat) (copula : List (List F) → List (List F)) (l : List Str) : ∀ (r : Registry F), l.Nodup →
    (∀ x ∈ l, ∀ y ∈ l, (pairOf levels copula r.vars x).isSome → (pairOf levels copula r.vars y).isSome →
      setName levels x = setName levels y → x = y) →
    (∀ x ∈ l, (pairOf levels copula r.vars x).isSome → setName levels x ∉ r.sets.keys) →
    (addPairs levels copula l r).sets.map Prod.snd = r.sets.map Prod.snd ++ l.filterMap (pairOf levels copula r.vars) := by
  induction l with
  | nil => intro r _ _ _; simp [addPairs]
  | cons x l ih =>
    intro r hnd hinj hnew
    rw [List.nodup_cons] at hnd
    rw [addPairs_cons]
    cases hx : pairOf levels copula r.vars x with
    | none =>
      rw [ih r hnd.2 (fun a ha b hb => hinj a (List.mem_cons_of_mem _ ha) b (List.mem_cons_of_mem _ hb))
        (fun a ha => hnew a (List.mem_cons_of_mem _ ha))]
      simp [List.filterMap_cons, hx]
    | some s =>
      obtain ⟨_, c, t, _, _, hs⟩ := pairOf_name hx
      have hk : s.name ∉ r.sets.keys := by
        rw [hs]; exact hnew x (by simp) (by rw [hx]; rfl)
      have hset : (r.addRVSet s).sets = r.sets ++ [(s.name, s)] := by
        simp only [Registry.addRVSet]
        rw [Dict.set_of_not_mem hk]
      have hv : (r.addRVSet s).vars = r.vars := rfl
      simp only
      rw [ih (r.addRVSet s) hnd.2 (fun a ha b hb => by
          rw [hv]; exact hinj a (List.mem_cons_of_mem _ ha) b (List.mem_cons_of_mem _ hb)) (by
          intro a ha hsome
          rw [hv] at hsome
          rw [hset]
          intro hh
          simp only [Dict.keys, List.map_append, List.map_cons, List.map_nil, List.mem_append, List.mem_singleton] at hh
          rcases hh with hh | hh
          · exact hnew a (List.mem_cons_of_mem _ ha) hsome hh
          · rw [hs] at hh
            have := hinj a (List.mem_cons_of_mem _ ha) x (by simp) hsome (by rw [hx]; rfl) hh
            rw [this] at ha
            exact hnd.1 ha), hset, hv]
      simp [List.filterMap_cons, hx]

variable [FloorRing F]

/-- The sample of variables that are their own anchors. -/
theorem generate_core (N : Num F) {r r' : Registry F} {n : Nat} {m : Method} {perm : Nat → List Nat}
    {jitter : Nat → List F} (hr : RegInv r)
    (hself : ∀ v ∈ r.vars.map Prod.snd, v.selfAnchored = true ∧ v.root = v)
    (hk : ∀ v ∈ r.vars.map Prod.snd, v.kind.utility = false ∧ v.kind.isMultinomial = false)
    (h : generateSample N r n m perm jitter = .ok r') :
    ∃ u0 uni, assignUni m n perm jitter 0 (r.vars.map Prod.fst) r.uni = .ok u0 ∧
      applySets (r.sets.map Prod.snd) u0 = .ok uni ∧
      ∀ v ∈ r.vars.map Prod.snd, ∃ u s, uni.get? v.name = some u ∧ v.kind.inverse N u = .ok (s, u) ∧
        r'.samples.get? v.name = some s := by
  unfold generateSample at h
  cases hd : drawUniform r n m perm jitter with
  | error e => rw [hd] at h; simp at h
  | ok uni =>
    rw [hd] at h
    simp only at h
    cases ht : transformAll N n (r.vars.map Prod.snd) (uni, r.samples) with
    | error e => rw [ht] at h; simp at h
    | ok st =>
      rw [ht] at h
      simp only [Except.ok.injEq] at h
      subst h
      unfold drawUniform at hd
      have hfree : r.free = r.vars.map Prod.fst := by
        unfold Registry.free
        rw [List.filter_eq_self.2]
        intro p hp
        simp [(hself p.2 (List.mem_map_of_mem hp)).1]
      rw [hfree] at hd
      cases ha : assignUni m n perm jitter 0 (r.vars.map Prod.fst) r.uni with
      | error e => rw [ha] at hd; simp at hd
      | ok u0 =>
        rw [ha] at hd
        refine ⟨u0, uni, rfl, hd, fun v hv => ?_⟩
        obtain ⟨u, s, u', g1, g2, g3⟩ := transformAll_sample N n _ _ _ (DemandGen.names_nodup hr) ht v hv (hk v hv).1
          (DemandGen.own_uniform hr (fun w hw => (hself w hw).2) hv (hk v hv).2)
        rw [(hself v hv).2] at g1
        have := inverse_pure N v.kind (hk v hv).2 u u' s g2
        subst this
        exact ⟨u', s, g1, g2, g3⟩

omit [FloorRing F] in
/-- Names of the expected number of parts are not split anywhere else. -/
theorem stdSample_spec {levels : Nat} (hl : 1 ≤ levels) {labels : List Label} (hlen : ∀ l ∈ labels, l.length = levels + 1)
    {f : Str → List (Ext F)} {std : List (Label × List (Ext F))}
    (h : stdSample levels (labels.map fun l => (name l, f (name l))) = .ok std) :
    (∀ l ∈ labels, ∀ p ∈ l, '-' ∉ p) ∧ std = labels.map fun l => (l, f (name l)) := by
  unfold stdSample at h
  have hn : (labels.map fun l => (name l, f (name l))).map Prod.fst = labels.map name := by
    rw [List.map_map]; rfl
  have hs : (labels.map fun l => (name l, f (name l))).map Prod.snd = labels.map fun l => f (name l) := by
    rw [List.map_map]; rfl
  rw [hn, hs] at h
  unfold Labels.toMulti at h
  by_cases hne : labels.map name = []
  · simp [hne] at h
  · simp only [hne, if_false] at h
    have hdash : Labels.maxLen ((labels.map name).map (splitChar '-')) = levels + 1 → ∀ l ∈ labels, ∀ p ∈ l, '-' ∉ p := by
      intro hm l hl' p hp
      have h1 := Labels.maxLen_ge _ (splitChar '-' (name l)) (List.mem_map_of_mem (List.mem_map_of_mem hl'))
      rw [hm] at h1
      unfold name at h1
      rw [split_join_length '-' l (by intro e; rw [e] at hp; simp at hp), hlen l hl'] at h1
      have h2 : (l.map fun q => q.count '-').sum = 0 := by omega
      have h3 : p.count '-' = 0 := by
        have : p.count '-' ∈ l.map fun q => q.count '-' := List.mem_map_of_mem (f := fun q => q.count '-') hp
        exact List.sum_eq_zero_iff.1 h2 _ this
      exact List.count_eq_zero.1 h3
    by_cases hm : Labels.maxLen ((labels.map name).map (splitChar '-')) = levels + 1
    · have hd := hdash hm
      rw [hm] at h
      have hgt : levels + 1 > 1 := by omega
      simp only [hgt, if_true, Except.ok.injEq] at h
      refine ⟨hd, ?_⟩
      rw [← h]
      have hpad : ((labels.map name).map (splitChar '-')).map (Labels.pad (levels + 1)) = labels.map id := by
        rw [List.map_map, List.map_map]
        refine List.map_congr_left ?_
        intro l hl'
        have hne' : l ≠ [] := by intro e; have := hlen l hl'; rw [e] at this; simp at this
        simp only [Function.comp, name, id]
        rw [split_join '-' l hne' (hd l hl')]
        simp [Labels.pad, hlen l hl']
      rw [hpad, List.zip_map']
      rfl
    · by_cases hgt : Labels.maxLen ((labels.map name).map (splitChar '-')) > 1
      · simp only [hgt, if_true, hm, if_false] at h
        simp at h
      · simp only [hgt, if_false] at h
        simp at h

omit [Field F] [LinearOrder F] [FloorRing F] in
theorem zip_get {α β : Type} : ∀ {l : List α} {ks : List β} {j : Nat} {a : α} {k : β}, l[j]? = some a → ks[j]? = some k →
    (l.zip ks)[j]? = some (a, k) := by
  intro l ks j a k h1 h2
  rw [List.getElem?_zip_eq_some]
  exact ⟨h1, h2⟩

omit [Field F] [LinearOrder F] [FloorRing F] in
theorem name_inj {l l' : Label} (hl : l ≠ []) (hl' : l' ≠ []) (h : ∀ p ∈ l, '-' ∉ p) (h' : ∀ p ∈ l', '-' ∉ p)
    (e : name l = name l') : l = l' := by
  have := congrArg (splitChar '-') e
  unfold name at this
  rwa [split_join '-' l hl h, split_join '-' l' hl' h'] at this

/-- What a successful sampling of deviations leaves behind.  `d` are the rows drawn for the variables in
the order of their registration, `u` the rows after the copula. -/
theorem devSample_spec (N : Num F) {levels : Nat} (hl : 1 ≤ levels) {vars : List (DvVar F)}
    (hlen : ∀ v ∈ vars, v.label.length = levels + 1) {corr : Option (List (List F) → List (List F))} {n : Nat}
    {m : Method} {perm : Nat → List Nat} {jitter : Nat → List F} {std : List (Label × List (Ext F))}
    (h : devSample N levels vars corr n m perm jitter = .ok std) :
    (vars.map DvVar.label).Nodup ∧ (∀ v ∈ vars, ∀ p ∈ v.label, '-' ∉ p) ∧
    ∃ (reg : Dict Str (RV F)) (u0 uni : Dict Str (List F)) (sets : List (RVSet F)),
      reg.map Prod.fst = vars.map (fun v => name v.label) ∧ reg.NoDupKeys ∧
      (∀ p ∈ reg, p.1 = p.2.name) ∧ (∀ p ∈ reg, p.2.root = p.2) ∧
      (corr = none → sets = []) ∧
      (∀ C, corr = some C → (∀ s ∈ sets, ∃ x ∈ reg.map Prod.fst, pairOf levels C reg x = some s) ∧
        ((∀ x ∈ reg.map Prod.fst, ∀ y ∈ reg.map Prod.fst, (pairOf levels C reg x).isSome → (pairOf levels C reg y).isSome →
          setName levels x = setName levels y → x = y) → sets = (reg.map Prod.fst).filterMap (pairOf levels C reg))) ∧
      applySets sets u0 = .ok uni ∧
      ∀ (j : Nat) (v : DvVar F), vars[j]? = some v → ∃ k d u s, kindOf v.family v.theta = .ok k ∧
        drawRow m n (perm j) (jitter j) = .ok d ∧ u0.get? (name v.label) = some d ∧ uni.get? (name v.label) = some u ∧
        k.inverse N u = .ok (s, u) ∧ Dict.get? std v.label = some s := by
  unfold devSample at h
  cases hc : createRVs levels vars corr with
  | error e => rw [hc] at h; simp at h
  | ok r =>
    rw [hc] at h
    simp only at h
    by_cases hv : vars = []
    · subst hv
      refine ⟨by simp, by simp, [], [], [], [], rfl, by simp [Dict.NoDupKeys, Dict.keys], by simp, by simp, fun _ => rfl, ?_, rfl, by simp⟩
      intro C _
      exact ⟨by simp, fun _ => rfl⟩
    · rw [if_neg hv] at h
      unfold createRVs at hc
      cases ha : addVars vars ({} : Registry F) with
      | error e => rw [ha] at hc; simp at hc
      | ok r0 =>
        rw [ha] at hc
        simp only at hc
        obtain ⟨a1, a2, a3, a4, ks, a5, a6⟩ := addVars_spec vars {} r0 RegInv.empty ha
        have a6' : r0.vars = (vars.zip ks).map (fun x => (name x.1.label, .mk (name x.1.label) x.2 none)) := by
          rw [a6]; rfl
        have hr : r.vars = r0.vars ∧ r.uni = r0.uni ∧ (corr = none → r.sets = []) ∧
            ∀ C, corr = some C → (∀ p ∈ r.sets, ∃ x ∈ r0.vars.map Prod.fst, pairOf levels C r0.vars x = some p.2) ∧
              ((∀ x ∈ r0.vars.map Prod.fst, ∀ y ∈ r0.vars.map Prod.fst, (pairOf levels C r0.vars x).isSome →
                (pairOf levels C r0.vars y).isSome → setName levels x = setName levels y → x = y) →
                r.sets.map Prod.snd = (r0.vars.map Prod.fst).filterMap (pairOf levels C r0.vars)) := by
          cases corr with
          | none =>
            simp only [Except.ok.injEq] at hc
            subst hc
            exact ⟨rfl, rfl, fun _ => a2, fun C hC => by simp at hC⟩
          | some C =>
            simp only [Except.ok.injEq] at hc
            obtain ⟨b1, b2, b3, b4⟩ := addPairs_weak levels C (r0.vars.map Prod.fst) r0
            subst hc
            refine ⟨b1, b3, fun hh => by simp at hh, fun C' hC => ?_⟩
            cases hC
            constructor
            · intro p hp
              rcases b4 p hp with h | h
              · rw [a2] at h; simp at h
              · exact h
            · intro hinj
              rw [addPairs_strong levels C (r0.vars.map Prod.fst) r0 a1.1 hinj (by intro x _ _; rw [a2]; simp [Dict.keys]), a2]
              rfl
        obtain ⟨b1, b2, b3, b4⟩ := hr
        cases hg : generateSample N r n m perm jitter with
        | error e => rw [hg] at h; simp at h
        | ok r' =>
          rw [hg] at h
          simp only at h
          have hRI : RegInv r := by unfold RegInv; rw [b1]; exact a1
          have hmem : ∀ w ∈ r.vars.map Prod.snd, ∃ v ∈ vars, ∃ k, kindOf v.family v.theta = .ok k ∧ w = .mk (name v.label) k none := by
            intro w hw
            rw [b1, a6', List.map_map, List.mem_map] at hw
            obtain ⟨x, hx, rfl⟩ := hw
            exact ⟨x.1, (List.of_mem_zip hx).1, x.2, (List.forall₂_iff_zip.1 a5).2 hx, rfl⟩
          have hnames : r.vars.map Prod.fst = vars.map fun v => name v.label := by
            rw [b1, a6', List.map_map]
            exact DemandGen.zip_fst_map (fun v : DvVar F => name v.label) vars ks a5.length_eq
          obtain ⟨u0, uni, c1, c2, c3⟩ := generate_core N hRI (by
              intro w hw
              obtain ⟨v, _, k, _, rfl⟩ := hmem w hw
              exact ⟨rfl, rfl⟩) (by
              intro w hw
              obtain ⟨v, _, k, hk, rfl⟩ := hmem w hw
              exact kindOf_plain hk) hg
          have hsample : rvSample r' = (vars.map DvVar.label).map fun l => (name l, (r'.samples.get? (name l)).getD []) := by
            unfold rvSample
            rw [DemandGen.generate_vars hg]
            have : r.vars.map (fun p => (p.1, (r'.samples.get? p.1).getD [])) =
                (r.vars.map Prod.fst).map fun x => (x, (r'.samples.get? x).getD []) := by rw [List.map_map]; rfl
            rw [this, hnames, List.map_map, List.map_map]
            rfl
          rw [hsample] at h
          obtain ⟨d1, d2⟩ := stdSample_spec (f := fun x => (r'.samples.get? x).getD []) hl (by
            intro l hl'
            obtain ⟨v, hv', rfl⟩ := List.mem_map.1 hl'
            exact hlen v hv') h
          have hndn : (vars.map fun v => name v.label).Nodup := by rw [← hnames]; exact hRI.1
          have hndl : (vars.map DvVar.label).Nodup := by
            have : (vars.map fun v => name v.label) = (vars.map DvVar.label).map name := by rw [List.map_map]; rfl
            rw [this] at hndn
            exact List.Nodup.of_map _ hndn
          refine ⟨hndl, fun v hv' => d1 _ (List.mem_map_of_mem hv'), r.vars, u0, uni, r.sets.map Prod.snd, hnames,
            hRI.1, hRI.2, ?_, ?_, ?_, c2, ?_⟩
          · intro p hp
            obtain ⟨v, _, k, _, e⟩ := hmem p.2 (List.mem_map_of_mem hp)
            rw [e]; rfl
          · intro hh; rw [b3 hh]; rfl
          · intro C hC
            obtain ⟨e1, e2⟩ := b4 C hC
            rw [b1]
            refine ⟨?_, e2⟩
            intro s hs
            obtain ⟨p, hp, rfl⟩ := List.mem_map.1 hs
            exact e1 p hp
          · intro j v hj
            obtain ⟨_, f2⟩ := assignUni_spec m n perm jitter (r.vars.map Prod.fst) 0 r.uni u0 hRI.1 c1
            obtain ⟨d, g1, g2⟩ := f2 j (name v.label) (by rw [hnames]; simp [hj])
            rw [Nat.zero_add] at g1
            have hjlt : j < ks.length := by
              rw [← a5.length_eq]
              exact (List.getElem?_eq_some_iff.1 hj).1
            have hk : ks[j]? = some ks[j] := List.getElem?_eq_getElem hjlt
            have hz := zip_get hj hk
            have hzm := List.mem_of_getElem? hz
            have hk' : kindOf v.family v.theta = .ok ks[j] := (List.forall₂_iff_zip.1 a5).2 hzm
            obtain ⟨u, s, g3, g4, g5⟩ := c3 (.mk (name v.label) ks[j] none) (by
              rw [b1, a6', List.map_map]
              exact List.mem_map.2 ⟨_, hzm, rfl⟩)
            refine ⟨ks[j], d, u, s, hk', g1, g2, g3, g4, ?_⟩
            rw [d2]
            refine Dict.get?_of_mem ?_ ?_
            · unfold Dict.NoDupKeys Dict.keys
              rw [List.map_map]
              have : (Prod.fst ∘ fun l : Label => (l, (r'.samples.get? (name l)).getD [])) = id := rfl
              rw [this, List.map_id]
              exact hndl
            · refine List.mem_map.2 ⟨v.label, List.mem_map_of_mem (List.mem_of_getElem? hj), ?_⟩
              have : r'.samples.get? (name v.label) = some s := g5
              rw [this]; rfl

omit [FloorRing F] in
/-- A property of rows that the copulas keep. -/
theorem applySets_keeps (P : List F → Prop) (names : List Str) (sets : List (RVSet F))
    (hs : ∀ s ∈ sets, (∀ w ∈ s.members, w.root = w ∧ w.name ∈ names) ∧ ∀ rs, (∀ r ∈ rs, P r) → ∀ r ∈ s.copula rs, P r) :
    ∀ uni uni' : Dict Str (List F), (∀ x ∈ names, ∀ row, uni.get? x = some row → P row) →
      applySets sets uni = .ok uni' → ∀ x ∈ names, ∀ row, uni'.get? x = some row → P row := by
  induction sets with
  | nil => intro uni uni' h hh; simp only [applySets, Except.ok.injEq] at hh; subst hh; exact h
  | cons s sets ih =>
    intro uni uni' h hh
    simp only [applySets] at hh
    cases hc : applyCorrelation s uni with
    | error e => rw [hc] at hh; simp at hh
    | ok u1 =>
      rw [hc] at hh
      simp only at hh
      refine ih (fun t ht => hs t (List.mem_cons_of_mem _ ht)) u1 uni' ?_ hh
      obtain ⟨hm, hcop⟩ := hs s (by simp)
      unfold applyCorrelation at hc
      split at hc
      · simp at hc
      · rename_i rows hrows
        simp only [Except.ok.injEq] at hc
        subst hc
        rw [mapE_ok_iff] at hrows
        have hP : ∀ r ∈ rows, P r := by
          intro r hr
          obtain ⟨w, hw, hwr⟩ := forall₂_mem_right hrows hr
          unfold Registry.uniOf at hwr
          rw [(hm w hw).1] at hwr
          split at hwr
          · rename_i row hrow
            simp only [Except.ok.injEq] at hwr
            subst hwr
            exact h _ (hm w hw).2 _ hrow
          · simp at hwr
        have hout := hcop rows hP
        generalize s.copula rows = out at hout
        have key : ∀ (vs : List (RV F)) (out : List (List F)) (un : Dict Str (List F)), (∀ r ∈ out, P r) →
            (∀ x ∈ names, ∀ row, un.get? x = some row → P row) →
            ∀ x ∈ names, ∀ row, (setRows vs out un).get? x = some row → P row := by
          intro vs
          induction vs with
          | nil => intro out un _ hu; simpa [setRows] using hu
          | cons v vs ih2 =>
            intro out un ho hu
            cases out with
            | nil => simpa [setRows] using hu
            | cons r out =>
              simp only [setRows]
              refine ih2 out _ (fun r' hr' => ho r' (List.mem_cons_of_mem _ hr')) ?_
              intro x hx row hrow
              rw [Dict.get?_set] at hrow
              split at hrow
              · cases hrow; exact ho r (by simp)
              · exact hu x hx row hrow
        exact key s.members out uni hout h

/-- "Cost" does not occur in a label, except as its decision variable. -/
def Plain (l : Label) : Prop :=
  (l.head? = some (str "Cost") ∨ ∀ a, l.head? = some a → ¬ str "Cost" <:+: a) ∧ ∀ p ∈ l.tail, ¬ str "Cost" <:+: p

omit [Field F] [LinearOrder F] [FloorRing F] in
theorem name_cons {a : Str} {rest : Label} (h : rest ≠ []) : name (a :: rest) = a ++ '-' :: name rest := by
  unfold name
  cases rest with
  | nil => exact absurd rfl h
  | cons b l => rfl

omit [Field F] [LinearOrder F] [FloorRing F] in
theorem cost_prefix {a : Str} {rest : Label} (h : rest ≠ []) (hp : (str "Cost").isPrefixOf (name (a :: rest)) = true) :
    str "Cost" <+: a := by
  rw [List.isPrefixOf_iff_prefix, name_cons h] at hp
  obtain ⟨t, ht⟩ := hp
  rw [List.append_eq_append_iff] at ht
  rcases ht with ⟨m, h1, _⟩ | ⟨m, h1, h2⟩
  · exact ⟨m, h1.symm⟩
  · cases m with
    | nil => rw [List.append_nil] at h1; exact ⟨[], by rw [List.append_nil]; exact h1⟩
    | cons x m =>
      simp only [List.cons_append, List.cons.injEq] at h2
      have : '-' ∈ str "Cost" := by rw [h1, h2.1]; simp
      exact absurd this (by decide)

omit [Field F] [LinearOrder F] [FloorRing F] in
theorem plain_cost {l : Label} (hl : 2 ≤ l.length) (hpl : Plain l) (hp : (str "Cost").isPrefixOf (name l) = true) :
    ∃ rest, l = str "Cost" :: rest ∧ rest ≠ [] ∧ timeName (name l) = name (str "Time" :: rest) := by
  cases l with
  | nil => simp at hl
  | cons a rest =>
    have hne : rest ≠ [] := by intro e; rw [e] at hl; simp at hl
    have ha := cost_prefix hne hp
    have hac : a = str "Cost" := by
      rcases hpl.1 with h | h
      · simpa using h
      · exact absurd ha.isInfix (h a rfl)
    subst hac
    refine ⟨rest, rfl, hne, ?_⟩
    rw [name_cons hne, name_cons hne, timeName_cost]
    intro hi
    rcases List.infix_cons_iff.1 hi with h | h
    · have : 'C' :: ['o', 's', 't'] <+: '-' :: name rest := h
      rw [List.cons_prefix_cons] at this
      exact absurd this.1 (by decide)
    · obtain ⟨p, hp', hi'⟩ := infix_join (by decide) (by decide) h
      exact hpl.2 p hp' hi'

omit [Field F] [LinearOrder F] [FloorRing F] in
theorem setName_cost {levels : Nat} {rest : Label} (hne : rest ≠ []) (hlen : rest.length = levels) (hd : ∀ p ∈ rest, '-' ∉ p) :
    setName levels (name (str "Cost" :: rest)) = str "DV-" ++ name rest ++ str "_set" := by
  unfold setName name
  rw [split_join '-' _ (by simp) (by
    intro p hp
    rcases List.mem_cons.1 hp with rfl | hp
    · decide
    · exact hd p hp)]
  simp [← hlen]

omit [Field F] [LinearOrder F] [FloorRing F] in
theorem cost_infix {l : Str} (h : (str "Cost").isPrefixOf l = true) : str "Cost" <:+: l :=
  (List.isPrefixOf_iff_prefix.1 h).isInfix

/-- The deviations by label.  `d` are the drawn rows, `u` those that are transformed. -/
theorem devSample_rows (N : Num F) {levels : Nat} (hl : 1 ≤ levels) {vars : List (DvVar F)}
    (hlen : ∀ v ∈ vars, v.label.length = levels + 1) {corr : Option (List (List F) → List (List F))} {n : Nat}
    {m : Method} {perm : Nat → List Nat} {jitter : Nat → List F} {std : List (Label × List (Ext F))}
    (h : devSample N levels vars corr n m perm jitter = .ok std) :
    (vars.map DvVar.label).Nodup ∧ (∀ v ∈ vars, ∀ p ∈ v.label, '-' ∉ p) ∧
    ∃ d u : Label → List F,
      (∀ (j : Nat) (v : DvVar F), vars[j]? = some v → ∃ k s, kindOf v.family v.theta = .ok k ∧
        drawRow m n (perm j) (jitter j) = .ok (d v.label) ∧ k.inverse N (u v.label) = .ok (s, u v.label) ∧
        Dict.get? std v.label = some s) ∧
      (corr = none → ∀ v ∈ vars, u v.label = d v.label) ∧
      (∀ P : List F → Prop, (∀ v ∈ vars, P (d v.label)) →
        (∀ C, corr = some C → ∀ rs, (∀ r ∈ rs, P r) → ∀ r ∈ C rs, P r) → ∀ v ∈ vars, P (u v.label)) ∧
      ∀ C, corr = some C →
        (∀ v ∈ vars,
          (∀ w ∈ vars, (str "Cost").isPrefixOf (name w.label) = true → name v.label ≠ timeName (name w.label)) →
          ((str "Cost").isPrefixOf (name v.label) = true → ∀ w ∈ vars, name w.label ≠ timeName (name v.label)) →
          u v.label = d v.label) ∧
        ((∀ v ∈ vars, Plain v.label) → ∀ rest a b, str "Cost" :: rest ∈ vars.map DvVar.label → str "Time" :: rest ∈ vars.map DvVar.label →
          C [d (str "Cost" :: rest), d (str "Time" :: rest)] = [a, b] →
          u (str "Cost" :: rest) = a ∧ u (str "Time" :: rest) = b) := by
  obtain ⟨h1, h2, reg, u0, uni, sets, h3, h4, h5, h6, h7, h8, h9, h10⟩ := devSample_spec N hl hlen h
  refine ⟨h1, h2, fun l => (u0.get? (name l)).getD [], fun l => (uni.get? (name l)).getD [], ?_, ?_, ?_, ?_⟩
  · intro j v hj
    obtain ⟨k, d, u, s, g1, g2, g3, g4, g5, g6⟩ := h10 j v hj
    refine ⟨k, s, g1, ?_, ?_, g6⟩
    · simp only [g3]; exact g2
    · simp only [g4]; exact g5
  · intro hc v _
    rw [h7 hc] at h9
    simp only [applySets, Except.ok.injEq] at h9
    simp only [h9]
  · intro P hP hC v hv
    have hgen : ∀ x ∈ reg.map Prod.fst, ∀ row, uni.get? x = some row → P row := by
      have hu0 : ∀ x ∈ reg.map Prod.fst, ∀ row, u0.get? x = some row → P row := by
        intro x hx row hrow
        rw [h3] at hx
        obtain ⟨w, hw, rfl⟩ := List.mem_map.1 hx
        have := hP w hw
        simp only [hrow, Option.getD_some] at this
        exact this
      refine applySets_keeps P (reg.map Prod.fst) sets ?_ u0 uni hu0 h9
      intro s hs
      cases hcc : corr with
      | none => rw [h7 hcc] at hs; simp at hs
      | some C =>
        obtain ⟨x, hx, hp⟩ := (h8 C hcc).1 s hs
        obtain ⟨_, c, t, p2, p3, rfl⟩ := pairOf_name hp
        refine ⟨?_, hC C hcc⟩
        intro w hw
        rw [mem_pySort] at hw
        have hm : ∀ {x : Str} {v : RV F}, reg.get? x = some v → v.root = v ∧ v.name ∈ reg.map Prod.fst := by
          intro x v hg
          have := Dict.mem_of_get? hg
          exact ⟨h6 _ this, by rw [← h5 _ this]; exact List.mem_map_of_mem this⟩
        rcases List.mem_cons.1 hw with rfl | hw
        · exact hm p2
        · rw [List.mem_singleton] at hw
          subst hw
          exact hm p3
    obtain ⟨j, hj⟩ := List.mem_iff_getElem?.1 hv
    obtain ⟨k, d, u, s, _, _, _, g4, _, _⟩ := h10 j v hj
    simp only [g4, Option.getD_some]
    exact hgen _ (by rw [h3]; exact List.mem_map_of_mem (f := fun v : DvVar F => name v.label) hv) u g4
  · intro C hC
    obtain ⟨e1, e2⟩ := h8 C hC
    have hmemname : ∀ x ∈ reg.map Prod.fst, ∃ v ∈ vars, x = name v.label := by
      intro x hx
      rw [h3] at hx
      obtain ⟨v, hv, rfl⟩ := List.mem_map.1 hx
      exact ⟨v, hv, rfl⟩
    have hget : ∀ {x : Str} {v : RV F}, reg.get? x = some v → x ∈ reg.map Prod.fst ∧ v.name = x ∧ v.root = v := by
      intro x v hg
      have := Dict.mem_of_get? hg
      exact ⟨List.mem_map_of_mem this, (h5 _ this).symm, h6 _ this⟩
    constructor
    · intro v hv hA hB
      have : uni.get? (name v.label) = u0.get? (name v.label) := by
        refine applySets_get? sets u0 uni _ ?_ h9
        intro s hs w hw e
        obtain ⟨x, hx, hp⟩ := e1 s hs
        obtain ⟨p1, c, t, p2, p3, rfl⟩ := pairOf_name hp
        rw [mem_pySort] at hw
        obtain ⟨v', hv', rfl⟩ := hmemname x hx
        rcases List.mem_cons.1 hw with rfl | hw
        · rw [(hget p2).2.1] at e
          obtain ⟨y, hy, hy'⟩ := hmemname _ (hget p3).1
          rw [e] at p1 hy'
          exact hB p1 y hy hy'.symm
        · rw [List.mem_singleton] at hw
          subst hw
          rw [(hget p3).2.1] at e
          exact hA v' hv' p1 e.symm
      simp only [this]
    · intro hpl rest a b hcost htime hC2
      have hmem : ∀ {l : Label}, l ∈ vars.map DvVar.label → l.length = levels + 1 ∧ (∀ p ∈ l, '-' ∉ p) ∧ name l ∈ reg.map Prod.fst := by
        intro l hl'
        obtain ⟨v, hv, rfl⟩ := List.mem_map.1 hl'
        exact ⟨hlen v hv, h2 v hv, by rw [h3]; exact List.mem_map_of_mem (f := fun v : DvVar F => name v.label) hv⟩
      -- what a pair is
      have hpair : ∀ x ∈ reg.map Prod.fst, ∀ s, pairOf levels C reg x = some s → ∃ r c t, r ≠ [] ∧ r.length = levels ∧
          (∀ p ∈ r, '-' ∉ p) ∧ x = name (str "Cost" :: r) ∧ reg.get? x = some c ∧ timeName x = name (str "Time" :: r) ∧
          reg.get? (timeName x) = some t ∧ s = ⟨setName levels x, pySort (fun a b => strLe a.name b.name) [c, t], C⟩ ∧
          str "Cost" <:+: x := by
        intro x hx s hs
        obtain ⟨p1, c, t, p2, p3, p4⟩ := pairOf_name hs
        obtain ⟨v, hv, rfl⟩ := hmemname x hx
        obtain ⟨r, q1, q2, q3⟩ := plain_cost (by rw [hlen v hv]; omega) (hpl v hv) p1
        refine ⟨r, c, t, q2, ?_, ?_, by rw [← q1], p2, q3, p3, p4, cost_infix p1⟩
        · have := hlen v hv
          rw [q1] at this
          simpa using this
        · intro p hp
          exact h2 v hv p (by rw [q1]; exact List.mem_cons_of_mem _ hp)
      have hsets := e2 (by
        intro x hx y hy hsx hsy e
        obtain ⟨s, hs⟩ := Option.isSome_iff_exists.1 hsx
        obtain ⟨t, ht⟩ := Option.isSome_iff_exists.1 hsy
        obtain ⟨r, _, _, a1, a2, a3, a4, _⟩ := hpair x hx s hs
        obtain ⟨r', _, _, b1, b2, b3, b4, _⟩ := hpair y hy t ht
        rw [a4, b4, setName_cost a1 a2 a3, setName_cost b1 b2 b3] at e
        have e' := List.append_cancel_right e
        have e'' := List.append_cancel_left e'
        rw [a4, b4, name_inj a1 b1 a3 b3 e''])
      have hnd : (reg.map Prod.fst).Nodup := h4
      have hcl := hmem hcost
      have htl := hmem htime
      have hpc : (str "Cost").isPrefixOf (name (str "Cost" :: rest)) = true := by
        rw [List.isPrefixOf_iff_prefix]
        have hne : rest ≠ [] := by intro e; have := hcl.1; rw [e] at this; simp at this; omega
        rw [name_cons hne]
        exact ⟨_, rfl⟩
      obtain ⟨vc, hvc, hvcl⟩ := List.mem_map.1 hcost
      obtain ⟨r0, q1, q2, q3⟩ := plain_cost (by rw [hcl.1]; omega) (hvcl ▸ hpl vc hvc) hpc
      simp only [List.cons.injEq, true_and] at q1
      subst q1
      have hin : ∀ {x : Str}, x ∈ reg.map Prod.fst → ∃ v, reg.get? x = some v := by
        intro x hx
        obtain ⟨p, hp, rfl⟩ := List.mem_map.1 hx
        exact ⟨p.2, Dict.get?_of_mem h4 hp⟩
      obtain ⟨c, hc⟩ := hin hcl.2.2
      obtain ⟨t, ht⟩ := hin htl.2.2
      have hs0 : pairOf levels C reg (name (str "Cost" :: rest)) =
          some ⟨setName levels (name (str "Cost" :: rest)), pySort (fun a b => strLe a.name b.name) [c, t], C⟩ := by
        unfold pairOf
        rw [if_pos hpc, q3, hc, ht]
      have hsort : pySort (fun a b : RV F => strLe a.name b.name) [c, t] = [c, t] := by
        have hle : strLe c.name t.name = true := by
          rw [(hget hc).2.1, (hget ht).2.1, name_cons q2, name_cons q2]
          rfl
        simp only [pySort, insertSorted, hle, if_true]
      have hin0 : (⟨setName levels (name (str "Cost" :: rest)), pySort (fun a b => strLe a.name b.name) [c, t], C⟩ : RVSet F) ∈ sets := by
        rw [hsets, List.mem_filterMap]
        exact ⟨_, hcl.2.2, hs0⟩
      have hmember : ∀ x ∈ reg.map Prod.fst, ∀ s, pairOf levels C reg x = some s → ∀ v ∈ s.members, v.root = v ∧ (v.name = x ∨ v.name = timeName x) := by
        intro x hx s hs v hv
        obtain ⟨r, c, t, _, _, _, _, a5, _, a7, rfl, _⟩ := hpair x hx s hs
        rw [mem_pySort] at hv
        rcases List.mem_cons.1 hv with rfl | hv
        · exact ⟨(hget a5).2.2, .inl (hget a5).2.1⟩
        · rw [List.mem_singleton] at hv
          subst hv
          exact ⟨(hget a7).2.2, .inr (hget a7).2.1⟩
      obtain ⟨rows, f1, f2⟩ := applySets_disjoint sets u0 uni (by
          intro s hs v hv
          rw [hsets, List.mem_filterMap] at hs
          obtain ⟨x, hx, hs⟩ := hs
          exact (hmember x hx s hs v hv).1) (by
          intro s hs
          rw [hsets, List.mem_filterMap] at hs
          obtain ⟨x, hx, hs⟩ := hs
          obtain ⟨r, c, t, _, _, _, _, a5, _, a7, rfl, a9⟩ := hpair x hx s hs
          refine ((pySort_perm (fun a b : RV F => strLe a.name b.name) [c, t]).map RV.name).nodup_iff.2 ?_
          simp only [List.map_cons, List.map_nil, List.nodup_cons, List.mem_singleton, List.not_mem_nil, not_false_eq_true,
            List.nodup_nil, and_true]
          rw [(hget a5).2.1, (hget a7).2.1]
          intro e
          rw [e] at a9
          exact timeName_no_cost x a9) (by
          rw [hsets, List.pairwise_filterMap]
          refine List.Pairwise.imp_of_mem ?_ hnd
          intro x y hx hy hxy s hs s' hs' v hv w hw e
          obtain ⟨r, _, _, a1, _, a3, a4, _, a6, _, _, a9⟩ := hpair x hx s hs
          obtain ⟨r', _, _, b1, _, b3, b4, _, b6, _, _, b9⟩ := hpair y hy s' hs'
          rcases (hmember x hx s hs v hv).2 with e1 | e1 <;> rcases (hmember y hy s' hs' w hw).2 with e2 | e2 <;> rw [e1, e2] at e
          · exact hxy e
          · rw [e] at a9; exact timeName_no_cost y a9
          · rw [← e] at b9; exact timeName_no_cost x b9
          · rw [a6, b6] at e
            have := name_inj (by simp) (by simp) (by
              intro p hp
              rcases List.mem_cons.1 hp with rfl | hp
              · decide
              · exact a3 p hp) (by
              intro p hp
              rcases List.mem_cons.1 hp with rfl | hp
              · decide
              · exact b3 p hp) e
            simp only [List.cons.injEq, true_and] at this
            rw [a4, b4, this] at hxy
            exact hxy rfl) h9 _ hin0
      simp only [hsort] at f1 f2
      cases f1 with
      | cons g1 g2 =>
        cases g2 with
        | cons g2 g3 =>
          cases g3
          rw [(hget hc).2.1] at g1
          rw [(hget ht).2.1] at g2
          simp only [g1, g2, Option.getD_some] at hC2
          have k1 := f2 0 c a rfl (by rw [hC2]; rfl)
          have k2 := f2 1 t b rfl (by rw [hC2]; rfl)
          rw [(hget hc).2.1] at k1
          rw [(hget ht).2.1] at k2
          simp only [k1, k2, Option.getD_some, and_self]

/-! ### Success -/

omit [FloorRing F] in
theorem addVars_runs (vs : List (DvVar F)) : ∀ r : Registry F, RegInv r → (∀ v ∈ vs, ∃ k, kindOf v.family v.theta = .ok k) →
    (vs.map fun v => name v.label).Nodup → (∀ v ∈ vs, name v.label ∉ r.vars.keys) → ∃ r', addVars vs r = .ok r' := by
  induction vs with
  | nil => intro r _ _ _ _; exact ⟨r, rfl⟩
  | cons v vs ih =>
    intro r hr hk hnd hnew
    obtain ⟨k, hk'⟩ := hk v (by simp)
    simp only [List.map_cons, List.nodup_cons] at hnd
    have hn := hnew v (by simp)
    have ha : r.addRV (.mk (name v.label) k none) = .ok { r with vars := r.vars.set (name v.label) (.mk (name v.label) k none) } := by
      unfold Registry.addRV
      rw [if_neg]
      · rfl
      · intro hc; exact hn ((Dict.contains_iff _ _).1 hc)
    obtain ⟨hi, hv⟩ := addRV_inv hr ha
    simp only [addVars, hk', ha]
    refine ih _ hi (fun w hw => hk w (List.mem_cons_of_mem _ hw)) hnd.2 ?_
    intro w hw hm
    rw [hv] at hm
    unfold Dict.keys at hm
    rw [List.map_append, List.mem_append] at hm
    rcases hm with hm | hm
    · exact hnew w (List.mem_cons_of_mem _ hw) hm
    · simp only [List.map_cons, List.map_nil, List.mem_singleton] at hm
      exact hnd.1 (List.mem_map.2 ⟨w, hw, hm⟩)

omit [FloorRing F] in
theorem setRows_isSome (vs : List (RV F)) : ∀ (rows : List (List F)) (uni : Dict Str (List F)) (x : Str),
    (uni.get? x).isSome → ((setRows vs rows uni).get? x).isSome := by
  induction vs with
  | nil => intro rows uni x h; exact h
  | cons v vs ih =>
    intro rows uni x h
    cases rows with
    | nil => exact h
    | cons row rows =>
      refine ih rows _ x ?_
      rw [Dict.get?_set]
      split
      · rfl
      · exact h

omit [FloorRing F] in
theorem applySets_runs (names : List Str) (sets : List (RVSet F))
    (hs : ∀ s ∈ sets, ∀ w ∈ s.members, w.root = w ∧ w.name ∈ names) :
    ∀ uni : Dict Str (List F), (∀ x ∈ names, (uni.get? x).isSome) →
      ∃ uni', applySets sets uni = .ok uni' ∧ ∀ x ∈ names, (uni'.get? x).isSome := by
  induction sets with
  | nil => intro uni h; exact ⟨uni, rfl, h⟩
  | cons s sets ih =>
    intro uni h
    have hc : ∃ rows, applyCorrelation s uni = .ok (setRows s.members (s.copula rows) uni) := by
      unfold applyCorrelation
      split
      · rename_i e he
        exfalso
        have : ∃ rows, _ = Except.ok (ε := PyErr) rows := mapE_ok_of_forall (l := s.members) (f := fun v => match Registry.uniOf uni v with
          | some row => Except.ok row
          | none => Except.error PyErr.typeError) (by
            intro w hw
            obtain ⟨w1, w2⟩ := hs s (by simp) w hw
            obtain ⟨row, hrow⟩ := Option.isSome_iff_exists.1 (h _ w2)
            refine ⟨row, ?_⟩
            have : Registry.uniOf uni w = some row := by unfold Registry.uniOf; rw [w1]; exact hrow
            simp only [this])
        obtain ⟨rows, hr⟩ := this
        exact absurd (he.symm.trans hr) (by simp)
      · rename_i rows _
        exact ⟨rows, rfl⟩
    obtain ⟨rows, hc⟩ := hc
    simp only [applySets, hc]
    exact ih (fun t ht => hs t (List.mem_cons_of_mem _ ht)) _ fun x hx => setRows_isSome _ _ _ _ (h x hx)

theorem transform_runs (N : Num F) (n : Nat) (vs : List (RV F)) :
    ∀ st : Dict Str (List F) × Dict Str (List (Ext F)),
      (∀ v ∈ vs, v.root = v ∧ v.kind.utility = false ∧ (∀ u, ∃ s, v.kind.inverse N u = .ok (s, u)) ∧ (st.1.get? v.name).isSome) →
      ∃ st', transformAll N n vs st = .ok st' := by
  induction vs with
  | nil => intro st _; exact ⟨st, rfl⟩
  | cons v vs ih =>
    intro st h
    obtain ⟨h1, h2, h3, h4⟩ := h v (by simp)
    obtain ⟨u, hu⟩ := Option.isSome_iff_exists.1 h4
    obtain ⟨s, hs⟩ := h3 u
    have : transformOne N n v st = .ok (st.1.set v.root.name u, st.2.set v.name s) := by
      unfold transformOne Registry.uniOf
      rw [h1, hu]
      simp only [h2, hs]
      rfl
    simp only [transformAll, this]
    refine ih _ ?_
    intro w hw
    obtain ⟨g1, g2, g3, g4⟩ := h w (List.mem_cons_of_mem _ hw)
    refine ⟨g1, g2, g3, ?_⟩
    simp only
    rw [Dict.get?_set]
    split
    · rfl
    · exact g4

omit [FloorRing F] in
theorem assignUni_isSome (m : Method) (n : Nat) (perm : Nat → List Nat) (jitter : Nat → List F) (names : List Str) :
    ∀ (i : Nat) (uni uni' : Dict Str (List F)), assignUni m n perm jitter i names uni = .ok uni' →
      ∀ x, (x ∈ names ∨ (uni.get? x).isSome) → (uni'.get? x).isSome := by
  induction names with
  | nil =>
    intro i uni uni' h x hx
    simp only [assignUni, Except.ok.injEq] at h
    subst h
    simpa using hx
  | cons a names ih =>
    intro i uni uni' h x hx
    simp only [assignUni] at h
    cases hd : drawRow m n (perm i) (jitter i) with
    | error e => rw [hd] at h; simp at h
    | ok row =>
      rw [hd] at h
      refine ih _ _ _ h x ?_
      rw [Dict.get?_set]
      by_cases hxa : a = x
      · right; rw [if_pos hxa]; rfl
      · rw [if_neg hxa]
        rcases hx with hx | hx
        · left; exact (List.mem_cons.1 hx).resolve_left (Ne.symm hxa)
        · right; exact hx

omit [FloorRing F] in
theorem stdSample_runs {levels : Nat} (hl : 1 ≤ levels) {labels : List Label} (hne : labels ≠ []) (hlen : ∀ l ∈ labels, l.length = levels + 1)
    (hd : ∀ l ∈ labels, ∀ p ∈ l, '-' ∉ p) {s : List (Str × List (Ext F))} (hs : s.map Prod.fst = labels.map name) :
    ∃ std, stdSample levels s = .ok std := by
  unfold stdSample
  rw [hs]
  unfold Labels.toMulti
  have hne' : labels.map name ≠ [] := by simpa using hne
  simp only [hne', if_false]
  have hsp : (labels.map name).map (splitChar '-') = labels := by
    rw [List.map_map]
    conv_rhs => rw [← List.map_id labels]
    refine List.map_congr_left ?_
    intro l hl'
    simp only [Function.comp, name, id]
    exact split_join '-' l (by intro e; have := hlen l hl'; rw [e] at this; simp at this) (hd l hl')
  have hm : Labels.maxLen ((labels.map name).map (splitChar '-')) = levels + 1 := by
    rw [hsp]
    exact Labels.maxLen_const _ _ hne hlen
  rw [hm]
  have hgt : levels + 1 > 1 := by omega
  simp only [hgt, if_true]
  exact ⟨_, rfl⟩

theorem devSample_runs (N : Num F) {levels : Nat} (hl : 1 ≤ levels) (vars : List (DvVar F)) (corr : Option (List (List F) → List (List F)))
    (n : Nat) (m : Method) (hm : m ≠ .other) (perm : Nat → List Nat) (jitter : Nat → List F)
    (hlen : ∀ v ∈ vars, v.label.length = levels + 1) (hd : ∀ v ∈ vars, ∀ p ∈ v.label, '-' ∉ p) (hnd : (vars.map (·.label)).Nodup)
    (hk : ∀ v ∈ vars, ∃ k, kindOf v.family v.theta = .ok k ∧ ∀ u, ∃ s, k.inverse N u = .ok (s, u)) :
    ∃ std, devSample N levels vars corr n m perm jitter = .ok std := by
  have hne : ∀ v ∈ vars, v.label ≠ [] := fun v hv e => by have := hlen v hv; rw [e] at this; simp at this
  have hnd' : (vars.map fun v => name v.label).Nodup := by
    have : (vars.map fun v => name v.label) = (vars.map (·.label)).map name := by rw [List.map_map]; rfl
    rw [this]
    refine List.Nodup.map_on ?_ hnd
    intro a ha b hb e
    rw [List.mem_map] at ha hb
    obtain ⟨v, hv, rfl⟩ := ha
    obtain ⟨w, hw, rfl⟩ := hb
    exact name_inj (hne v hv) (hne w hw) (hd v hv) (hd w hw) e
  obtain ⟨r, hr⟩ := addVars_runs vars {} RegInv.empty (fun v hv => (hk v hv).imp fun _ h => h.1) hnd' (by
    intro v _ h; simp [Dict.keys] at h)
  obtain ⟨hi, s1, s2, s3, ks, s4, s5⟩ := addVars_spec vars {} r RegInv.empty hr
  by_cases hv0 : vars = []
  · unfold devSample createRVs
    rw [hr]
    cases corr <;> exact ⟨[], by simp [hv0]⟩
  -- the registry with the pairs
  obtain ⟨r1, hr1, hvars, hsamp, huni, hsets⟩ : ∃ r1 : Registry F, createRVs levels vars corr = .ok r1 ∧ r1.vars = r.vars ∧ r1.samples = r.samples ∧
      r1.uni = r.uni ∧ ∀ p ∈ r1.sets, ∃ C, ∃ x ∈ r.vars.map Prod.fst, pairOf levels C r.vars x = some p.2 := by
    unfold createRVs
    rw [hr]
    cases corr with
    | none => exact ⟨r, rfl, rfl, rfl, rfl, fun p hp => by rw [s1] at hp; simp at hp⟩
    | some C =>
      obtain ⟨w1, w2, w3, w4⟩ := addPairs_weak levels C (r.vars.map Prod.fst) r
      refine ⟨_, rfl, w1, w2, w3, fun p hp => ?_⟩
      rcases w4 p hp with h | ⟨x, hx, h⟩
      · rw [s1] at h; simp at h
      · exact ⟨C, x, hx, h⟩
  have hi1 : RegInv r1 := by unfold RegInv; rw [hvars]; exact hi
  have hself : ∀ v ∈ r1.vars.map Prod.snd, v.selfAnchored = true ∧ v.root = v ∧ v.kind.utility = false ∧ v.kind.isMultinomial = false ∧
      ∀ u, ∃ s, v.kind.inverse N u = .ok (s, u) := by
    intro v hv
    rw [hvars, s5] at hv
    simp only [List.nil_append, List.map_map, List.mem_map] at hv
    obtain ⟨⟨v', k⟩, hz, rfl⟩ := hv
    have hf := List.forall₂_iff_zip.1 s4 |>.2 hz
    obtain ⟨k', hk1, hk2⟩ := hk v' (List.of_mem_zip hz).1
    rw [hf] at hk1
    cases hk1
    have := kindOf_plain hf
    exact ⟨rfl, rfl, this.1, this.2, hk2⟩
  have hfree : r1.free = r1.vars.map Prod.fst := by
    unfold Registry.free
    rw [List.filter_eq_self.2]
    intro p hp
    simp [(hself p.2 (List.mem_map_of_mem hp)).1]
  obtain ⟨u0, hu0⟩ := DemandGen.assignUni_runs m hm n perm jitter r1.free 0 r1.uni
  have hu0' : ∀ x ∈ r1.vars.map Prod.fst, (u0.get? x).isSome := by
    intro x hx
    rw [← hfree] at hx
    exact assignUni_isSome m n perm jitter r1.free 0 _ _ hu0 x (.inl hx)
  have hin : ∀ {x : Str} {w : RV F}, r.vars.get? x = some w → w.root = w ∧ w.name ∈ r1.vars.map Prod.fst := by
    intro x w hw
    have hm' := Dict.mem_of_get? hw
    have hw' : w ∈ r1.vars.map Prod.snd := by rw [hvars]; exact List.mem_map.2 ⟨_, hm', rfl⟩
    refine ⟨(hself w hw').2.1, ?_⟩
    rw [hvars]
    have := hi.2 _ hm'
    exact List.mem_map.2 ⟨_, hm', this⟩
  obtain ⟨uni, hun, hun'⟩ := applySets_runs (r1.vars.map Prod.fst) (r1.sets.map Prod.snd) (by
    intro s hs w hw
    rw [List.mem_map] at hs
    obtain ⟨p, hp, rfl⟩ := hs
    obtain ⟨C, x, hx, hpair⟩ := hsets p hp
    unfold pairOf at hpair
    split at hpair
    · split at hpair
      · rename_i c t hc ht
        simp only [Option.some.injEq] at hpair
        rw [← hpair, mem_pySort] at hw
        simp only [List.mem_cons, List.not_mem_nil, or_false] at hw
        rcases hw with rfl | rfl
        · exact hin hc
        · exact hin ht
      · simp at hpair
    · simp at hpair) u0 hu0'
  obtain ⟨st, hst⟩ := transform_runs N n (r1.vars.map Prod.snd) (uni, r1.samples) (by
    intro v hv
    obtain ⟨g1, g2, g3, g4, g5⟩ := hself v hv
    refine ⟨g2, g3, g5, hun' _ ?_⟩
    obtain ⟨p, hp, rfl⟩ := List.mem_map.1 hv
    rw [← hi1.2 p hp]
    exact List.mem_map_of_mem hp)
  have hgen : generateSample N r1 n m perm jitter = .ok { r1 with uni := st.1, samples := st.2 } := by
    unfold generateSample drawUniform
    simp only [hu0, hun, hst]
  unfold devSample
  rw [hr1]
  simp only [hv0, if_false, hgen]
  refine stdSample_runs hl (labels := vars.map (·.label)) (by simpa using hv0) (by simpa using hlen) ?_ ?_
  · intro l hl'
    obtain ⟨v, hv, rfl⟩ := List.mem_map.1 hl'
    exact hd v hv
  · unfold DemandGen.rvSample
    simp only [hvars, s5, List.nil_append, List.map_map]
    have hl2 := s4.length_eq
    have : ∀ {α β γ : Type} (f : α → γ) (l : List α) (l' : List β), l.length = l'.length → (l.zip l').map (fun x => f x.1) = l.map f := by
      intro α β γ f l
      induction l with
      | nil => intro l' _; simp
      | cons a l ih =>
        intro l' h
        cases l' with
        | nil => simp at h
        | cons b l' => simp [ih l' (by simpa using h)]
    exact this (fun v : DvVar F => name v.label) vars ks hl2

end

end Verif.LossDev
