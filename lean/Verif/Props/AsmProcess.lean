import Verif.Model.AsmProcess
import Verif.Lemmas.PyStr
import Verif.Props.LossParams

/-! # C64: built-in damage processes are not changed by assessments -/

namespace Verif.AsmProcess

open DmgTasks (Targets femaP58 hazusLifeline hazusBuildings)
open LossParams (hasInfix)

/-- A text in which no component type occurs is not changed. -/
theorem newTarget_of_free (m : Dict Str Str) (s : Str) (h : ∀ p ∈ m, hasInfix p.1 s = false) : newTarget m s = s := by
  induction m with
  | nil => rfl
  | cons p m ih =>
    have h1 := h p (by simp)
    have h2 := ih (fun q hq => h q (by simp [hq]))
    unfold newTarget at h2 ⊢
    simp only [List.foldl_cons, h1, Bool.false_and, Bool.false_eq_true, if_false]
    exact h2

/-- What an asset has to contain to be of a type. -/
theorem cmpOfType_spec (cmps : List Str) (t : Str) :
    cmpOfType cmps t = [] ∨ (cmpOfType cmps t ∈ cmps ∧ hasInfix (t ++ ['.']) (cmpOfType cmps t) = true) := by
  unfold cmpOfType
  suffices ∀ acc, (acc = [] ∨ (acc ∈ cmps ∧ hasInfix (t ++ ['.']) acc = true)) → ∀ l, l ⊆ cmps →
      (l.foldl (fun acc c => if hasInfix (t ++ ['.']) c then c else acc) acc = [] ∨
        (l.foldl (fun acc c => if hasInfix (t ++ ['.']) c then c else acc) acc ∈ cmps ∧
          hasInfix (t ++ ['.']) (l.foldl (fun acc c => if hasInfix (t ++ ['.']) c then c else acc) acc) = true)) from
    this [] (Or.inl rfl) cmps (List.Subset.refl _)
  intro acc hacc l hl
  induction l generalizing acc with
  | nil => exact hacc
  | cons c l ih =>
    rw [List.foldl_cons]
    refine ih _ ?_ (fun x hx => hl (by simp [hx]))
    by_cases hc : hasInfix (t ++ ['.']) c = true
    · rw [if_pos hc]; exact Or.inr ⟨hl (by simp), hc⟩
    · rw [if_neg hc]; exact hacc

theorem set_self {α : Type} (d : Dict Str α) (k : Str) (v : α) (h : d.get? k = some v) : d.set k v = d := by
  induction d with
  | nil => simp at h
  | cons e d ih =>
    obtain ⟨a, b⟩ := e
    rw [Dict.get?_cons] at h
    by_cases hk : a = k
    · rw [if_pos hk] at h
      simp [Dict.set, hk, Option.some.inj h]
    · rw [if_neg hk] at h
      simp [Dict.set, hk, ih h]

theorem get?_erase_ne {α : Type} (d : Dict Str α) (k k' : Str) (h : k ≠ k') : (d.erase k).get? k' = d.get? k' := by
  induction d with
  | nil => rfl
  | cons e d ih =>
    obtain ⟨a, b⟩ := e
    by_cases hk : a = k
    · simp [Dict.erase, hk, Dict.get?_cons, h]
    · simp [Dict.erase, hk, Dict.get?_cons, ih]

/-- Writing back the events of a source changes nothing if no target is renamed. -/
theorem rewriteEvents_free (m : Dict Str Str) (refs : Dict Str Str) (name src : Str) (p : Process) (whole : Dict Str Targets)
    (hr : refs.get? name = some src) (hp : p.get? src = some whole) (hnd : whole.NoDupKeys) (action : Dict Str Targets)
    (hsub : ∀ e ∈ action, e ∈ whole) (hfree : ∀ e ∈ whole, newTargets m e.2 = e.2) :
    rewriteEvents m refs name action p = .ok p := by
  induction action with
  | nil => rfl
  | cons e action ih =>
    obtain ⟨ds, v⟩ := e
    have he := hsub (ds, v) (by simp)
    have hv : newTargets m v = v := hfree _ he
    rw [rewriteEvents, hr]
    have hw : writeEvent p src ds (newTargets m v) = p := by
      rw [writeEvent, hp, hv]
      show p.set src (whole.set ds v) = p
      rw [set_self whole ds v (Dict.get?_of_mem hnd he)]
      exact set_self p src whole hp
    show rewriteEvents m refs name action (writeEvent p src ds (newTargets m v)) = .ok p
    rw [hw]
    exact ih (fun e he => hsub e (by simp [he]))

/-- The loop leaves the built-in process alone if no target is renamed and no new name is the name
of a source. -/
theorem rewriteLoop_free (m : Dict Str Str) (p : Process)
    (hfree : ∀ k ev, p.get? k = some ev → ev.NoDupKeys ∧ ∀ e ∈ ev, newTargets m e.2 = e.2)
    (hnew : ∀ k ∈ p.keys, ∀ n, newSource m k = some n → n ∉ p.keys)
    (srcs : List Str) (hs : ∀ k ∈ srcs, k ∈ p.keys) (hnd : srcs.Nodup) (refs : Dict Str Str)
    (hrefs : ∀ k ∈ srcs, refs.get? k = some k) :
    rewriteLoop m srcs p refs = (.ok (srcs.foldl (fun r s => (rename m s r).2) refs), p) := by
  induction srcs generalizing refs with
  | nil => rfl
  | cons src rest ih =>
    have hmem := hs src (by simp)
    obtain ⟨hni, hnd'⟩ := List.nodup_cons.mp hnd
    rw [rewriteLoop]
    have hget : ∃ ev, p.get? src = some ev := by
      cases hg : p.get? src with
      | none => exact absurd hmem ((Dict.get?_eq_none_iff _ _).mp hg)
      | some ev => exact ⟨ev, rfl⟩
    obtain ⟨ev, hev⟩ := hget
    obtain ⟨hevnd, hevf⟩ := hfree src ev hev
    have hname : (rename m src refs).2.get? (rename m src refs).1 = some src := by
      unfold rename
      cases hn : newSource m src with
      | none => exact hrefs src (by simp)
      | some n =>
        have hne : src ≠ n := fun h => hnew src hmem n hn (h ▸ hmem)
        show ((refs.set n src).erase src).get? n = some src
        rw [get?_erase_ne _ _ _ hne, Dict.get?_set, if_pos rfl]
    rw [hev]
    have hre := rewriteEvents_free m _ _ src p ev hname hev hevnd ev (fun _ h => h) hevf
    rw [List.foldl_cons]
    show (match rewriteEvents m (rename m src refs).2 (rename m src refs).1 ev p with
      | .error e => ((.error e : Except PyErr (Dict Str Str)), p)
      | .ok p' => rewriteLoop m rest p' (rename m src refs).2) = _
    rw [hre]
    refine ih (fun k hk => hs k (by simp [hk])) hnd' _ fun k hk => ?_
    have hks : src ≠ k := fun h => hni (h ▸ hk)
    unfold rename
    cases hn : newSource m src with
    | none => exact hrefs k (by simp [hk])
    | some n =>
      have hne : n ≠ k := fun h => hnew src hmem n hn (h ▸ hs k (by simp [hk]))
      show ((refs.set n src).erase src).get? k = some k
      rw [get?_erase_ne _ _ _ hks, Dict.get?_set, if_neg hne]
      exact hrefs k (by simp [hk])

theorem keys_refs (ks : List Str) (k : Str) (h : k ∈ ks) : (Dict.get? (ks.map fun k => (k, k)) k) = some k := by
  induction ks with
  | nil => simp at h
  | cons a ks ih =>
    rw [List.map_cons, Dict.get?_cons]
    by_cases ha : a = k
    · rw [if_pos ha, ha]
    · rw [if_neg ha]
      exact ih (by simpa [Ne.symm ha] using h)

/-- **C64 (any table of processes).** A built-in process whose targets do not name a component type
and whose renamed sources do not collide is left as it is by every request. -/
theorem prepare_free (p : Process) (q : Request) (hnd : p.NoDupKeys)
    (hfree : ∀ k ev, p.get? k = some ev → ev.NoDupKeys ∧ ∀ e ∈ ev, newTargets (cmpMap q.cmps) e.2 = e.2)
    (hnew : ∀ k ∈ p.keys, ∀ n, newSource (cmpMap q.cmps) k = some n → n ∉ p.keys) :
    (prepare p q).2 = p := by
  unfold prepare
  by_cases ha : isHazusEarthquake q.approach = true
  · rw [if_pos ha]
    have h := rewriteLoop_free (cmpMap q.cmps) p hfree hnew p.keys (fun _ h => h) hnd
      (p.keys.map fun k => (k, k)) (fun k hk => keys_refs _ _ hk)
    rw [h]
    generalize p.keys.foldl (fun r s => (rename (cmpMap q.cmps) s r).2) (p.keys.map fun k => (k, k)) = refs'
    show (match filterProcess q.cmps (resolve p refs') with
      | .error e => ((.error e : Except PyErr (Option Process)), p)
      | .ok r => (.ok (some r), p)).2 = p
    cases filterProcess q.cmps (resolve p refs') <;> rfl
  · rw [if_neg ha]
    cases filterProcess q.cmps p <;> rfl

/-- The component types that occur in no source name leave it alone. -/
theorem newSource_of_free (m : Dict Str Str) (k : Str) (h : ∀ p ∈ m, hasInfix p.1 k = false) : newSource m k = none := by
  induction m with
  | nil => rfl
  | cons p m ih =>
    obtain ⟨t, id⟩ := p
    have h1 : hasInfix t k = false := h (t, id) (by simp)
    rw [newSource, h1]
    exact ih fun q hq => h q (by simp [hq])

theorem mem_cmpMap (cmps : List Str) (p : Str × Str) (h : p ∈ cmpMap cmps) : p.1 ∈ cmpTypes := by
  obtain ⟨t, ht, rfl⟩ := List.mem_map.mp h
  exact ht

/-- `1_STR` and `1_LF` are the only sources of the built-in processes that name a type. -/
theorem newSource_str (cmps : List Str) :
    newSource (cmpMap cmps) (str "1_STR") =
      if cmpOfType cmps (str "STR") = [] then none else some (str "1_" ++ cmpOfType cmps (str "STR")) := by
  have e1 : hasInfix (str "STR") (str "1_STR") = true := by decide
  have e2 : hasInfix (str "LF") (str "1_STR") = false := by decide
  have e3 : hasInfix (str "NSA") (str "1_STR") = false := by decide
  have e4 : ∀ a, replaceAll (str "STR") a (str "1_STR") = str "1_" ++ a := by
    intro a
    simp [replaceAll, replaceFrom, str, List.isPrefixOf]
  simp only [cmpMap, cmpTypes, List.map_cons, List.map_nil, newSource, e1, e2, e3, Bool.true_and,
    Bool.false_and, Bool.false_eq_true, if_false, e4]
  cases h : cmpOfType cmps (str "STR") <;> simp

theorem newSource_lf (cmps : List Str) :
    newSource (cmpMap cmps) (str "1_LF") =
      if cmpOfType cmps (str "LF") = [] then none else some (str "1_" ++ cmpOfType cmps (str "LF")) := by
  have e1 : hasInfix (str "STR") (str "1_LF") = false := by decide
  have e2 : hasInfix (str "LF") (str "1_LF") = true := by decide
  have e3 : hasInfix (str "NSA") (str "1_LF") = false := by decide
  have e4 : ∀ a, replaceAll (str "LF") a (str "1_LF") = str "1_" ++ a := by
    intro a
    simp [replaceAll, replaceFrom, str, List.isPrefixOf]
  simp only [cmpMap, cmpTypes, List.map_cons, List.map_nil, newSource, e1, e2, e3, Bool.true_and,
    Bool.false_and, Bool.false_eq_true, if_false, e4]
  cases h : cmpOfType cmps (str "LF") <;> simp

/-- Decidable summary of what is needed of a built-in process. -/
def freeTargets (p : Process) : Bool :=
  p.all fun kev => decide (kev.2.map Prod.fst).Nodup && kev.2.all fun e => e.2.list.all fun t => cmpTypes.all fun ty => !hasInfix ty t

theorem freeTargets_spec (p : Process) (h : freeTargets p = true) (cmps : List Str) :
    ∀ k ev, p.get? k = some ev → ev.NoDupKeys ∧ ∀ e ∈ ev, newTargets (cmpMap cmps) e.2 = e.2 := by
  intro k ev hg
  have hm := Dict.mem_of_get? hg
  simp only [freeTargets, List.all_eq_true, Bool.and_eq_true, decide_eq_true_eq] at h
  obtain ⟨h1, h2⟩ := h _ hm
  refine ⟨h1, fun e he => ?_⟩
  have h3 := h2 e he
  have h4 : ∀ t ∈ e.2.list, newTarget (cmpMap cmps) t = t := by
    intro t ht
    refine newTarget_of_free _ _ fun q hq => ?_
    simpa using h3 t ht q.1 (mem_cmpMap _ _ hq)
  cases hv : e.2 with
  | one s =>
    rw [hv] at h4
    exact congrArg Targets.one (h4 s (by simp [Targets.list]))
  | many l =>
    rw [hv] at h4
    refine congrArg Targets.many ?_
    conv_rhs => rw [← List.map_id l]
    exact List.map_congr_left fun t ht => h4 t ht

theorem not_own_type (t a : Str) (h : hasInfix (t ++ ['.']) a = true) : a ≠ t := by
  intro he
  have := ((LossParams.hasInfix_iff _ _).mp h).length_le
  simp [he] at this

theorem renamed_fresh (t k : Str) (cmps : List Str) (ks : List Str)
    (hk : newSource (cmpMap cmps) k = if cmpOfType cmps t = [] then none else some (str "1_" ++ cmpOfType cmps t))
    (hks : ∀ x ∈ ks, (str "1_").isPrefixOf x = true → x = str "1_" ++ t) (n : Str)
    (hn : newSource (cmpMap cmps) k = some n) : n ∉ ks := by
  intro hmem
  rw [hk] at hn
  by_cases he : cmpOfType cmps t = []
  · simp [he] at hn
  · rw [if_neg he] at hn
    have hn' := Option.some.inj hn
    have h2 := hks n hmem (by rw [← hn', List.isPrefixOf_iff_prefix]; exact List.prefix_append _ _)
    rw [← hn'] at h2
    rcases cmpOfType_spec cmps t with h | ⟨_, h⟩
    · exact he h
    · exact not_own_type _ _ h (List.append_cancel_left h2)

theorem prepare_builtIn (q : Request) (p : Process) (h : builtIn.get? q.approach = some p) : (prepare p q).2 = p := by
  have hm := Dict.mem_of_get? h
  simp only [builtIn, List.mem_cons, Prod.mk.injEq, List.mem_nil_iff, or_false] at hm
  rcases hm with ⟨ha, rfl⟩ | ⟨ha, rfl⟩ | ⟨ha, rfl⟩ | ⟨ha, rfl⟩
  · refine prepare_free _ _ (by unfold Dict.NoDupKeys; decide) (freeTargets_spec _ (by decide) _) ?_
    intro k hk n hn
    rw [newSource_of_free] at hn
    · simp at hn
    · intro q' hq'
      have h1 := mem_cmpMap _ _ hq'
      have h2 : ∀ k ∈ Dict.keys femaP58, ∀ t ∈ cmpTypes, hasInfix t k = false := by decide
      exact h2 k hk _ h1
  · refine prepare_free _ _ (by unfold Dict.NoDupKeys; decide) (freeTargets_spec _ (by decide) _) ?_
    intro k hk n hn
    have h2 : ∀ k ∈ Dict.keys hazusLifeline, k = str "1_LF" ∨ ∀ t ∈ cmpTypes, hasInfix t k = false := by decide
    rcases h2 k hk with rfl | h3
    · exact renamed_fresh (str "LF") _ q.cmps _ (newSource_lf _) (by decide) n hn
    · rw [newSource_of_free _ _ fun q' hq' => h3 _ (mem_cmpMap _ _ hq')] at hn
      simp at hn
  · refine prepare_free _ _ (by unfold Dict.NoDupKeys; decide) (freeTargets_spec _ (by decide) _) ?_
    intro k hk n hn
    have h2 : ∀ k ∈ Dict.keys hazusBuildings, k = str "1_STR" ∨ ∀ t ∈ cmpTypes, hasInfix t k = false := by decide
    rcases h2 k hk with rfl | h3
    · exact renamed_fresh (str "STR") _ q.cmps _ (newSource_str _) (by decide) n hn
    · rw [newSource_of_free _ _ fun q' hq' => h3 _ (mem_cmpMap _ _ hq')] at hn
      simp at hn
  · refine prepare_free _ _ (by unfold Dict.NoDupKeys; decide) (freeTargets_spec _ (by decide) _) ?_
    intro k hk n hn
    simp [Dict.keys] at hk

/-- **C64.** Whatever an assessment asks for, the built-in damage processes are the same afterwards. -/
theorem C64_unchanged (q : Request) : (select builtIn q).2 = builtIn := by
  unfold select
  cases h : builtIn.get? q.approach with
  | some p =>
    show builtIn.set q.approach (prepare p q).2 = builtIn
    rw [prepare_builtIn q p h]
    exact set_self _ _ _ h
  | none =>
    show (if q.approach = str "User Defined" then
      (match q.file with
      | none => ((.error .valueError : Except PyErr (Option Process)), builtIn)
      | some p => (.ok (some p), builtIn)) else (.ok none, builtIn)).2 = builtIn
    by_cases hu : q.approach = str "User Defined"
    · rw [if_pos hu]; cases q.file <;> rfl
    · rw [if_neg hu]

/-- **C64.** In every history of assessments in one session each assessment uses the damage process
that it would use if it was the first one. -/
theorem C64_history (qs : List Request) :
    (runAll builtIn qs).1 = qs.map fun q => (select builtIn q).1 := by
  induction qs with
  | nil => rfl
  | cons q qs ih =>
    rw [runAll, C64_unchanged q, ih]
    rfl

set_option synthInstance.maxSize 4000 in
/-- Not vacuous: the first assessment renames a source (on a shared dictionary), the second one has
another structural component. -/
example : runAll builtIn
      [⟨str "Hazus Earthquake - Buildings", [str "STR.W1", str "NSA.X", str "collapse"], none⟩,
       ⟨str "Hazus Earthquake - Buildings", [str "STR.C2"], none⟩] =
    ([.ok (some [(str "3_collapse", [(str "DS1", .one (str "ALL_NA"))]), (str "1_STR.W1", [(str "DS5", .one (str "collapse_DS1"))])]),
      .ok (some [(str "1_STR.C2", [(str "DS5", .one (str "collapse_DS1"))])])], builtIn) := by decide +kernel

set_option synthInstance.maxSize 4000 in
/-- The independence rests on the targets of the built-in processes: a process that names a
component type in a target would be changed for later assessments. -/
theorem C64_type_in_target_would_leak :
    (select [(str "Hazus Earthquake - Buildings", [(str "1_collapse", [(str "DS1", .one (str "STR_NA"))])])]
      ⟨str "Hazus Earthquake - Buildings", [str "STR.W1", str "collapse"], none⟩).2 =
    [(str "Hazus Earthquake - Buildings", [(str "1_collapse", [(str "DS1", .one (str "STR.W1_NA"))])])] := by decide +kernel

/-! ## The process that is selected -/

/-- The component that a task is about: the part of its name between the first and the second
underscore. -/
def IsSource (k c : Str) : Prop := ∃ pre post, splitChar '_' k = pre :: c :: post

theorem filterProcess_mem (cmps : List Str) (p r : Process) (h : filterProcess cmps p = .ok r) (x : Str × Dict Str Targets) :
    x ∈ r ↔ x ∈ p ∧ ∃ c ∈ cmps, IsSource x.1 c := by
  induction p generalizing r with
  | nil => simp [filterProcess] at h; simp [h]
  | cons e p ih =>
    obtain ⟨k, ev⟩ := e
    rw [filterProcess] at h
    cases hs : splitChar '_' k with
    | nil => simp [hs] at h
    | cons a rest =>
      cases rest with
      | nil => simp [hs] at h
      | cons c rest =>
        rw [hs] at h
        cases hr : filterProcess cmps p with
        | error e => simp [hr] at h
        | ok l =>
          simp only [hr, Except.ok.injEq] at h
          have := ih l hr
          have hsrc : ∀ c', IsSource k c' ↔ c' = c := by
            intro c'
            constructor
            · rintro ⟨pre, post, h'⟩
              rw [hs] at h'
              simp at h'
              exact h'.2.1.symm
            · rintro rfl; exact ⟨a, rest, hs⟩
          rw [← h]
          by_cases hc : c ∈ cmps
          · rw [if_pos hc]
            simp only [List.mem_cons, this]
            constructor
            · rintro (rfl | ⟨h1, h2⟩)
              · exact ⟨Or.inl rfl, c, hc, (hsrc c).mpr rfl⟩
              · exact ⟨Or.inr h1, h2⟩
            · rintro ⟨rfl | h1, h2⟩
              · exact Or.inl rfl
              · exact Or.inr ⟨h1, h2⟩
          · rw [if_neg hc, this]
            simp only [List.mem_cons]
            constructor
            · rintro ⟨h1, h2⟩; exact ⟨Or.inr h1, h2⟩
            · rintro ⟨rfl | h1, c', hc', h2⟩
              · exact absurd ((hsrc c').mp h2 ▸ hc') hc
              · exact ⟨h1, c', hc', h2⟩

/-- **C64 (FEMA P-58).** The selected tasks are those of the built-in process whose source is part
of the asset. -/
theorem C64_fema_selected (cmps : List Str) (f : Option Process) :
    ∃ r, (select builtIn ⟨str "FEMA P-58", cmps, f⟩).1 = .ok (some r) ∧
      ∀ x, x ∈ r ↔ x ∈ femaP58 ∧ ∃ c ∈ cmps, IsSource x.1 c := by
  have hs : ∃ r, filterProcess cmps femaP58 = .ok r := by
    simp [femaP58, filterProcess, str, splitChar]
  obtain ⟨r, hr⟩ := hs
  refine ⟨r, ?_, filterProcess_mem _ _ _ hr⟩
  have hg : builtIn.get? (str "FEMA P-58") = some femaP58 := by decide
  have ha : isHazusEarthquake (str "FEMA P-58") = false := by decide
  simp [select, hg, prepare, ha, hr]

theorem filter_total (cmps : List Str) (p : Process) (h : ∀ x ∈ p, ∃ c, IsSource x.1 c) : ∃ r, filterProcess cmps p = .ok r := by
  induction p with
  | nil => exact ⟨[], rfl⟩
  | cons e p ih =>
    obtain ⟨k, ev⟩ := e
    obtain ⟨c, pre, post, hs⟩ := h (k, ev) (by simp)
    obtain ⟨l, hl⟩ := ih fun x hx => h x (by simp [hx])
    refine ⟨if c ∈ cmps then (k, ev) :: l else l, ?_⟩
    rw [filterProcess]
    rw [show splitChar '_' k = pre :: c :: post from hs, hl]

theorem foldl_last (P : Str → Bool) (l : List Str) (acc : Str) (h : P acc = true ∨ ∃ c ∈ l, P c = true) :
    P (l.foldl (fun acc c => if P c then c else acc) acc) = true := by
  induction l generalizing acc with
  | nil => simpa using h
  | cons c l ih =>
    rw [List.foldl_cons]
    apply ih
    by_cases hc : P c = true
    · rw [if_pos hc]; exact Or.inl hc
    · rw [if_neg hc]
      rcases h with h | ⟨d, hd, h⟩
      · exact Or.inl h
      · rcases List.mem_cons.mp hd with rfl | hd
        · exact absurd h hc
        · exact Or.inr ⟨d, hd, h⟩

/-- `a` is the last component of the asset whose name contains `word`. -/
def IsLastWith (word : Str) (cmps : List Str) (a : Str) : Prop :=
  ∃ pre post, cmps = pre ++ a :: post ∧ word <:+: a ∧ ∀ c ∈ post, ¬ word <:+: c

theorem foldl_lastWith (P : Str → Bool) (l : List Str) (acc : Str) (h : ∃ c ∈ l, P c = true) :
    ∃ pre post, l = pre ++ (l.foldl (fun acc c => if P c then c else acc) acc) :: post ∧ ∀ c ∈ post, P c = false := by
  induction l generalizing acc with
  | nil => simp at h
  | cons c l ih =>
    rw [List.foldl_cons]
    by_cases hl : ∃ d ∈ l, P d = true
    · obtain ⟨pre, post, h1, h2⟩ := ih (if P c then c else acc) hl
      exact ⟨c :: pre, post, by rw [List.cons_append, ← h1], h2⟩
    · have hno : ∀ d ∈ l, P d = false := by
        intro d hd
        cases hp : P d with
        | false => rfl
        | true => exact absurd ⟨d, hd, hp⟩ hl
      have hc : P c = true := by
        obtain ⟨d, hd, hp⟩ := h
        rcases List.mem_cons.mp hd with rfl | hd
        · exact hp
        · exact absurd ⟨d, hd, hp⟩ hl
      have hsame : ∀ m : List Str, (∀ d ∈ m, P d = false) → ∀ x, m.foldl (fun acc c => if P c then c else acc) x = x := by
        intro m hm
        induction m with
        | nil => intro x; rfl
        | cons d m ihm =>
          intro x
          rw [List.foldl_cons, hm d (by simp)]
          exact ihm (fun e he => hm e (by simp [he])) x
      rw [hsame l hno, if_pos hc]
      exact ⟨[], l, rfl, hno⟩

theorem resolve_self (p : Process) (h : p.NoDupKeys) : resolve p (p.keys.map fun k => (k, k)) = p := by
  have : ∀ q : Process, (∀ x ∈ q, p.get? x.1 = some x.2) → resolve p (q.keys.map fun k => (k, k)) = q := by
    intro q
    induction q with
    | nil => intro _; rfl
    | cons x q ih =>
      intro hq
      have hx := hq x (by simp)
      simp only [resolve, Dict.keys, List.map_cons, List.filterMap_cons, hx, Option.map_some]
      have := ih fun y hy => hq y (by simp [hy])
      rw [resolve, Dict.keys] at this
      rw [this]
  exact this p fun x hx => Dict.get?_of_mem h hx

theorem foldl_rename_none (m : Dict Str Str) (l : List Str) (hl : ∀ k ∈ l, newSource m k = none) (r : Dict Str Str) :
    l.foldl (fun r s => (rename m s r).2) r = r := by
  induction l generalizing r with
  | nil => rfl
  | cons k l ih =>
    rw [List.foldl_cons]
    have : (rename m k r).2 = r := by rw [rename, hl k (by simp)]
    rw [this]
    exact ih (fun k hk => hl k (by simp [hk])) r

/-- A built-in Hazus process: the first task is about a component type, the others are not. -/
structure HazusShape (name ty : Str) (p : Process) (ev : Dict Str Targets) : Prop where
  known : builtIn.get? name = some p
  hazus : isHazusEarthquake name = true
  head : p = (str "1_" ++ ty, ev) :: p.tail
  noDup : p.NoDupKeys
  targets : freeTargets p = true
  nonempty : ty ≠ []
  noUnderscore : '_' ∉ ty
  source : ∀ cmps, newSource (cmpMap cmps) (str "1_" ++ ty) = if cmpOfType cmps ty = [] then none else some (str "1_" ++ cmpOfType cmps ty)
  others : ∀ x ∈ p.tail, (∀ t ∈ cmpTypes, hasInfix t x.1 = false) ∧ (str "1_").isPrefixOf x.1 = false ∧ ((splitChar '_' x.1)[1]?).isSome = true

theorem isSource_of_get (k : Str) (h : ((splitChar '_' k)[1]?).isSome = true) : ∃ c, IsSource k c := by
  cases hs : splitChar '_' k with
  | nil => simp [hs] at h
  | cons u v =>
    cases v with
    | nil => simp [hs] at h
    | cons c post => exact ⟨c, u, post, hs⟩

theorem isSource_one (a : Str) (h : '_' ∉ a) : IsSource (str "1_" ++ a) a := ⟨['1'], [], by
    have : splitChar '_' a = [a] := splitChar_no_sep _ _ h
    simp [str, splitChar, this]⟩

theorem hazus_loop {name ty : Str} {p : Process} {ev : Dict Str Targets} (hs : HazusShape name ty p ev) (cmps : List Str) :
    rewriteLoop (cmpMap cmps) p.keys p (p.keys.map fun k => (k, k)) =
      (.ok (p.keys.foldl (fun r s => (rename (cmpMap cmps) s r).2) (p.keys.map fun k => (k, k))), p) ∧
    ∀ k ∈ p.tail.map Prod.fst, newSource (cmpMap cmps) k = none := by
  have htail : ∀ k ∈ p.tail.map Prod.fst, newSource (cmpMap cmps) k = none := by
    intro k hk
    obtain ⟨x, hx, rfl⟩ := List.mem_map.mp hk
    exact newSource_of_free _ _ fun q hq => (hs.others x hx).1 _ (mem_cmpMap _ _ hq)
  have hkeys : ∀ k ∈ p.keys, k = str "1_" ++ ty ∨ k ∈ p.tail.map Prod.fst := by
    intro k hk
    rw [Dict.keys, hs.head] at hk
    simpa using hk
  refine ⟨rewriteLoop_free (cmpMap cmps) p (freeTargets_spec _ hs.targets _) ?_ p.keys (fun _ h => h) hs.noDup
      (p.keys.map fun k => (k, k)) (fun k hk => keys_refs _ _ hk), htail⟩
  intro k hk n hn
  rcases hkeys k hk with rfl | h
  · refine renamed_fresh ty _ cmps _ (hs.source cmps) ?_ n hn
    intro x hx hpre
    rcases hkeys x hx with h | h
    · exact h
    · obtain ⟨y, hy, rfl⟩ := List.mem_map.mp h
      rw [(hs.others y hy).2.1] at hpre
      simp at hpre
  · rw [htail k h] at hn; simp at hn

theorem hazus_selected {name ty : Str} {p : Process} {ev : Dict Str Targets} (hs : HazusShape name ty p ev)
    (cmps : List Str) (f : Option Process) (hcmp : ∀ c ∈ cmps, '_' ∉ c) (a : Str) (hlast : IsLastWith (ty ++ ['.']) cmps a) :
    ∃ r, (select builtIn ⟨name, cmps, f⟩).1 = .ok (some r) ∧
      ∀ x, x ∈ r ↔ x = (str "1_" ++ a, ev) ∨ (x ∈ p ∧ x.1 ≠ str "1_" ++ ty ∧ ∃ c ∈ cmps, IsSource x.1 c) := by
  obtain ⟨hloop, htail⟩ := hazus_loop hs cmps
  have ea : cmpOfType cmps ty = a := by
    obtain ⟨pre, post, h1, h2, h3⟩ := hlast
    unfold cmpOfType
    rw [h1, List.foldl_append, List.foldl_cons, if_pos ((LossParams.hasInfix_iff _ _).mpr h2)]
    have : ∀ m : List Str, (∀ d ∈ m, ¬ (ty ++ ['.']) <:+: d) → ∀ x, m.foldl (fun acc c => if hasInfix (ty ++ ['.']) c then c else acc) x = x := by
      intro m hm
      induction m with
      | nil => intro x; rfl
      | cons d m ihm =>
        intro x
        rw [List.foldl_cons, if_neg (fun h => hm d (by simp) ((LossParams.hasInfix_iff _ _).mp h))]
        exact ihm (fun e he => hm e (by simp [he])) x
    exact this post h3 a
  have hinf : (ty ++ ['.']) <:+: a := hlast.choose_spec.choose_spec.2.1
  have hmem : a ∈ cmps := by
    obtain ⟨pre, post, h1, _⟩ := hlast
    rw [h1]; simp
  have hne : a ≠ [] := by
    rintro rfl
    have := hinf.length_le
    simp at this
  have hns := hs.source cmps
  rw [ea, if_neg hne] at hns
  have hna : str "1_" ++ ty ≠ str "1_" ++ a := fun h =>
    not_own_type ty a ((LossParams.hasInfix_iff _ _).mpr hinf) (List.append_cancel_left h).symm
  have hk : p.keys = (str "1_" ++ ty) :: p.tail.map Prod.fst := by
    rw [Dict.keys]
    conv_lhs => rw [hs.head]
    rfl
  have hf : p.keys.foldl (fun r s => (rename (cmpMap cmps) s r).2) (p.keys.map fun k => (k, k)) =
      ((p.tail.map Prod.fst).map fun k => (k, k)) ++ [(str "1_" ++ a, str "1_" ++ ty)] := by
    rw [hk, List.foldl_cons, foldl_rename_none _ _ htail, rename, hns]
    show (Dict.set ((((str "1_" ++ ty) :: p.tail.map Prod.fst)).map fun k => (k, k)) (str "1_" ++ a) (str "1_" ++ ty)).erase (str "1_" ++ ty) = _
    rw [Dict.set_of_not_mem, List.map_cons, List.cons_append, Dict.erase, if_pos rfl]
    intro hin
    have h3 : str "1_" ++ a ∈ (str "1_" ++ ty) :: p.tail.map Prod.fst := by
      obtain ⟨y, hy, h4⟩ := List.mem_map.mp hin
      obtain ⟨z, hz, rfl⟩ := List.mem_map.mp hy
      exact h4 ▸ hz
    rcases List.mem_cons.mp h3 with h4 | h4
    · exact hna h4.symm
    · obtain ⟨y, hy, h5⟩ := List.mem_map.mp h4
      have h6 := (hs.others y hy).2.1
      rw [h5, List.isPrefixOf_iff_prefix.mpr (List.prefix_append _ _)] at h6
      simp at h6
  rw [hf] at hloop
  have hhead : p.get? (str "1_" ++ ty) = some ev := by rw [hs.head, Dict.get?_cons, if_pos rfl]
  have hres : resolve p (((p.tail.map Prod.fst).map fun k => (k, k)) ++ [(str "1_" ++ a, str "1_" ++ ty)]) =
      p.tail ++ [(str "1_" ++ a, ev)] := by
    rw [resolve, List.filterMap_append]
    have e1 := resolve_self p hs.noDup
    rw [hk, resolve, List.map_cons, List.filterMap_cons, hhead] at e1
    simp only [Option.map_some] at e1
    have e2 := (List.cons.inj (e1.trans hs.head)).2
    rw [e2]
    simp [hhead]
  have hsrca : IsSource (str "1_" ++ a) a := isSource_one a (hcmp a hmem)
  obtain ⟨r, hr⟩ := filter_total cmps (p.tail ++ [(str "1_" ++ a, ev)]) (by
    intro x hx
    rcases List.mem_append.mp hx with hx | hx
    · exact isSource_of_get _ (hs.others x hx).2.2
    · rw [List.mem_singleton.mp hx]
      exact ⟨a, hsrca⟩)
  refine ⟨r, ?_, ?_⟩
  · have h1 := hs.known
    have h2 := hs.hazus
    simp only [select, h1, prepare, h2, if_true, hloop, hres, hr]
  · intro x
    rw [filterProcess_mem _ _ _ hr, List.mem_append, List.mem_singleton]
    have htl : x ∈ p.tail ↔ x ∈ p ∧ x.1 ≠ str "1_" ++ ty := by
      constructor
      · intro h
        refine ⟨List.mem_of_mem_tail h, fun he => ?_⟩
        have h6 := (hs.others x h).2.1
        rw [he, List.isPrefixOf_iff_prefix.mpr (List.prefix_append _ _)] at h6
        simp at h6
      · rintro ⟨h, hx⟩
        rw [hs.head] at h
        rcases List.mem_cons.mp h with h | h
        · rw [h] at hx; exact absurd rfl hx
        · exact h
    rw [htl]
    constructor
    · rintro ⟨⟨h1, h2⟩ | h, h3⟩
      · exact Or.inr ⟨h1, h2, h3⟩
      · exact Or.inl h
    · rintro (h | ⟨h1, h2, h3⟩)
      · exact ⟨Or.inr h, a, hmem, by rw [h]; exact hsrca⟩
      · exact ⟨Or.inl ⟨h1, h2⟩, h3⟩

theorem hazus_selected_none {name ty : Str} {p : Process} {ev : Dict Str Targets} (hs : HazusShape name ty p ev)
    (cmps : List Str) (f : Option Process) (hno : ∀ c ∈ cmps, ¬ (ty ++ ['.']) <:+: c) :
    ∃ r, (select builtIn ⟨name, cmps, f⟩).1 = .ok (some r) ∧ ∀ x, x ∈ r ↔ x ∈ p ∧ ∃ c ∈ cmps, IsSource x.1 c := by
  obtain ⟨hloop, htail⟩ := hazus_loop hs cmps
  have ea : cmpOfType cmps ty = [] := by
    rcases cmpOfType_spec cmps ty with h | ⟨h1, h2⟩
    · exact h
    · exact absurd ((LossParams.hasInfix_iff _ _).mp h2) (hno _ h1)
  have hns := hs.source cmps
  rw [ea, if_pos rfl] at hns
  have hk : p.keys = (str "1_" ++ ty) :: p.tail.map Prod.fst := by
    rw [Dict.keys]
    conv_lhs => rw [hs.head]
    rfl
  rw [foldl_rename_none _ p.keys (by
    intro k hk'
    rw [hk] at hk'
    rcases List.mem_cons.mp hk' with rfl | h
    · exact hns
    · exact htail k h)] at hloop
  obtain ⟨r, hr⟩ := filter_total cmps p (by
    intro x hx
    rw [hs.head] at hx
    rcases List.mem_cons.mp hx with rfl | hx
    · exact ⟨ty, isSource_one ty hs.noUnderscore⟩
    · exact isSource_of_get _ (hs.others x hx).2.2)
  refine ⟨r, ?_, filterProcess_mem _ _ _ hr⟩
  have h1 := hs.known
  have h2 := hs.hazus
  simp only [select, h1, prepare, h2, if_true, hloop, resolve_self p hs.noDup, hr]

theorem buildings_shape : HazusShape (str "Hazus Earthquake - Buildings") (str "STR") hazusBuildings [(str "DS5", .one (str "collapse_DS1"))] :=
  ⟨by decide, by decide, by decide, by unfold Dict.NoDupKeys; decide, by decide, by decide, by decide, newSource_str, by decide⟩

theorem lifeline_shape : HazusShape (str "Hazus Earthquake - Lifeline Facilities") (str "LF") hazusLifeline [(str "DS5", .one (str "collapse_DS1"))] :=
  ⟨by decide, by decide, by decide, by unfold Dict.NoDupKeys; decide, by decide, by decide, by decide, newSource_lf, by decide⟩

/-- **C64 (Hazus, buildings).** For an asset with a structural component - a component whose name
contains `STR.` - the selected tasks are: the structural damage task, with the last structural
component as its source, and the further tasks of the built-in process whose source is part of the
asset. -/
theorem C64_buildings_selected (cmps : List Str) (f : Option Process) (hcmp : ∀ c ∈ cmps, '_' ∉ c)
    (a : Str) (ha : IsLastWith (str "STR.") cmps a) :
    ∃ r, (select builtIn ⟨str "Hazus Earthquake - Buildings", cmps, f⟩).1 = .ok (some r) ∧
      ∀ x, x ∈ r ↔ x = (str "1_" ++ a, [(str "DS5", .one (str "collapse_DS1"))]) ∨
        (x ∈ hazusBuildings ∧ x.1 ≠ str "1_STR" ∧ ∃ c ∈ cmps, IsSource x.1 c) :=
  hazus_selected buildings_shape cmps f hcmp a ha

/-- **C64 (Hazus, lifeline facilities).** The same with the last component whose name contains `LF.`. -/
theorem C64_lifeline_selected (cmps : List Str) (f : Option Process) (hcmp : ∀ c ∈ cmps, '_' ∉ c)
    (a : Str) (ha : IsLastWith (str "LF.") cmps a) :
    ∃ r, (select builtIn ⟨str "Hazus Earthquake - Lifeline Facilities", cmps, f⟩).1 = .ok (some r) ∧
      ∀ x, x ∈ r ↔ x = (str "1_" ++ a, [(str "DS5", .one (str "collapse_DS1"))]) ∨
        (x ∈ hazusLifeline ∧ x.1 ≠ str "1_LF" ∧ ∃ c ∈ cmps, IsSource x.1 c) :=
  hazus_selected lifeline_shape cmps f hcmp a ha

/-- **C64 (Hazus, other assets).** Without a component of the type the selected tasks are those of the
built-in process whose source is part of the asset. -/
theorem C64_no_typed_component (cmps : List Str) (f : Option Process) :
    ((∀ c ∈ cmps, ¬ str "STR." <:+: c) →
      ∃ r, (select builtIn ⟨str "Hazus Earthquake - Buildings", cmps, f⟩).1 = .ok (some r) ∧
        ∀ x, x ∈ r ↔ x ∈ hazusBuildings ∧ ∃ c ∈ cmps, IsSource x.1 c) ∧
    ((∀ c ∈ cmps, ¬ str "LF." <:+: c) →
      ∃ r, (select builtIn ⟨str "Hazus Earthquake - Lifeline Facilities", cmps, f⟩).1 = .ok (some r) ∧
        ∀ x, x ∈ r ↔ x ∈ hazusLifeline ∧ ∃ c ∈ cmps, IsSource x.1 c) :=
  ⟨hazus_selected_none buildings_shape cmps f, hazus_selected_none lifeline_shape cmps f⟩

/-- **C64 (other approaches).** The hurricane process has no tasks; a process of the user is used as it
is and has to be given; any other approach means no process. -/
theorem C64_other_approaches (cmps : List Str) :
    (∀ f, (select builtIn ⟨str "Hazus Hurricane", cmps, f⟩).1 = .ok (some [])) ∧
    (∀ p, (select builtIn ⟨str "User Defined", cmps, some p⟩).1 = .ok (some p)) ∧
    (select builtIn ⟨str "User Defined", cmps, none⟩).1 = .error .valueError ∧
    ∀ approach f, approach ∉ [str "FEMA P-58", str "Hazus Earthquake - Lifeline Facilities",
        str "Hazus Earthquake - Buildings", str "Hazus Hurricane", str "User Defined"] →
      (select builtIn ⟨approach, cmps, f⟩).1 = .ok none := by
  refine ⟨fun f => ?_, fun p => ?_, ?_, fun approach f h => ?_⟩
  · have hg : builtIn.get? (str "Hazus Hurricane") = some [] := by decide
    have ha : isHazusEarthquake (str "Hazus Hurricane") = false := by decide
    simp [select, hg, prepare, ha, filterProcess]
  · have hg : builtIn.get? (str "User Defined") = none := by decide
    simp [select, hg]
  · have hg : builtIn.get? (str "User Defined") = none := by decide
    simp [select, hg]
  · have hg : builtIn.get? approach = none := by
      rw [Dict.get?_eq_none_iff]
      intro hk
      have : ∀ k ∈ Dict.keys builtIn, k ∈ [str "FEMA P-58", str "Hazus Earthquake - Lifeline Facilities",
        str "Hazus Earthquake - Buildings", str "Hazus Hurricane", str "User Defined"] := by decide
      exact h (this _ hk)
    have hu : approach ≠ str "User Defined" := fun e => h (by simp [e])
    simp [select, hg, hu]

/-- Not vacuous: the second of two structural components. -/
example : (∀ c ∈ [str "STR.W1", str "STR.C2", str "NSA.X", str "collapse"], '_' ∉ c) ∧
    IsLastWith (str "STR.") [str "STR.W1", str "STR.C2", str "NSA.X", str "collapse"] (str "STR.C2") := by
  refine ⟨by decide, [str "STR.W1"], [str "NSA.X", str "collapse"], rfl, ⟨[], str "C2", rfl⟩, ?_⟩
  intro c hc h
  rw [← LossParams.hasInfix_iff] at h
  revert c
  decide

set_option synthInstance.maxSize 4000 in
/-- A structural component with an underscore in its name loses its damage task: the task is dropped
without a message. -/
theorem C64_underscore_drops_task :
    (select builtIn ⟨str "Hazus Earthquake - Buildings", [str "STR.W1_a", str "collapse"], none⟩).1 =
      .ok (some [(str "3_collapse", [(str "DS1", .one (str "ALL_NA"))])]) := by decide +kernel

end Verif.AsmProcess
