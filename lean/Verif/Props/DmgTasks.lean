import Verif.Model.DmgTasks
import Verif.Props.FileIO
import Verif.Props.DmgBatch
import Verif.Lemmas.PyStr
import Verif.Lemmas.PyNum
import Verif.Lemmas.PySort

/-! # Properties C42 - C45: damage processes -/

namespace Verif.DmgTasks

open Verif.DmgEval (BlockId)
open Verif.DmgBatch (maxOf maxOf_eq)
open Verif.FileIO (uniqueVals uniqueVals_mem uniqueVals_nodup)

/-! ## Specification -/

/-- The highest damage state among the columns that satisfy `P` is `k`. -/
def HighestIs (cols : List BlockId) (P : BlockId → Prop) (row : BlockId → Int) (k : Int) : Prop :=
  (∃ c ∈ cols, P c ∧ row c = k) ∧ ∀ c ∈ cols, P c → row c ≤ k

/-- The columns that the target text of a task denotes: all except those of the source, or those of
one component. -/
def Targeted (source target : Str) (c : BlockId) : Prop :=
  (target = str "ALL" ∧ c.cmp ≠ source) ∨ (target ≠ str "ALL" ∧ c.cmp = target)

/-- What one event does to a realization. -/
def Step (cols : List BlockId) (source : Str) (k : Int) (target : Str) (m : Int) (row row' : BlockId → Int) : Prop :=
  ∀ c ∈ cols,
    (HighestIs cols (fun c => c.cmp = source) row k ∧ Targeted source target c → row' c = m) ∧
    (¬ (HighestIs cols (fun c => c.cmp = source) row k ∧ Targeted source target c) → row' c = row c)

/-- The same within the location of the column. -/
def StepLoc (cols : List BlockId) (source : Str) (k : Int) (target : Str) (m : Int) (row row' : BlockId → Int) : Prop :=
  ∀ c ∈ cols,
    (HighestIs cols (fun d => d.cmp = source ∧ d.loc = c.loc) row k ∧ Targeted source target c → row' c = m) ∧
    (¬ (HighestIs cols (fun d => d.cmp = source ∧ d.loc = c.loc) row k ∧ Targeted source target c) → row' c = row c)

/-- `m` is the damage state that the text denotes. -/
def Effect (text : Str) (m : Int) : Prop := (text = str "NA" ∧ m = -1) ∨ text = str "DS" ++ intStr m

/-- `R` relates each realization of `s` to the same realization of `s'`. -/
def RowWise (R : (BlockId → Int) → (BlockId → Int) → Prop) (s s' : Sample) : Prop :=
  s'.cols = s.cols ∧ List.Forall₂ R s.rows s'.rows

/-! ## Parsing -/

theorem highest_iff (cols : List BlockId) (p : BlockId → Bool) (P : BlockId → Prop) (hP : ∀ c, p c = true ↔ P c)
    (row : BlockId → Int) (k : Int) : highest cols p row = some k ↔ HighestIs cols P row k := by
  unfold highest HighestIs
  have hmem : ∀ x, x ∈ (cols.filter p).map row ↔ ∃ c ∈ cols, P c ∧ row c = x := by
    intro x
    simp only [List.mem_map, List.mem_filter, hP]
    constructor
    · rintro ⟨c, ⟨h1, h2⟩, h3⟩; exact ⟨c, h1, h2, h3⟩
    · rintro ⟨c, h1, h2, h3⟩; exact ⟨c, ⟨h1, h2⟩, h3⟩
  constructor
  · intro h
    by_cases hne : (cols.filter p).map row = []
    · rw [hne] at h; simp [maxOf] at h
    · obtain ⟨m, hm, hmax⟩ : ∃ m ∈ (cols.filter p).map row, ∀ x ∈ (cols.filter p).map row, x ≤ m := by
        generalize (cols.filter p).map row = l at hne
        clear h hmem
        induction l with
        | nil => exact absurd rfl hne
        | cons a l ih =>
          by_cases hl : l = []
          · subst hl; exact ⟨a, by simp, by simp⟩
          · obtain ⟨m, h1, h2⟩ := ih hl
            by_cases ham : a ≤ m
            · refine ⟨m, List.mem_cons_of_mem _ h1, ?_⟩
              intro x hx
              rcases List.mem_cons.1 hx with rfl | hx
              · exact ham
              · exact h2 x hx
            · refine ⟨a, by simp, ?_⟩
              intro x hx
              rcases List.mem_cons.1 hx with rfl | hx
              · exact le_refl _
              · have := h2 x hx; omega
      rw [maxOf_eq hm hmax] at h
      cases h
      obtain ⟨c, h1, h2, h3⟩ := (hmem _).1 hm
      exact ⟨⟨c, h1, h2, h3⟩, fun c hc hPc => hmax _ ((hmem _).2 ⟨c, hc, hPc, rfl⟩)⟩
  · rintro ⟨h1, h2⟩
    apply maxOf_eq ((hmem _).2 h1)
    intro x hx
    obtain ⟨c, hc, hPc, rfl⟩ := (hmem _).1 hx
    exact h2 c hc hPc

theorem isTarget_iff (e : Ev) (c : BlockId) : isTarget e c = true ↔ Targeted e.source e.target c := by
  unfold isTarget Targeted
  by_cases h : e.target = str "ALL"
  · simp [h]
  · simp [h]

theorem event_step (cols : List BlockId) (e : Ev) (row : BlockId → Int) :
    Step cols e.source e.dsSource e.target e.dsTarget row (event cols e row) := by
  intro c _
  unfold event setIf
  have hh := highest_iff cols (fun c => decide (c.cmp = e.source)) (fun c => c.cmp = e.source) (by simp) row e.dsSource
  by_cases h : HighestIs cols (fun c => c.cmp = e.source) row e.dsSource
  · rw [if_pos (hh.2 h)]
    by_cases ht : Targeted e.source e.target c
    · simp [(isTarget_iff e c).2 ht, h, ht]
    · have : isTarget e c = false := by
        rw [← Bool.not_eq_true, isTarget_iff]; exact ht
      simp [this, ht]
  · rw [if_neg (fun x => h (hh.1 x))]
    simp [h]

theorem highest_congr (cols : List BlockId) (P : BlockId → Prop) (row row' : BlockId → Int) (k : Int)
    (h : ∀ c ∈ cols, P c → row' c = row c) : HighestIs cols P row' k ↔ HighestIs cols P row k := by
  unfold HighestIs
  constructor
  · rintro ⟨⟨c, h1, h2, h3⟩, h4⟩
    exact ⟨⟨c, h1, h2, by rw [← h c h1 h2]; exact h3⟩, fun d hd hP => by rw [← h d hd hP]; exact h4 d hd hP⟩
  · rintro ⟨⟨c, h1, h2, h3⟩, h4⟩
    exact ⟨⟨c, h1, h2, by rw [h c h1 h2]; exact h3⟩, fun d hd hP => by rw [h d hd hP]; exact h4 d hd hP⟩

theorem eventAt_eq (cols : List BlockId) (e : Ev) (row : BlockId → Int) (loc : Str) (c : BlockId) :
    (HighestIs cols (fun d => d.cmp = e.source ∧ d.loc = loc) row e.dsSource ∧ Targeted e.source e.target c ∧ c.loc = loc →
      eventAt cols e row loc c = e.dsTarget) ∧
    (¬ (HighestIs cols (fun d => d.cmp = e.source ∧ d.loc = loc) row e.dsSource ∧ Targeted e.source e.target c ∧ c.loc = loc) →
      eventAt cols e row loc c = row c) := by
  unfold eventAt setIf
  have hh := highest_iff cols (fun c => decide (c.cmp = e.source ∧ c.loc = loc)) (fun c => c.cmp = e.source ∧ c.loc = loc)
    (by simp) row e.dsSource
  by_cases h : HighestIs cols (fun d => d.cmp = e.source ∧ d.loc = loc) row e.dsSource
  · rw [if_pos (hh.2 h)]
    by_cases ht : Targeted e.source e.target c ∧ c.loc = loc
    · simp [(isTarget_iff e c).2 ht.1, ht.2, h, ht.1]
    · have : (isTarget e c && decide (c.loc = loc)) = false := by
        rw [← Bool.not_eq_true, Bool.and_eq_true, isTarget_iff, decide_eq_true_eq]; exact ht
      simp only [this]
      refine ⟨fun hc => absurd hc.2 ht, fun _ => by simp⟩
  · rw [if_neg (fun x => h (hh.1 x))]
    refine ⟨fun hc => absurd hc.1 h, fun _ => rfl⟩

theorem foldl_eventAt (cols : List BlockId) (e : Ev) (locs : List Str) (hnd : locs.Nodup) :
    ∀ row : BlockId → Int, ∀ c,
    (c.loc ∈ locs ∧ HighestIs cols (fun d => d.cmp = e.source ∧ d.loc = c.loc) row e.dsSource ∧ Targeted e.source e.target c →
      locs.foldl (eventAt cols e) row c = e.dsTarget) ∧
    (¬ (c.loc ∈ locs ∧ HighestIs cols (fun d => d.cmp = e.source ∧ d.loc = c.loc) row e.dsSource ∧
      Targeted e.source e.target c) → locs.foldl (eventAt cols e) row c = row c) := by
  induction locs with
  | nil => intro row c; simp
  | cons l locs ih =>
    intro row c
    rw [List.nodup_cons] at hnd
    rw [List.foldl_cons]
    obtain ⟨i1, i2⟩ := ih hnd.2 (eventAt cols e row l) c
    obtain ⟨e1, e2⟩ := eventAt_eq cols e row l c
    have hcongr : ∀ x, x ≠ l → (HighestIs cols (fun d => d.cmp = e.source ∧ d.loc = x) (eventAt cols e row l) e.dsSource ↔
        HighestIs cols (fun d => d.cmp = e.source ∧ d.loc = x) row e.dsSource) := by
      intro x hx
      apply highest_congr
      intro d _ hd
      exact (eventAt_eq cols e row l d).2 fun h => hx (hd.2 ▸ h.2.2)
    by_cases hcl : c.loc = l
    · have hnin : c.loc ∉ locs := hcl ▸ hnd.1
      rw [i2 fun h => hnin h.1]
      subst hcl
      constructor
      · rintro ⟨_, h2, h3⟩; exact e1 ⟨h2, h3, rfl⟩
      · intro h; exact e2 fun h' => h ⟨by simp, h'.1, h'.2.1⟩
    · have hne := hcongr c.loc hcl
      constructor
      · rintro ⟨h1, h2, h3⟩
        exact i1 ⟨by simpa [hcl] using h1, hne.2 h2, h3⟩
      · intro h
        rw [i2 fun h' => h ⟨List.mem_cons_of_mem _ h'.1, hne.1 h'.2.1, h'.2.2⟩]
        exact e2 fun h' => hcl h'.2.2

theorem applyEv_stepLoc (visit : List Str → List Str) (hv : ∀ l, (visit l).Perm l) (cols : List BlockId) (e : Ev)
    (he : e.matchLoc = true) (row : BlockId → Int) :
    StepLoc cols e.source e.dsSource e.target e.dsTarget row (applyEv visit cols row e) := by
  intro c _
  unfold applyEv
  rw [if_pos he]
  have hnd : (visit (sourceLocs cols e.source)).Nodup := (hv _).nodup_iff.2 (uniqueVals_nodup _ _)
  obtain ⟨h1, h2⟩ := foldl_eventAt cols e _ hnd row c
  have hin : HighestIs cols (fun d => d.cmp = e.source ∧ d.loc = c.loc) row e.dsSource →
      c.loc ∈ visit (sourceLocs cols e.source) := by
    rintro ⟨⟨d, hd, ⟨hd1, hd2⟩, _⟩, _⟩
    rw [(hv _).mem_iff]
    unfold sourceLocs
    rw [uniqueVals_mem]
    exact ⟨List.mem_map.2 ⟨d, List.mem_filter.2 ⟨hd, by simpa using hd1⟩, hd2⟩, by simp⟩
  exact ⟨fun h => h1 ⟨hin h.1, h.1, h.2⟩, fun h => h2 fun h' => h ⟨h'.2.1, h'.2.2⟩⟩

theorem parseTrigger_ds (k : Int) : parseTrigger (str "DS" ++ intStr k) = .ok k := by
  unfold parseTrigger
  rw [if_pos (by simp)]
  unfold parseDs
  rw [show (str "DS" ++ intStr k).drop 2 = intStr k from rfl, pyInt?_intStr]

theorem parseTargetEvent_effect {t : Str} {m : Int} (h : Effect t m) : parseTargetEvent t = .ok m := by
  rcases h with ⟨rfl, rfl⟩ | rfl
  · rfl
  · exact parseTrigger_ds' m
where
  parseTrigger_ds' (m : Int) : parseTargetEvent (str "DS" ++ intStr m) = .ok m := by
    unfold parseTargetEvent
    rw [if_pos (by simp)]
    unfold parseDs
    rw [show (str "DS" ++ intStr m).drop 2 = intStr m from rfl, pyInt?_intStr]

theorem intStr_underscore (n : Int) : '_' ∉ intStr n := by
  intro h
  rcases intStr_chars n _ h with h | h
  · exact absurd h (by decide)
  · exact absurd h (by decide)

theorem effect_underscore {t : Str} {m : Int} (h : Effect t m) : '_' ∉ t := by
  rcases h with ⟨rfl, rfl⟩ | rfl
  · decide
  · intro hm
    rcases List.mem_append.1 hm with hm | hm
    · exact absurd hm (by decide)
    · exact intStr_underscore m hm

theorem split2 (a b : Str) (ha : '_' ∉ a) (hb : '_' ∉ b) : splitChar '_' (a ++ '_' :: b) = [a, b] := by
  rw [splitChar_append_sep _ _ _ ha, splitChar_no_sep _ _ hb]

theorem parseTask_single (present : List Str) (matchLoc : Bool) (src : Str) (name tgt eff : Str) (k m : Int)
    (hs : parseSource name = .ok (matchLoc, src)) (ht : '_' ∉ tgt) (he : Effect eff m) :
    parseTask present (name, [(str "DS" ++ intStr k, .one (tgt ++ '_' :: eff))]) =
      .ok (if src ∉ present then [] else if tgt ≠ str "ALL" ∧ tgt ∉ present then [] else
        [⟨matchLoc, src, k, tgt, m⟩]) := by
  unfold parseTask
  simp only [hs]
  by_cases hp : src ∉ present
  · rw [if_pos hp, if_pos hp]
  · rw [if_neg hp, if_neg hp]
    have htg : parseTarget present matchLoc src k (tgt ++ '_' :: eff) =
        .ok (if tgt ≠ str "ALL" ∧ tgt ∉ present then none else some ⟨matchLoc, src, k, tgt, m⟩) := by
      unfold parseTarget
      rw [split2 _ _ ht (effect_underscore he)]
      simp only
      by_cases hc : tgt ≠ str "ALL" ∧ tgt ∉ present
      · rw [if_pos hc, if_pos hc]
      · rw [if_neg hc, if_neg hc, parseTargetEvent_effect he]
    simp only [mapE, parseEvent, parseTrigger_ds, Targets.list, htg]
    by_cases hc : tgt ≠ str "ALL" ∧ tgt ∉ present
    · simp [if_pos hc]
    · simp only [if_neg hc]; rfl

theorem forall₂_map_right {α β : Type} {R : α → β → Prop} {f : α → β} (l : List α) (h : ∀ a, R a (f a)) :
    List.Forall₂ R l (l.map f) := by
  induction l with
  | nil => exact .nil
  | cons a l ih => exact .cons (h a) ih

/-! ## C42 -/

/-- C42: a task with one event (without location matching) changes a realization only if the highest
damage state of the source component is the trigger, and then puts exactly the targeted columns in
the requested state (-1 for `NA`). -/
theorem C42_event (visit : List Str → List Str) (s : Sample) (num src tgt eff : Str) (k m : Int)
    (hnum : '_' ∉ num) (hsrc : '_' ∉ src) (hloc : ¬ str "-LOC" <:+ src) (htgt : '_' ∉ tgt) (heff : Effect eff m) :
    ∃ s', performTask visit s (num ++ '_' :: src, [(str "DS" ++ intStr k, .one (tgt ++ '_' :: eff))]) = .ok s' ∧
      RowWise (Step s.cols src k tgt m) s s' := by
  have hs : parseSource (num ++ '_' :: src) = .ok (false, src) := by
    unfold parseSource
    rw [split2 _ _ hnum hsrc]
    simp only
    rw [if_neg]
    rw [List.isSuffixOf_iff_suffix]
    exact hloc
  unfold performTask
  rw [parseTask_single s.present false src _ tgt eff k m hs htgt heff]
  refine ⟨_, rfl, rfl, ?_⟩
  apply forall₂_map_right
  intro row
  by_cases hp : src ∉ s.present
  · rw [if_pos hp]
    intro c hc
    refine ⟨?_, fun _ => rfl⟩
    rintro ⟨⟨⟨d, hd, hd1, _⟩, _⟩, _⟩
    exact absurd (List.mem_map.2 ⟨d, hd, hd1⟩) hp
  · rw [if_neg hp]
    by_cases hc : tgt ≠ str "ALL" ∧ tgt ∉ s.present
    · rw [if_pos hc]
      intro c hcc
      refine ⟨?_, fun _ => rfl⟩
      rintro ⟨_, ht⟩
      rcases ht with ⟨h1, _⟩ | ⟨_, h2⟩
      · exact absurd h1 hc.1
      · exact absurd (List.mem_map.2 ⟨c, hcc, h2⟩) hc.2
    · rw [if_neg hc]
      exact event_step s.cols ⟨false, src, k, tgt, m⟩ row

theorem mapE_append {α β : Type} (f : α → Except PyErr β) (l1 l2 : List α) :
    mapE f (l1 ++ l2) = (match mapE f l1 with
      | .error e => .error e
      | .ok r1 => match mapE f l2 with
        | .error e => .error e
        | .ok r2 => .ok (r1 ++ r2)) := by
  induction l1 with
  | nil => simp only [List.nil_append, mapE]; cases mapE f l2 <;> rfl
  | cons a l ih =>
    simp only [List.cons_append, mapE]
    cases f a with
    | error e => rfl
    | ok b =>
      simp only [ih]
      cases mapE f l with
      | error e => rfl
      | ok r1 => simp only; cases mapE f l2 <;> rfl

/-- C42: the events of a task are performed one after the other. -/
theorem C42_events_in_sequence (visit : List Str → List Str) (s : Sample) (name : Str) (e1 e2 : Dict Str Targets) :
    performTask visit s (name, e1 ++ e2) =
      (match performTask visit s (name, e1) with
       | .error e => .error e
       | .ok s' => performTask visit s' (name, e2)) := by
  unfold performTask parseTask
  simp only
  cases parseSource name with
  | error e => rfl
  | ok p =>
    obtain ⟨ml, src⟩ := p
    simp only
    by_cases hp : src ∉ s.present
    · simp only [if_pos hp]
      have : (⟨s.cols, s.rows.map fun row => List.foldl (applyEv visit s.cols) row []⟩ : Sample).present = s.present := rfl
      simp only [this, if_pos hp, List.foldl_nil, List.map_id']
    · simp only [if_neg hp, mapE_append]
      cases mapE (parseEvent s.present ml src) e1 with
      | error e => rfl
      | ok r1 =>
        simp only
        have : ∀ rows, (⟨s.cols, rows⟩ : Sample).present = s.present := fun _ => rfl
        simp only [this, if_neg hp]
        cases mapE (parseEvent s.present ml src) e2 with
        | error e => rfl
        | ok r2 => simp [List.foldl_append, Function.comp_def]

/-- C42: several targets of an event are handled one after the other. -/
theorem C42_targets_in_sequence (visit : List Str → List Str) (s : Sample) (name ev : Str) (t1 t2 : List Str) :
    performTask visit s (name, [(ev, .many (t1 ++ t2))]) =
      (match performTask visit s (name, [(ev, .many t1)]) with
       | .error e => .error e
       | .ok s' => performTask visit s' (name, [(ev, .many t2)])) := by
  unfold performTask parseTask
  simp only
  cases parseSource name with
  | error e => rfl
  | ok p =>
    obtain ⟨ml, src⟩ := p
    simp only
    by_cases hp : src ∉ s.present
    · simp only [if_pos hp]
      have : (⟨s.cols, s.rows.map fun row => List.foldl (applyEv visit s.cols) row []⟩ : Sample).present = s.present := rfl
      simp only [this, if_pos hp, List.foldl_nil, List.map_id']
    · simp only [if_neg hp, mapE, parseEvent, Targets.list, mapE_append]
      cases parseTrigger ev with
      | error e => rfl
      | ok ds =>
        simp only
        cases mapE (parseTarget s.present ml src ds) t1 with
        | error e => rfl
        | ok r1 =>
          simp only
          have : ∀ rows, (⟨s.cols, rows⟩ : Sample).present = s.present := fun _ => rfl
          simp only [this, if_neg hp]
          cases mapE (parseTarget s.present ml src ds) t2 with
          | error e => rfl
          | ok r2 => simp [List.foldl_append, Function.comp_def]

/-- C42: a list with one target is the same as that target. -/
theorem C42_one_target (visit : List Str → List Str) (s : Sample) (name ev t : Str) :
    performTask visit s (name, [(ev, .many [t])]) = performTask visit s (name, [(ev, .one t)]) := rfl

theorem split_count (c : Char) (s : Str) : (splitChar c s).length = s.count c + 1 := by
  induction s with
  | nil => rfl
  | cons a s ih =>
    simp only [splitChar]
    by_cases h : a = c
    · subst h
      simp [ih]
    · rw [if_neg h]
      have hc : (a :: s).count c = s.count c := List.count_cons_of_ne h
      rw [hc, ← ih]
      cases hs : splitChar c s with
      | nil => exact absurd hs (splitChar_ne_nil c s)
      | cons w ws => rfl

/-- C42: a task of a component in the sample is refused if its trigger is not a damage state, if its target does not
have exactly one underscore, or if the state requested for a component in the sample is neither a damage state nor
`NA`. -/
theorem C42_malformed_refused (visit : List Str → List Str) (s : Sample) (num src ev info : Str)
    (hnum : '_' ∉ num) (hsrc : '_' ∉ src) (hpres : ∃ c ∈ s.cols, c.cmp = src) (hloc : ¬ str "-LOC" <:+ src)
    (hbad : ¬ str "DS" <+: ev ∨ (∃ k, ev = str "DS" ++ intStr k) ∧
      (info.count '_' ≠ 1 ∨ ∃ tgt eff, info = tgt ++ '_' :: eff ∧ '_' ∉ tgt ∧ '_' ∉ eff ∧
        (tgt = str "ALL" ∨ ∃ c ∈ s.cols, c.cmp = tgt) ∧ ¬ str "DS" <+: eff ∧ eff ≠ str "NA")) :
    performTask visit s (num ++ '_' :: src, [(ev, .one info)]) = .error .valueError := by
  have hs : parseSource (num ++ '_' :: src) = .ok (false, src) := by
    unfold parseSource
    rw [split2 _ _ hnum hsrc]
    simp only
    rw [if_neg]
    rw [List.isSuffixOf_iff_suffix]
    exact hloc
  have hp : ¬ src ∉ s.present := by
    obtain ⟨c, hc, rfl⟩ := hpres
    exact not_not.2 (List.mem_map.2 ⟨c, hc, rfl⟩)
  unfold performTask parseTask
  simp only [hs, if_neg hp, mapE, parseEvent, Targets.list]
  rcases hbad with h | ⟨⟨k, rfl⟩, h⟩
  · have : parseTrigger ev = .error .valueError := by
      unfold parseTrigger
      rw [if_neg]
      rw [List.isPrefixOf_iff_prefix]
      exact h
    rw [this]
  · rw [parseTrigger_ds]
    have : parseTarget s.present false src k info = .error .valueError := by
      unfold parseTarget
      rcases h with h | ⟨tgt, eff, rfl, h1, h2, h3, h4, h5⟩
      · have := split_count '_' info
        split
        · rename_i t e he
          rw [he] at this
          simp at this
          omega
        · rfl
      · rw [split2 _ _ h1 h2]
        simp only
        rw [if_neg]
        · have : parseTargetEvent eff = .error .valueError := by
            unfold parseTargetEvent
            rw [if_neg, if_neg h5]
            rw [List.isPrefixOf_iff_prefix]
            exact h4
          rw [this]
        · rintro ⟨h6, h7⟩
          rcases h3 with h3 | ⟨c, hc, hc2⟩
          · exact h6 h3
          · exact h7 (List.mem_map.2 ⟨c, hc, hc2⟩)
    simp only [this]

/-- The name of a component with an underscore is cut at the underscore, although the documentation
of the task format uses `1_CMP_A`: the task of such a component is skipped. -/
theorem C42_underscore_cut (visit : List Str → List Str) (s : Sample) (evs : Dict Str Targets)
    (h : str "CMP" ∉ s.present) : performTask visit s (str "1_CMP_A", evs) = .ok s := by
  unfold performTask parseTask
  rw [show parseSource (str "1_CMP_A", evs).1 = .ok (false, str "CMP") by simp only; decide +kernel]
  simp only [if_pos h, List.foldl_nil, List.map_id']

/-! ## C43 -/

theorem dropLoc_append (src : Str) (h : '-' ∉ src) : dropLoc (src ++ str "-LOC") = src := by
  induction src with
  | nil => decide
  | cons a src ih =>
    simp only [List.mem_cons, not_or] at h
    have ha : a ≠ '-' := fun x => h.1 x.symm
    rw [List.cons_append]
    unfold dropLoc
    split
    · rename_i heq
      simp only [List.cons.injEq] at heq
      exact absurd heq.1 ha
    · rename_i c s' _ heq
      simp only [List.cons.injEq] at heq
      rw [← heq.1, ← heq.2, ih h.2]
    · simp_all

/-- C43: a task with location matching changes a column only if the highest damage state of the
source component at the location of the column is the trigger; this holds for every order in which
the locations are visited. -/
theorem C43_event_at_location (visit : List Str → List Str) (hv : ∀ l, (visit l).Perm l) (s : Sample)
    (num src tgt eff : Str) (k m : Int) (hnum : '_' ∉ num) (hsrc : '_' ∉ src) (hdash : '-' ∉ src)
    (htgt : '_' ∉ tgt) (heff : Effect eff m) :
    ∃ s', performTask visit s (num ++ '_' :: (src ++ str "-LOC"), [(str "DS" ++ intStr k, .one (tgt ++ '_' :: eff))]) = .ok s' ∧
      RowWise (StepLoc s.cols src k tgt m) s s' := by
  have hs : parseSource (num ++ '_' :: (src ++ str "-LOC")) = .ok (true, src) := by
    unfold parseSource
    rw [split2 _ _ hnum (by simp only [List.mem_append, not_or]; exact ⟨hsrc, by decide⟩)]
    simp only
    rw [if_pos, dropLoc_append src hdash]
    rw [List.isSuffixOf_iff_suffix]
    exact List.suffix_append _ _
  unfold performTask
  rw [parseTask_single s.present true src _ tgt eff k m hs htgt heff]
  refine ⟨_, rfl, rfl, ?_⟩
  apply forall₂_map_right
  intro row
  by_cases hp : src ∉ s.present
  · rw [if_pos hp]
    intro c hc
    refine ⟨?_, fun _ => rfl⟩
    rintro ⟨⟨⟨d, hd, hd1, _⟩, _⟩, _⟩
    exact absurd (List.mem_map.2 ⟨d, hd, hd1.1⟩) hp
  · rw [if_neg hp]
    by_cases hc : tgt ≠ str "ALL" ∧ tgt ∉ s.present
    · rw [if_pos hc]
      intro c hcc
      refine ⟨?_, fun _ => rfl⟩
      rintro ⟨_, ht⟩
      rcases ht with ⟨h1, _⟩ | ⟨_, h2⟩
      · exact absurd h1 hc.1
      · exact absurd (List.mem_map.2 ⟨c, hcc, h2⟩) hc.2
    · rw [if_neg hc]
      exact applyEv_stepLoc visit hv s.cols ⟨true, src, k, tgt, m⟩ rfl row

/-- C43: two visiting orders give the same damage states, for every task. -/
theorem C43_order_irrelevant (v1 v2 : List Str → List Str) (h1 : ∀ l, (v1 l).Perm l) (h2 : ∀ l, (v2 l).Perm l)
    (s : Sample) (t : Task) : performTask v1 s t = performTask v2 s t := by
  unfold performTask
  cases parseTask s.present t with
  | error e => rfl
  | ok evs =>
    simp only
    have : ∀ row e, applyEv v1 s.cols row e = applyEv v2 s.cols row e := by
      intro row e
      unfold applyEv
      by_cases he : e.matchLoc = true
      · rw [if_pos he, if_pos he]
        funext c
        have n1 : (v1 (sourceLocs s.cols e.source)).Nodup := (h1 _).nodup_iff.2 (uniqueVals_nodup _ _)
        have n2 : (v2 (sourceLocs s.cols e.source)).Nodup := (h2 _).nodup_iff.2 (uniqueVals_nodup _ _)
        obtain ⟨a1, a2⟩ := foldl_eventAt s.cols e _ n1 row c
        obtain ⟨b1, b2⟩ := foldl_eventAt s.cols e _ n2 row c
        have hm : c.loc ∈ v1 (sourceLocs s.cols e.source) ↔ c.loc ∈ v2 (sourceLocs s.cols e.source) := by
          rw [(h1 _).mem_iff, (h2 _).mem_iff]
        rw [← hm] at b1 b2
        by_cases hc : c.loc ∈ v1 (sourceLocs s.cols e.source) ∧
            HighestIs s.cols (fun d => d.cmp = e.source ∧ d.loc = c.loc) row e.dsSource ∧ Targeted e.source e.target c
        · rw [a1 hc, b1 hc]
        · rw [a2 hc, b2 hc]
      · rw [if_neg he, if_neg he]
    rw [show applyEv v1 s.cols = applyEv v2 s.cols by funext row e; exact this row e]

/-! ## C44 -/

section FEMA

abbrev collapse : Str := str "collapse"
abbrev irreparable : Str := str "irreparable"

/-- The component is present and its highest damage state is `k`. -/
def InState (cols : List BlockId) (row : BlockId → Int) (cmp : Str) (k : Int) : Prop :=
  HighestIs cols (fun c => c.cmp = cmp) row k

/-- What the last four tasks of the built-in processes achieve. -/
structure Exclusive (cols : List BlockId) (row row' : BlockId → Int) : Prop where
  collapsed : InState cols row' collapse 1 → ∀ c ∈ cols, c.cmp ≠ collapse → row' c = -1
  irrep : InState cols row' irreparable 1 → ∀ c ∈ cols,
    (c.cmp = collapse → row' c = 0) ∧ (c.cmp ≠ collapse → c.cmp ≠ irreparable → row' c = -1)
  keepsCollapse : InState cols row collapse 1 → InState cols row' collapse 1
  triggersIrrep : ¬ InState cols row collapse 1 → (∃ c ∈ cols, c.cmp = irreparable) →
    InState cols row (str "excessiveRID") 1 ∨ InState cols row irreparable 1 → InState cols row' irreparable 1
  otherwise : ¬ InState cols row collapse 1 → ¬ InState cols row (str "excessiveRID") 1 →
    ¬ InState cols row irreparable 1 → ∀ c ∈ cols, row' c = row c

theorem not_highest_of_na {cols : List BlockId} {cmp : Str} {row : BlockId → Int}
    (h : ∀ c ∈ cols, c.cmp = cmp → row c = -1) : ¬ InState cols row cmp 1 := by
  rintro ⟨⟨c, hc, hcmp, h1⟩, _⟩
  rw [h c hc hcmp] at h1
  omega

theorem inState_of_const {cols : List BlockId} {cmp : Str} {row : BlockId → Int} {k : Int}
    (hex : ∃ c ∈ cols, c.cmp = cmp) (h : ∀ c ∈ cols, c.cmp = cmp → row c = k) : InState cols row cmp k := by
  obtain ⟨c, hc, hcmp⟩ := hex
  exact ⟨⟨c, hc, hcmp, h c hc hcmp⟩, fun d hd hdc => le_of_eq (h d hd hdc)⟩

theorem exclusive_of_steps {cols : List BlockId} {r0 r1 r2 r3 r4 : BlockId → Int}
    (s1 : Step cols collapse 1 (str "ALL") (-1) r0 r1)
    (s2 : Step cols (str "excessiveRID") 1 irreparable 1 r1 r2)
    (s3 : Step cols irreparable 1 (str "ALL") (-1) r2 r3)
    (s4 : Step cols irreparable 1 collapse 0 r3 r4) : Exclusive cols r0 r4 := by
  have t1 : ∀ c, Targeted collapse (str "ALL") c ↔ c.cmp ≠ collapse := by
    intro c; unfold Targeted; simp
  have t2 : ∀ c, Targeted (str "excessiveRID") irreparable c ↔ c.cmp = irreparable := by
    intro c; unfold Targeted; simp [show irreparable ≠ str "ALL" by decide]
  have t3 : ∀ c, Targeted irreparable (str "ALL") c ↔ c.cmp ≠ irreparable := by
    intro c; unfold Targeted; simp
  have t4 : ∀ c, Targeted irreparable collapse c ↔ c.cmp = collapse := by
    intro c; unfold Targeted; simp [show collapse ≠ str "ALL" by decide]
  have hne : irreparable ≠ collapse := by decide
  have hne2 : str "excessiveRID" ≠ collapse := by decide
  have hne3 : str "excessiveRID" ≠ irreparable := by decide
  by_cases hcol : InState cols r0 collapse 1
  · -- collapsed: nothing else happens
    have e1 : ∀ c ∈ cols, c.cmp ≠ collapse → r1 c = -1 := fun c hc h => (s1 c hc).1 ⟨hcol, (t1 c).2 h⟩
    have e1' : ∀ c ∈ cols, c.cmp = collapse → r1 c = r0 c := fun c hc h => (s1 c hc).2 fun x => (t1 c).1 x.2 h
    have n2 : ¬ InState cols r1 (str "excessiveRID") 1 :=
      not_highest_of_na fun c hc h => e1 c hc (by rw [h]; exact hne2)
    have e2 : ∀ c ∈ cols, r2 c = r1 c := fun c hc => (s2 c hc).2 fun x => n2 x.1
    have n3 : ¬ InState cols r2 irreparable 1 :=
      not_highest_of_na fun c hc h => by rw [e2 c hc]; exact e1 c hc (by rw [h]; exact hne)
    have e3 : ∀ c ∈ cols, r3 c = r2 c := fun c hc => (s3 c hc).2 fun x => n3 x.1
    have n4 : ¬ InState cols r3 irreparable 1 :=
      not_highest_of_na fun c hc h => by rw [e3 c hc, e2 c hc]; exact e1 c hc (by rw [h]; exact hne)
    have e4 : ∀ c ∈ cols, r4 c = r1 c := fun c hc => by rw [(s4 c hc).2 fun x => n4 x.1, e3 c hc, e2 c hc]
    have nirr : ¬ InState cols r4 irreparable 1 :=
      not_highest_of_na fun c hc h => by rw [e4 c hc]; exact e1 c hc (by rw [h]; exact hne)
    refine ⟨fun _ c hc h => by rw [e4 c hc]; exact e1 c hc h, fun h => absurd h nirr, fun _ => ?_,
      fun h => absurd hcol h, fun h => absurd hcol h⟩
    exact (highest_congr cols _ r0 r4 1 fun c hc h => by rw [e4 c hc, e1' c hc h]).2 hcol
  · have e1 : ∀ c ∈ cols, r1 c = r0 c := fun c hc => (s1 c hc).2 fun x => hcol x.1
    have hrid : InState cols r1 (str "excessiveRID") 1 ↔ InState cols r0 (str "excessiveRID") 1 :=
      highest_congr cols _ r0 r1 1 fun c hc _ => e1 c hc
    have e2n : ∀ c ∈ cols, c.cmp ≠ irreparable → r2 c = r0 c := fun c hc h => by
      rw [(s2 c hc).2 fun x => h ((t2 c).1 x.2), e1 c hc]
    by_cases hirr : InState cols r2 irreparable 1
    · have e3 : ∀ c ∈ cols, c.cmp ≠ irreparable → r3 c = -1 := fun c hc h => (s3 c hc).1 ⟨hirr, (t3 c).2 h⟩
      have e3' : ∀ c ∈ cols, c.cmp = irreparable → r3 c = r2 c := fun c hc h => (s3 c hc).2 fun x => (t3 c).1 x.2 h
      have h3 : InState cols r3 irreparable 1 := (highest_congr cols _ r2 r3 1 e3').2 hirr
      have e4 : ∀ c ∈ cols, c.cmp = collapse → r4 c = 0 := fun c hc h => (s4 c hc).1 ⟨h3, (t4 c).2 h⟩
      have e4' : ∀ c ∈ cols, c.cmp ≠ collapse → r4 c = r3 c := fun c hc h => (s4 c hc).2 fun x => h ((t4 c).1 x.2)
      have h4 : InState cols r4 irreparable 1 :=
        (highest_congr cols _ r3 r4 1 fun c hc h => e4' c hc (by rw [h]; exact hne)).2 h3
      have ncol : ¬ InState cols r4 collapse 1 := by
        rintro ⟨⟨c, hc, hcmp, h1⟩, _⟩
        rw [e4 c hc hcmp] at h1; omega
      refine ⟨fun h => absurd h ncol, fun _ c hc => ⟨e4 c hc, fun h h' => by rw [e4' c hc h]; exact e3 c hc h'⟩,
        fun h => absurd h hcol, fun _ _ _ => h4, ?_⟩
      intro _ hnr hni
      exfalso
      apply hni
      refine (highest_congr cols _ r0 r2 1 fun c hc h => ?_).1 hirr
      rw [(s2 c hc).2 fun x => hnr (hrid.1 x.1), e1 c hc]
    · have e3 : ∀ c ∈ cols, r3 c = r2 c := fun c hc => (s3 c hc).2 fun x => hirr x.1
      have n3 : ¬ InState cols r3 irreparable 1 := fun h => hirr ((highest_congr cols _ r2 r3 1 fun c hc _ => e3 c hc).1 h)
      have e4 : ∀ c ∈ cols, r4 c = r2 c := fun c hc => by rw [(s4 c hc).2 fun x => n3 x.1, e3 c hc]
      have n4 : ¬ InState cols r4 irreparable 1 := fun h => hirr ((highest_congr cols _ r2 r4 1 fun c hc _ => e4 c hc).1 h)
      have ncol : ¬ InState cols r4 collapse 1 := fun h => hcol
        ((highest_congr cols _ r0 r4 1 fun c hc h => by rw [e4 c hc, e2n c hc (by rw [h]; exact hne.symm)]).1 h)
      refine ⟨fun h => absurd h ncol, fun h => absurd h n4, fun h => absurd h hcol, ?_, ?_⟩
      · intro _ hex hor
        exfalso
        apply hirr
        by_cases hr : InState cols r1 (str "excessiveRID") 1
        · exact inState_of_const hex fun c hc h => (s2 c hc).1 ⟨hr, (t2 c).2 h⟩
        · rcases hor with h | h
          · exact absurd (hrid.2 h) hr
          · exact (highest_congr cols _ r0 r2 1 fun c hc _ => by rw [(s2 c hc).2 fun x => hr x.1, e1 c hc]).2 h
      · intro _ hnr _ c hc
        rw [e4 c hc, (s2 c hc).2 fun x => hnr (hrid.1 x.1), e1 c hc]

theorem forall₂_trans {α : Type} {R S : α → α → Prop} {a b c : List α} (h1 : List.Forall₂ R a b) (h2 : List.Forall₂ S b c) :
    List.Forall₂ (fun x z => ∃ y, R x y ∧ S y z) a c := by
  induction h1 generalizing c with
  | nil => cases h2; exact .nil
  | cons h _ ih =>
    cases h2 with
    | cons h' t => exact .cons ⟨_, h, h'⟩ (ih t)

theorem performAll_cons {visit : List Str → List Str} {s s' : Sample} {t : Task} {ts : List Task}
    {R S : (BlockId → Int) → (BlockId → Int) → Prop}
    (h : performTask visit s t = .ok s') (hR : RowWise R s s')
    (hts : ∃ s'', performAll visit s' ts = .ok s'' ∧ RowWise S s' s'') :
    ∃ s'', performAll visit s (t :: ts) = .ok s'' ∧ RowWise (fun x z => ∃ y, R x y ∧ S y z) s s'' := by
  obtain ⟨s'', h1, h2⟩ := hts
  exact ⟨s'', by simp only [performAll, h]; exact h1, h2.1.trans hR.1, forall₂_trans hR.2 h2.2⟩

theorem task_step (visit : List Str → List Str) (s : Sample) (t : Task) (num src tgt eff : Str) (k m : Int)
    (ht : t = (num ++ '_' :: src, [(str "DS" ++ intStr k, .one (tgt ++ '_' :: eff))]))
    (hnum : '_' ∉ num) (hsrc : '_' ∉ src) (hloc : ¬ str "-LOC" <:+ src) (htgt : '_' ∉ tgt) (heff : Effect eff m) :
    ∃ s', performTask visit s t = .ok s' ∧ RowWise (Step s.cols src k tgt m) s s' := by
  rw [ht]
  exact C42_event visit s num src tgt eff k m hnum hsrc hloc htgt heff

theorem rowWise_refl (s : Sample) : RowWise (fun x y => x = y) s s := by
  refine ⟨rfl, ?_⟩
  induction s.rows with
  | nil => exact .nil
  | cons a l ih => exact .cons rfl ih

theorem rowWise_mono {R S : (BlockId → Int) → (BlockId → Int) → Prop} {s s' : Sample} (h : RowWise R s s')
    (hRS : ∀ x y, R x y → S x y) : RowWise S s s' := ⟨h.1, h.2.imp hRS⟩

/-- Tasks "collapse → all NA", "excessiveRID → irreparable", "irreparable → all NA", "irreparable → no
collapse". -/
theorem performAll_core (visit : List Str → List Str) (s : Sample) (n1 n2 n3 n4 : Str)
    (hn : '_' ∉ n1 ∧ '_' ∉ n2 ∧ '_' ∉ n3 ∧ '_' ∉ n4) :
    ∃ s', performAll visit s
      [(n1 ++ str "_collapse", [(str "DS1", .one (str "ALL_NA"))]),
       (n2 ++ str "_excessiveRID", [(str "DS1", .one (str "irreparable_DS1"))]),
       (n3 ++ str "_irreparable", [(str "DS1", .one (str "ALL_NA"))]),
       (n4 ++ str "_irreparable", [(str "DS1", .one (str "collapse_DS0"))])] = .ok s' ∧
      RowWise (Exclusive s.cols) s s' := by
  obtain ⟨hn1, hn2, hn3, hn4⟩ := hn
  obtain ⟨s1, p1, q1⟩ := task_step visit s (n1 ++ str "_collapse", [(str "DS1", .one (str "ALL_NA"))])
    n1 collapse (str "ALL") (str "NA") 1 (-1) (by rw [show str "DS" ++ intStr 1 = str "DS1" by decide +kernel]; rfl)
    hn1 (by decide) (by decide) (by decide) (.inl ⟨rfl, rfl⟩)
  obtain ⟨s2, p2, q2⟩ := task_step visit s1 (n2 ++ str "_excessiveRID", [(str "DS1", .one (str "irreparable_DS1"))])
    n2 (str "excessiveRID") irreparable (str "DS1") 1 1 (by rw [show str "DS" ++ intStr 1 = str "DS1" by decide +kernel]; rfl)
    hn2 (by decide) (by decide) (by decide) (.inr (by decide +kernel))
  obtain ⟨s3, p3, q3⟩ := task_step visit s2 (n3 ++ str "_irreparable", [(str "DS1", .one (str "ALL_NA"))])
    n3 irreparable (str "ALL") (str "NA") 1 (-1) (by rw [show str "DS" ++ intStr 1 = str "DS1" by decide +kernel]; rfl)
    hn3 (by decide) (by decide) (by decide) (.inl ⟨rfl, rfl⟩)
  obtain ⟨s4, p4, q4⟩ := task_step visit s3 (n4 ++ str "_irreparable", [(str "DS1", .one (str "collapse_DS0"))])
    n4 irreparable collapse (str "DS0") 1 0 (by rw [show str "DS" ++ intStr 1 = str "DS1" by decide +kernel]; rfl)
    hn4 (by decide) (by decide) (by decide) (.inr (by decide +kernel))
  have c1 := q1.1
  have c2 := q2.1
  have c3 := q3.1
  rw [c3, c2, c1] at q4
  rw [c2, c1] at q3
  rw [c1] at q2
  have := performAll_cons p1 q1 (performAll_cons p2 q2 (performAll_cons p3 q3
    (performAll_cons (ts := []) p4 q4 ⟨s4, rfl, rowWise_refl s4⟩)))
  obtain ⟨s', h1, h2⟩ := this
  refine ⟨s', h1, rowWise_mono h2 ?_⟩
  rintro x y ⟨a, ha, b, hb, c, hc, d, hd, rfl⟩
  exact exclusive_of_steps ha hb hc hd

/-- What the built-in processes achieve in a realization, when `trig` describes the components and
states that force collapse. -/
structure Outcome (cols : List BlockId) (trig : (BlockId → Int) → Prop) (row row' : BlockId → Int) : Prop where
  /-- after collapse everything else is NA -/
  collapsed : InState cols row' collapse 1 → ∀ c ∈ cols, c.cmp ≠ collapse → row' c = -1
  /-- after irreparable damage there is no collapse and everything else is NA -/
  irrep : InState cols row' irreparable 1 → ∀ c ∈ cols,
    (c.cmp = collapse → row' c = 0) ∧ (c.cmp ≠ collapse → c.cmp ≠ irreparable → row' c = -1)
  /-- collapse occurs if it is triggered or if it has occurred before the process -/
  triggersCollapse : (∃ c ∈ cols, c.cmp = collapse) → trig row ∨ InState cols row collapse 1 → InState cols row' collapse 1
  /-- otherwise irreparable damage occurs if it is triggered or has occurred before -/
  triggersIrrep : ¬ trig row → ¬ InState cols row collapse 1 → (∃ c ∈ cols, c.cmp = irreparable) →
    InState cols row (str "excessiveRID") 1 ∨ InState cols row irreparable 1 → InState cols row' irreparable 1
  /-- and otherwise nothing changes -/
  otherwise : ¬ trig row → ¬ InState cols row collapse 1 → ¬ InState cols row (str "excessiveRID") 1 →
    ¬ InState cols row irreparable 1 → ∀ c ∈ cols, row' c = row c

theorem outcome_of {cols : List BlockId} {trig : (BlockId → Int) → Prop} {r0 r1 r2 : BlockId → Int}
    (h1 : ∀ c ∈ cols, (trig r0 ∧ c.cmp = collapse → r1 c = 1) ∧ (¬ (trig r0 ∧ c.cmp = collapse) → r1 c = r0 c))
    (h2 : Exclusive cols r1 r2) : Outcome cols trig r0 r2 := by
  refine ⟨h2.collapsed, h2.irrep, ?_, ?_, ?_⟩
  · intro hex hor
    apply h2.keepsCollapse
    by_cases ht : trig r0
    · exact inState_of_const hex fun c hc h => (h1 c hc).1 ⟨ht, h⟩
    · rcases hor with h | h
      · exact absurd h ht
      · exact (highest_congr cols _ r0 r1 1 fun c hc _ => (h1 c hc).2 fun x => ht x.1).2 h
  · intro ht hnc hex hor
    have e : ∀ c ∈ cols, r1 c = r0 c := fun c hc => (h1 c hc).2 fun x => ht x.1
    have hc : ∀ cmp, InState cols r1 cmp 1 ↔ InState cols r0 cmp 1 := fun cmp =>
      highest_congr cols _ r0 r1 1 fun c hc _ => e c hc
    exact h2.triggersIrrep (fun h => hnc ((hc _).1 h)) hex (hor.imp (hc _).2 (hc _).2)
  · intro ht hnc hnr hni c hcc
    have e : ∀ c ∈ cols, r1 c = r0 c := fun c hc => (h1 c hc).2 fun x => ht x.1
    have hc : ∀ cmp, InState cols r1 cmp 1 ↔ InState cols r0 cmp 1 := fun cmp =>
      highest_congr cols _ r0 r1 1 fun c hc _ => e c hc
    rw [h2.otherwise (fun h => hnc ((hc _).1 h)) (fun h => hnr ((hc _).1 h)) (fun h => hni ((hc _).1 h)) c hcc, e c hcc]

theorem step_collapse {cols : List BlockId} {src : Str} {k : Int} {r0 r1 : BlockId → Int}
    (h : Step cols src k collapse 1 r0 r1) : ∀ c ∈ cols, (InState cols r0 src k ∧ c.cmp = collapse → r1 c = 1) ∧
      (¬ (InState cols r0 src k ∧ c.cmp = collapse) → r1 c = r0 c) := by
  intro c hc
  have t : Targeted src collapse c ↔ c.cmp = collapse := by unfold Targeted; simp [show collapse ≠ str "ALL" by decide]
  have := h c hc
  rw [t] at this
  exact this

/-- C44: the FEMA P-58 damage process, for every sample of damage states and every realization. -/
theorem C44_fema_p58 (visit : List Str → List Str) (s : Sample) :
    ∃ s', runProcess visit femaP58 s = .ok s' ∧
      RowWise (Outcome s.cols fun row => InState s.cols row (str "excessive.coll.DEM") 1) s s' := by
  have ho : taskOrder femaP58 = femaP58 := by decide +kernel
  unfold runProcess
  rw [ho]
  obtain ⟨s1, p1, q1⟩ := task_step visit s (str "1_excessive.coll.DEM", [(str "DS1", .one (str "collapse_DS1"))])
    (str "1") (str "excessive.coll.DEM") collapse (str "DS1") 1 1 (by decide +kernel) (by decide) (by decide)
    (by decide) (by decide) (.inr (by decide +kernel))
  have hcore := performAll_core visit s1 (str "2") (str "3") (str "4") (str "5") (by decide)
  rw [q1.1] at hcore
  obtain ⟨s', h1, h2⟩ := performAll_cons p1 q1 hcore
  refine ⟨s', h1, rowWise_mono h2 ?_⟩
  rintro x y ⟨z, hz, hzy⟩
  exact outcome_of (step_collapse hz) hzy

/-- C44: the same for the Hazus building process, in which the structural system in damage state 5
also forces collapse. -/
theorem C44_hazus_buildings (visit : List Str → List Str) (s : Sample) :
    ∃ s', runProcess visit hazusBuildings s = .ok s' ∧
      RowWise (Outcome s.cols fun row => InState s.cols row (str "STR") 5 ∨
        InState s.cols row (str "excessive.coll.DEM") 1) s s' := by
  have ho : taskOrder hazusBuildings = hazusBuildings := by decide +kernel
  unfold runProcess
  rw [ho]
  obtain ⟨s0, p0, q0⟩ := task_step visit s (str "1_STR", [(str "DS5", .one (str "collapse_DS1"))])
    (str "1") (str "STR") collapse (str "DS1") 5 1 (by decide +kernel) (by decide) (by decide)
    (by decide) (by decide) (.inr (by decide +kernel))
  obtain ⟨s1, p1, q1⟩ := task_step visit s0 (str "2_excessive.coll.DEM", [(str "DS1", .one (str "collapse_DS1"))])
    (str "2") (str "excessive.coll.DEM") collapse (str "DS1") 1 1 (by decide +kernel) (by decide) (by decide)
    (by decide) (by decide) (.inr (by decide +kernel))
  have hcore := performAll_core visit s1 (str "3") (str "4") (str "5") (str "6") (by decide)
  rw [q1.1, q0.1] at hcore
  rw [q0.1] at q1
  obtain ⟨s', h1, h2⟩ := performAll_cons p0 q0 (performAll_cons p1 q1 hcore)
  refine ⟨s', h1, rowWise_mono h2 ?_⟩
  rintro x y ⟨w, hw, z, hz, hzy⟩
  refine outcome_of (r1 := z) ?_ hzy
  intro c hc
  have a := step_collapse hw c hc
  have b := step_collapse hz c hc
  have hcong : InState s.cols w (str "excessive.coll.DEM") 1 ↔ InState s.cols x (str "excessive.coll.DEM") 1 :=
    highest_congr s.cols _ x w 1 fun d hd h => (step_collapse hw d hd).2 fun hh => absurd (h.symm.trans hh.2) (by decide)
  rw [hcong] at b
  constructor
  · rintro ⟨ht, hcc⟩
    by_cases h2 : InState s.cols x (str "excessive.coll.DEM") 1
    · exact b.1 ⟨h2, hcc⟩
    · rw [b.2 fun hh => h2 hh.1]
      exact a.1 ⟨ht.resolve_right h2, hcc⟩
  · intro h
    rw [b.2 fun hh => h ⟨.inr hh.1, hh.2⟩, a.2 fun hh => h ⟨.inl hh.1, hh.2⟩]

/-- C44: after the Hazus lifeline process, in each realization, the collapse is in state 1 if the lifeline component
was in state 5 or collapse was in state 1 before; in that case everything else is NA, and otherwise nothing changes. -/
theorem C44_hazus_lifeline (visit : List Str → List Str) (s : Sample) :
    ∃ s', runProcess visit hazusLifeline s = .ok s' ∧
      RowWise (fun row row' =>
        ((∃ c ∈ s.cols, c.cmp = collapse) → InState s.cols row (str "LF") 5 ∨ InState s.cols row collapse 1 →
          InState s.cols row' collapse 1) ∧
        (InState s.cols row' collapse 1 → ∀ c ∈ s.cols, c.cmp ≠ collapse → row' c = -1) ∧
        (¬ InState s.cols row (str "LF") 5 → ¬ InState s.cols row collapse 1 → ∀ c ∈ s.cols, row' c = row c)) s s' := by
  have ho : taskOrder hazusLifeline = hazusLifeline := by decide +kernel
  unfold runProcess
  rw [ho]
  obtain ⟨s1, p1, q1⟩ := task_step visit s (str "1_LF", [(str "DS5", .one (str "collapse_DS1"))])
    (str "1") (str "LF") collapse (str "DS1") 5 1 (by decide +kernel) (by decide) (by decide)
    (by decide) (by decide) (.inr (by decide +kernel))
  obtain ⟨s2, p2, q2⟩ := task_step visit s1 (str "2_collapse", [(str "DS1", .one (str "ALL_NA"))])
    (str "2") collapse (str "ALL") (str "NA") 1 (-1) (by decide +kernel)
    (by decide) (by decide) (by decide) (by decide) (.inl ⟨rfl, rfl⟩)
  rw [q1.1] at q2
  obtain ⟨s', h1, h2⟩ := performAll_cons p1 q1 (performAll_cons (ts := []) p2 q2 ⟨s2, rfl, rowWise_refl s2⟩)
  refine ⟨s', h1, rowWise_mono h2 ?_⟩
  rintro x y ⟨z, hz, w, hw, rfl⟩
  have a := step_collapse hz
  have hT : ∀ c, Targeted collapse (str "ALL") c ↔ c.cmp ≠ collapse := by
    intro c; unfold Targeted; simp
  have hkeep : ∀ c ∈ s.cols, c.cmp = collapse → w c = z c := fun c hc h =>
    (hw c hc).2 fun hh => (hT c).1 hh.2 h
  have hcw : InState s.cols w collapse 1 ↔ InState s.cols z collapse 1 :=
    highest_congr s.cols _ z w 1 hkeep
  refine ⟨?_, ?_, ?_⟩
  · intro hex hor
    rw [hcw]
    by_cases ht : InState s.cols x (str "LF") 5
    · exact inState_of_const hex fun c hc h => (a c hc).1 ⟨ht, h⟩
    · exact (highest_congr s.cols _ x z 1 fun c hc _ => (a c hc).2 fun hh => ht hh.1).2 (hor.resolve_left ht)
  · intro h c hc hne
    exact (hw c hc).1 ⟨hcw.1 h, (hT c).2 hne⟩
  · intro hn1 hn2 c hc
    have hxz : ∀ c ∈ s.cols, z c = x c := fun c hc => (a c hc).2 fun hh => hn1 hh.1
    have hnz : ¬ InState s.cols z collapse 1 := fun h =>
      hn2 ((highest_congr s.cols _ x z 1 fun c hc _ => hxz c hc).1 h)
    rw [(hw c hc).2 fun hh => hnz hh.1, hxz c hc]

end FEMA

/-! ## C45 -/

/-- The number before the first underscore of a task name. -/
def taskNumber (name : Str) : Option Nat := digitsVal 0 (name.takeWhile (· ≠ '_'))

theorem digit_le {a b : Char} {m n : Nat} (ha : digitVal? a = some m) (hb : digitVal? b = some n) :
    (a.toNat < b.toNat ↔ m < n) := by
  unfold digitVal? at ha hb
  split at ha
  · rename_i h1
    split at hb
    · rename_i h2
      simp only [Option.some.injEq] at ha hb
      subst ha hb
      have e1 : ('0' : Char).toNat ≤ a.toNat := h1.1
      have e2 : ('0' : Char).toNat ≤ b.toNat := h2.1
      omega
    · simp at hb
  · simp at ha

theorem digitsVal_strLe (a b : Str) : ∀ (acc acc' m n : Nat) (r r' : Str), a.length = b.length → acc ≤ acc' →
    digitsVal acc a = some m → digitsVal acc' b = some n → (acc < acc' ∨ strLe (a ++ r) (b ++ r') = true) → m ≤ n := by
  induction a generalizing b with
  | nil =>
    intro acc acc' m n r r' hl hacc hm hn _
    cases b with
    | nil => simp [digitsVal] at hm hn; omega
    | cons _ _ => simp at hl
  | cons x a ih =>
    intro acc acc' m n r r' hl hacc hm hn hor
    cases b with
    | nil => simp at hl
    | cons y b =>
      simp only [digitsVal] at hm hn
      cases hx : digitVal? x with
      | none => rw [hx] at hm; simp at hm
      | some d =>
        cases hy : digitVal? y with
        | none => rw [hy] at hn; simp at hn
        | some e =>
          rw [hx] at hm
          rw [hy] at hn
          simp only at hm hn
          have hd9 : d ≤ 9 := digit_le_nine hx
          have he9 : e ≤ 9 := digit_le_nine hy
          have hlt := digit_le hx hy
          have hgt := digit_le hy hx
          refine ih b (acc * 10 + d) (acc' * 10 + e) m n r r' (by simpa using hl) ?_ hm hn ?_
          · rcases hor with h | h
            · omega
            · simp only [List.cons_append, strLe] at h
              by_cases h1 : x.toNat < y.toNat
              · have := hlt.1 h1; omega
              · rw [if_neg h1] at h
                by_cases h2 : y.toNat < x.toNat
                · rw [if_pos h2] at h; simp at h
                · have := mt hgt.2 h2; omega
          · rcases hor with h | h
            · left; omega
            · simp only [List.cons_append, strLe] at h
              by_cases h1 : x.toNat < y.toNat
              · have := hlt.1 h1; left; omega
              · rw [if_neg h1] at h
                by_cases h2 : y.toNat < x.toNat
                · rw [if_pos h2] at h; simp at h
                · rw [if_neg h2] at h
                  exact .inr h
where
  digit_le_nine {a : Char} {m : Nat} (ha : digitVal? a = some m) : m ≤ 9 := by
    unfold digitVal? at ha
    split at ha
    · rename_i h1
      simp only [Option.some.injEq] at ha
      subst ha
      have e : a.toNat ≤ ('9' : Char).toNat := h1.2
      have : ('9' : Char).toNat = 57 := rfl
      have : ('0' : Char).toNat = 48 := rfl
      omega
    · simp at ha

theorem performAll_foldlM (visit : List Str → List Str) (ts : List Task) : ∀ s : Sample,
    performAll visit s ts = ts.foldlM (performTask visit) s := by
  induction ts with
  | nil => intro s; rfl
  | cons t ts ih =>
    intro s
    simp only [performAll, List.foldlM_cons]
    cases performTask visit s t with
    | error e => rfl
    | ok s' => exact ih s'

/-- C45 (partial): every task is performed once, one after the other in increasing order of the numbers, provided that
all numbers are written with the same number of digits.  Missing: numbers of different length. -/
theorem C45_order_partial (visit : List Str → List Str) (process : Dict Str (Dict Str Targets)) (s : Sample) (w : Nat)
    (h : ∀ t ∈ process, (t.1.takeWhile (· ≠ '_')).length = w ∧ (taskNumber t.1).isSome) :
    ∃ order : List Task, order.Perm process ∧
      (order.Pairwise fun a b => ∀ m n, taskNumber a.1 = some m → taskNumber b.1 = some n → m ≤ n) ∧
      runProcess visit process s = order.foldlM (performTask visit) s := by
  refine ⟨taskOrder process, pySort_perm _ _, ?_, performAll_foldlM _ _ _⟩
  have hs := pySort_sorted (le := fun a b : Task => strLe a.1 b.1) (fun a b => strLe_total a.1 b.1)
    (fun a b c => strLe_trans a.1 b.1 c.1) process
  have hs' : (taskOrder process).Pairwise fun a b => strLe a.1 b.1 = true := hs
  refine List.Pairwise.imp_of_mem ?_ hs'
  intro a b ha hb hab m n hm hn
  have ha := h a (mem_pySort.1 ha)
  have hb := h b (mem_pySort.1 hb)
  refine digitsVal_strLe (a.1.takeWhile (· ≠ '_')) (b.1.takeWhile (· ≠ '_')) 0 0 m n
    (a.1.dropWhile (· ≠ '_')) (b.1.dropWhile (· ≠ '_')) (by rw [ha.1, hb.1]) (le_refl _) hm hn (.inr ?_)
  rw [List.takeWhile_append_dropWhile, List.takeWhile_append_dropWhile]
  exact hab

example : ∀ t ∈ hazusBuildings, (t.1.takeWhile (· ≠ '_')).length = 1 ∧ (taskNumber t.1).isSome := by decide +kernel

/-- Task 10 is performed before tasks 1 and 2. -/
theorem C45_ten_first (visit : List Str → List Str) (s : Sample) (a b c : Dict Str Targets) :
    runProcess visit [(str "1_A", a), (str "2_B", b), (str "10_C", c)] s =
      [(str "10_C", c), (str "1_A", a), (str "2_B", b)].foldlM (performTask visit) s := by
  unfold runProcess
  rw [show taskOrder [(str "1_A", a), (str "2_B", b), (str "10_C", c)] =
    [(str "10_C", c), (str "1_A", a), (str "2_B", b)] from rfl, performAll_foldlM]

/-! ## Examples -/

/-- Two components on two floors and the global components. -/
def exCols : List BlockId :=
  [⟨str "A", str "1", str "1", str "0", str "1"⟩, ⟨str "A", str "2", str "1", str "0", str "1"⟩,
   ⟨str "B", str "1", str "1", str "0", str "1"⟩, ⟨str "B", str "2", str "1", str "0", str "1"⟩,
   ⟨collapse, str "0", str "1", str "0", str "1"⟩, ⟨irreparable, str "0", str "1", str "0", str "1"⟩,
   ⟨str "excessiveRID", str "1", str "1", str "0", str "1"⟩]

def exRow (c : BlockId) : Int :=
  if c.cmp = str "A" ∧ c.loc = str "2" then 2 else if c.cmp = str "excessiveRID" then 1 else 0

def values (r : Except PyErr Sample) : Except PyErr (List (List Int)) :=
  match r with
  | .error e => .error e
  | .ok s => .ok (s.rows.map fun row => s.cols.map row)

example : values (performTask id ⟨exCols, [exRow]⟩ (str "1_A", [(str "DS2", .one (str "B_DS3"))])) =
    .ok [[0, 2, 3, 3, 0, 0, 1]] := by decide +kernel
example : values (performTask id ⟨exCols, [exRow]⟩ (str "1_A-LOC", [(str "DS2", .one (str "B_DS3"))])) =
    .ok [[0, 2, 0, 3, 0, 0, 1]] := by decide +kernel
example : values (runProcess id femaP58 ⟨exCols, [exRow, fun _ => 0]⟩) =
    .ok [[-1, -1, -1, -1, 0, 1, -1], [0, 0, 0, 0, 0, 0, 0]] := by decide +kernel

end Verif.DmgTasks
