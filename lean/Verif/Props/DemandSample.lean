import Verif.Lemmas.Lists
import Verif.Model.DemandSample
import Verif.Props.FileIO
import Mathlib.Data.List.Nodup

/-! # Properties C30, C33 and C75: demand samples -/

namespace Verif.DemandSample

open Verif.FileIO

/-! ## Cloning -/

/-- What becomes of one column. -/
def expandOne {α : Type} (cfg : Dict Label (List Label)) (c : Label × α) : List (Label × α) :=
  match cfg.get? c.1 with
  | none => [c]
  | some ts => ts.map fun t => (t, c.2)

theorem iloc_clone {α : Type} (cfg : Dict Label (List Label)) (pre rest : List (Label × α)) :
    ilocLabels (pre ++ rest) (cloneColumns cfg pre.length (rest.map Prod.fst)) =
      .ok (rest.flatMap (expandOne cfg)) := by
  unfold ilocLabels
  rw [mapE_ok_iff]
  induction rest generalizing pre with
  | nil => exact .nil
  | cons c rest ih =>
    rw [List.map_cons, cloneColumns, List.flatMap_cons]
    refine List.rel_append ?_ ?_
    · have hget : (pre ++ c :: rest)[pre.length]? = some c := by simp
      unfold expandOne
      cases hc : cfg.get? c.1 with
      | none => exact .cons (by simp only [hget]) .nil
      | some ts =>
        simp only
        rw [List.forall₂_map_left_iff, List.forall₂_map_right_iff, List.forall₂_same]
        intro t _
        simp only [hget]
    · have := ih (pre ++ [c])
      simp only [List.length_append, List.length_singleton, List.append_assoc,
        List.singleton_append] at this
      exact this

theorem cloneDemands_cols {cfg : Dict Str (List Str)} {s r : Sample}
    (h : cloneDemands cfg s = .ok r) :
    (cfg.flatMap Prod.snd).Nodup ∧ r.cols = s.cols.flatMap (expandOne (cloningTuples cfg)) := by
  unfold cloneDemands at h
  split at h
  · simp at h
  · rename_i hd
    have := iloc_clone (cloningTuples cfg) [] s.cols
    simp only [List.nil_append, List.length_nil] at this
    simp only [this] at h
    split at h
    · simp at h
    · cases h
      exact ⟨Classical.not_not.1 hd, rfl⟩

theorem splitChar_inj {c : Char} {a b : Str} (h : splitChar c a = splitChar c b) : a = b := by
  rw [← join_split c a, h, join_split]

theorem tuples_get {cfg : Dict Str (List Str)} (hk : cfg.NoDupKeys) (l : Label) (ts : List Label) :
    (cloningTuples cfg).get? l = some ts ↔
      ∃ src strs, (src, strs) ∈ cfg ∧ l = splitChar '-' src ∧ ts = strs.map (splitChar '-') := by
  have hnd : (cloningTuples cfg).NoDupKeys := by
    unfold Dict.NoDupKeys Dict.keys cloningTuples
    rw [List.map_map]
    have : (Prod.fst ∘ fun e : Str × List Str => (splitChar '-' e.1, e.2.map (splitChar '-'))) =
        (splitChar '-') ∘ Prod.fst := rfl
    rw [this, ← List.map_map]
    exact List.Nodup.map (fun a b h => splitChar_inj h) hk
  rw [Dict.get?_iff_mem hnd]
  unfold cloningTuples
  rw [List.mem_map]
  constructor
  · rintro ⟨⟨src, strs⟩, h1, h2⟩
    simp only [Prod.mk.injEq] at h2
    exact ⟨src, strs, h1, h2.1.symm, h2.2.symm⟩
  · rintro ⟨src, strs, h1, h2, h3⟩
    exact ⟨(src, strs), h1, by rw [h2, h3]⟩

/-- C33: the columns after cloning are exactly the columns that are not listed as a source, and
for each listed source that is in the sample its targets, with the values of the source. A
configuration that lists a target twice is refused. -/
theorem C33_cloned_columns (cfg : Dict Str (List Str)) (hk : cfg.NoDupKeys) (s r : Sample)
    (h : cloneDemands cfg s = .ok r) (l : Label) (v : List (Option ℚ)) :
    (l, v) ∈ r.cols ↔
      ((l, v) ∈ s.cols ∧ ∀ src ∈ cfg.keys, l ≠ splitChar '-' src) ∨
      ∃ src targets t, (src, targets) ∈ cfg ∧ t ∈ targets ∧ l = splitChar '-' t ∧
        (splitChar '-' src, v) ∈ s.cols := by
  rw [(cloneDemands_cols h).2, List.mem_flatMap]
  constructor
  · rintro ⟨⟨cl, cv⟩, hc, hm⟩
    unfold expandOne at hm
    simp only at hm
    split at hm
    · rename_i hn
      rw [List.mem_singleton] at hm
      cases hm
      refine .inl ⟨hc, ?_⟩
      intro src hsrc he
      obtain ⟨e, he1, he2⟩ := List.mem_map.1 hsrc
      have := (tuples_get hk l (e.2.map (splitChar '-'))).2 ⟨e.1, e.2, he1, by rw [he2, he], rfl⟩
      rw [this] at hn; cases hn
    · rename_i ts hs
      obtain ⟨t, ht, he⟩ := List.mem_map.1 hm
      obtain ⟨src, strs, h1, h2, h3⟩ := (tuples_get hk cl ts).1 hs
      subst h3
      obtain ⟨t', ht', rfl⟩ := List.mem_map.1 ht
      simp only [Prod.mk.injEq] at he
      refine .inr ⟨src, strs, t', h1, ht', he.1.symm, ?_⟩
      rw [← h2, ← he.2]; exact hc
  · rintro (⟨hc, hn⟩ | ⟨src, targets, t, h1, h2, h3, h4⟩)
    · refine ⟨_, hc, ?_⟩
      have : (cloningTuples cfg).get? l = none := by
        cases hg : (cloningTuples cfg).get? l with
        | none => rfl
        | some ts =>
          obtain ⟨src, strs, h1, h2, _⟩ := (tuples_get hk l ts).1 hg
          exact absurd h2 (hn src (List.mem_map.2 ⟨_, h1, rfl⟩))
      simp only [expandOne, this, List.mem_singleton]
    · refine ⟨_, h4, ?_⟩
      have := (tuples_get hk (splitChar '-' src) (targets.map (splitChar '-'))).2
        ⟨src, targets, h1, rfl, rfl⟩
      simp only [expandOne, this]
      exact List.mem_map.2 ⟨splitChar '-' t, List.mem_map.2 ⟨t, h2, rfl⟩, by rw [h3]⟩

/-- C33: refused exactly when a target is listed twice; aligned units are cloned along. -/
theorem C33_duplicate_targets_refused (cfg : Dict Str (List Str)) (s : Sample)
    (h : ¬ (cfg.flatMap Prod.snd).Nodup) : cloneDemands cfg s = .error .valueError := by
  unfold cloneDemands; rw [if_pos h]

/-- C33, units: when every column has its unit at the same position, cloning succeeds and every
clone has the unit of its source. -/
theorem C33_units_partial (cfg : Dict Str (List Str)) (s : Sample)
    (hd : (cfg.flatMap Prod.snd).Nodup) (hu : s.units.map Prod.fst = s.cols.map Prod.fst) :
    ∃ r, cloneDemands cfg s = .ok r ∧
      List.Forall₂ (fun c u => c.1 = u.1 ∧ ∃ src, (src, c.2) ∈ s.cols ∧ (src, u.2) ∈ s.units)
        r.cols r.units := by
  have h1 := iloc_clone (cloningTuples cfg) [] s.cols
  have h2 := iloc_clone (cloningTuples cfg) [] s.units
  simp only [List.nil_append, List.length_nil] at h1 h2
  rw [hu] at h2
  refine ⟨⟨s.cols.flatMap (expandOne (cloningTuples cfg)), s.units.flatMap (expandOne (cloningTuples cfg))⟩, ?_, ?_⟩
  · unfold cloneDemands
    rw [if_neg (Classical.not_not.2 hd)]
    simp only [h1, h2]
  · simp only
    have hzip : List.Forall₂ (fun c u => c.1 = u.1) s.cols s.units := by
      rw [List.forall₂_iff_get]
      have hlen : s.cols.length = s.units.length := by
        simpa using (congrArg List.length hu).symm
      refine ⟨hlen, fun i h3 h4 => ?_⟩
      have := congrArg (fun l => l[i]?) hu
      simp only [List.getElem?_map, List.getElem?_eq_getElem h4, List.getElem?_eq_getElem h3,
        Option.map_some, Option.some.injEq] at this
      exact this.symm
    have key : ∀ (cs : List Column) (us : List (Label × Str)),
        List.Forall₂ (fun c u => c.1 = u.1) cs us → (∀ c ∈ cs, c ∈ s.cols) → (∀ u ∈ us, u ∈ s.units) →
        List.Forall₂ (fun c u => c.1 = u.1 ∧ ∃ src, (src, c.2) ∈ s.cols ∧ (src, u.2) ∈ s.units)
          (cs.flatMap (expandOne (cloningTuples cfg))) (us.flatMap (expandOne (cloningTuples cfg))) := by
      intro cs us hf
      induction hf with
      | nil => intro _ _; exact .nil
      | @cons c u cs us hcu _ ih =>
        intro hc hu'
        rw [List.flatMap_cons, List.flatMap_cons]
        refine List.rel_append ?_ (ih (fun x hx => hc x (List.mem_cons_of_mem _ hx))
          (fun x hx => hu' x (List.mem_cons_of_mem _ hx)))
        have hsrc : ∃ src, (src, c.2) ∈ s.cols ∧ (src, u.2) ∈ s.units :=
          ⟨c.1, hc c List.mem_cons_self, by rw [hcu]; exact hu' u List.mem_cons_self⟩
        unfold expandOne
        rw [hcu]
        cases (cloningTuples cfg).get? u.1 with
        | none => exact .cons ⟨hcu, hsrc⟩ .nil
        | some ts =>
          simp only
          rw [List.forall₂_map_left_iff, List.forall₂_map_right_iff, List.forall₂_same]
          intro t _
          exact ⟨rfl, hsrc⟩
    exact key _ _ hzip (fun _ h => h) (fun _ h => h)

/-- C33: labels stay distinct if no target is the label of a column that is kept. -/
theorem C33_labels_distinct_partial (cfg : Dict Str (List Str)) (hk : cfg.NoDupKeys) (s r : Sample)
    (h : cloneDemands cfg s = .ok r) (hn : (s.cols.map Prod.fst).Nodup)
    (hc : ∀ t ∈ cfg.flatMap Prod.snd, splitChar '-' t ∈ s.cols.map Prod.fst →
      ∃ src ∈ cfg.keys, t = src) :
    (r.cols.map Prod.fst).Nodup := by
  obtain ⟨hd, hr⟩ := cloneDemands_cols h
  rw [hr, List.map_flatMap]
  -- labels contributed by a column
  have hlab : ∀ c : Column, (expandOne (cloningTuples cfg) c).map Prod.fst =
      match (cloningTuples cfg).get? c.1 with
      | none => [c.1]
      | some ts => ts := by
    intro c
    unfold expandOne
    cases (cloningTuples cfg).get? c.1 with
    | none => rfl
    | some ts => simp only [List.map_map]; exact List.map_id ts
  have hmemt : ∀ (src : Str) (strs : List Str), (src, strs) ∈ cfg → strs.Nodup := by
    intro src strs hm
    rw [List.nodup_flatMap] at hd
    exact hd.1 _ hm
  rw [List.nodup_flatMap]
  constructor
  · intro c hcm
    rw [hlab]
    cases hg : (cloningTuples cfg).get? c.1 with
    | none => simp
    | some ts =>
      obtain ⟨src, strs, h1, h2, rfl⟩ := (tuples_get hk _ _).1 hg
      exact (hmemt _ _ h1).map (fun a b h => splitChar_inj h)
  · have hpw : s.cols.Pairwise (fun a b => a.1 ≠ b.1) := List.pairwise_map.1 hn
    refine List.Pairwise.imp_of_mem ?_ hpw
    intro a b ha hb hab
    rw [Function.onFun, hlab, hlab]
    intro x hxa hxb
    -- a target that equals a kept column is impossible
    have hkeep : ∀ (t : Str) (c : Column), t ∈ cfg.flatMap Prod.snd → c ∈ s.cols →
        (cloningTuples cfg).get? c.1 = none → splitChar '-' t = c.1 → False := by
      intro t c ht hcm hg he
      obtain ⟨src, hs, rfl⟩ := hc t ht (by rw [he]; exact List.mem_map.2 ⟨c, hcm, rfl⟩)
      obtain ⟨e, he1, he2⟩ := List.mem_map.1 hs
      have := (tuples_get hk c.1 (e.2.map (splitChar '-'))).2 ⟨e.1, e.2, he1, by rw [he2, he], rfl⟩
      rw [this] at hg; cases hg
    cases hga : (cloningTuples cfg).get? a.1 with
    | none =>
      rw [hga] at hxa
      simp only [List.mem_singleton] at hxa
      cases hgb : (cloningTuples cfg).get? b.1 with
      | none =>
        rw [hgb] at hxb
        simp only [List.mem_singleton] at hxb
        exact hab (hxa.symm.trans hxb)
      | some ts =>
        rw [hgb] at hxb
        simp only at hxb
        obtain ⟨src, strs, h1, h2, rfl⟩ := (tuples_get hk _ _).1 hgb
        obtain ⟨t, ht, he⟩ := List.mem_map.1 hxb
        exact hkeep t a (List.mem_flatMap.2 ⟨_, h1, ht⟩) ha hga (he.trans hxa)
    | some ts =>
      rw [hga] at hxa
      simp only at hxa
      obtain ⟨src, strs, h1, h2, rfl⟩ := (tuples_get hk _ _).1 hga
      obtain ⟨t, ht, he⟩ := List.mem_map.1 hxa
      cases hgb : (cloningTuples cfg).get? b.1 with
      | none =>
        rw [hgb] at hxb
        simp only [List.mem_singleton] at hxb
        exact hkeep t b (List.mem_flatMap.2 ⟨_, h1, ht⟩) hb hgb (he.trans hxb)
      | some ts' =>
        rw [hgb] at hxb
        simp only at hxb
        obtain ⟨src', strs', h1', h2', rfl⟩ := (tuples_get hk _ _).1 hgb
        obtain ⟨t', ht', he'⟩ := List.mem_map.1 hxb
        have htt : t = t' := splitChar_inj (he.trans he'.symm)
        subst htt
        have hne : (src, strs) ≠ (src', strs') := by
          intro heq
          cases heq
          exact hab (h2.trans h2'.symm)
        rw [List.nodup_flatMap] at hd
        obtain ⟨i, hi, hie⟩ := List.mem_iff_getElem.1 h1
        obtain ⟨j, hj, hje⟩ := List.mem_iff_getElem.1 h1'
        rcases Nat.lt_trichotomy i j with hij | hij | hij
        · have := List.pairwise_iff_getElem.1 hd.2 i j hi hj hij
          rw [hie, hje] at this
          exact this ht ht'
        · subst hij; exact hne (hie.symm.trans hje)
        · have := List.pairwise_iff_getElem.1 hd.2 j i hj hi hij
          rw [hie, hje] at this
          exact this ht' ht

/-- Violation of C33: a target with the label of another demand is accepted and the sample then
has two columns with the same label. -/
theorem C33_collision_accepted :
    cloneDemands [(str "PGV-0-1", [str "PGV-0-2"])]
      ⟨[([str "PGV", str "0", str "1"], [some 1]), ([str "PGV", str "0", str "2"], [some 2])],
       [([str "PGV", str "0", str "1"], str "mps"), ([str "PGV", str "0", str "2"], str "mps")]⟩ =
    .ok ⟨[([str "PGV", str "0", str "2"], [some 1]), ([str "PGV", str "0", str "2"], [some 2])],
       [([str "PGV", str "0", str "2"], str "mps"), ([str "PGV", str "0", str "2"], str "mps")]⟩ := by
  decide +kernel

/-- The cloned sample of the next theorem. -/
def errorTable : RawTable :=
  [([str "ERROR", str "0", str "1"], some (str "unitless"), [some 0, some 1]),
   ([str "PFA", str "0", str "1"], some (str "g"), [some 1, some 2]),
   ([str "PID", str "1", str "1"], some (str "rad"), [some 3, some 4])]

/-- Violation of C33 for units: after loading a table whose `ERROR` column has a unit, cloning
shifts all units by one position: accelerations are labelled `unitless` and drifts `g`. -/
theorem C33_units_shifted_after_error_column :
    (match loadSample [(str "g", 981 / 100), (str "rad", 1), (str "unitless", 1)] errorTable with
      | .ok s => (cloneDemands [(str "PFA-0-1", [str "PFA-0-1"])] s).map Sample.units
      | .error e => .error e) =
    .ok [([str "PFA", str "0", str "1"], str "unitless"), ([str "PID", str "1", str "1"], str "g")] := by
  decide +kernel

/-- A configuration with two targets that meets the hypotheses of the theorems above. -/
example : (cloneDemands [(str "PGV-0-1", [str "PGV-0-1", str "PGV-1-1"])]
      ⟨[([str "PGV", str "0", str "1"], [some 1]), ([str "PID", str "0", str "2"], [some 2])],
       [([str "PGV", str "0", str "1"], str "mps"), ([str "PID", str "0", str "2"], str "rad")]⟩) =
    .ok ⟨[([str "PGV", str "0", str "1"], [some 1]), ([str "PGV", str "1", str "1"], [some 1]),
        ([str "PID", str "0", str "2"], [some 2])],
       [([str "PGV", str "0", str "1"], str "mps"), ([str "PGV", str "1", str "1"], str "mps"),
        ([str "PID", str "0", str "2"], str "rad")]⟩ := by
  decide +kernel

/-! ## Loading -/

/-- A label with three levels without spaces, as produced by `parse_header`. -/
def Clean (l : Label) : Prop := l.length = 3 ∧ ∀ w ∈ l, ' ' ∉ w

theorem filter_space {w : Str} (h : ' ' ∉ w) : w.filter (· ≠ ' ') = w := by
  rw [List.filter_eq_self]
  intro c hc
  simp only [ne_eq, decide_not, Bool.not_eq_eq_eq_not, Bool.not_true, decide_eq_false_iff_not]
  rintro rfl; exact h hc

theorem parseLabel_clean {l : Label} (h : Clean l) : parseLabel l = .ok l := by
  obtain ⟨hlen, hs⟩ := h
  match l, hlen with
  | [t, x, d], _ =>
    simp only [parseLabel, List.map_cons, List.map_nil]
    rw [filter_space (hs t (by simp)), filter_space (hs x (by simp)), filter_space (hs d (by simp))]

theorem parseLabels_clean {α : Type} {l : List (Label × α)} (h : ∀ c ∈ l, Clean c.1) :
    parseLabels l = .ok l := by
  unfold parseLabels
  rw [mapE_pure (g := id) (fun c hc => by rw [relabel, parseLabel_clean (h c hc)]; rfl), List.map_id]

theorem loadedData_perm (table : Dict Str ℚ) (t : RawTable) :
    (loadedData table t).Perm (t.map fun c => (c.1, scaleCells (loadFactor table c.2.1) c.2.2)) :=
  pySort_perm _ _

theorem loadedUnits_perm (t : RawTable) :
    (loadedUnits t).Perm (t.filterMap fun c => c.2.1.map fun u => (c.1, u)) := pySort_perm _ _

theorem loadedUnits_clean {t : RawTable} (h : ∀ c ∈ t, Clean c.1) : ∀ u ∈ loadedUnits t, Clean u.1 := by
  intro u hu
  obtain ⟨c, hc, he⟩ := List.mem_filterMap.1 ((loadedUnits_perm t).mem_iff.1 hu)
  obtain ⟨w, _, rfl⟩ := Option.map_eq_some_iff.1 he
  exact h c hc

theorem loadedData_clean {table : Dict Str ℚ} {t : RawTable} (h : ∀ c ∈ t, Clean c.1) :
    ∀ u ∈ loadedData table t, Clean u.1 := by
  intro u hu
  obtain ⟨c, hc, rfl⟩ := List.mem_map.1 ((loadedData_perm table t).mem_iff.1 hu)
  exact h c hc

theorem loadSample_noError (table : Dict Str ℚ) (t : RawTable) (h : ∀ c ∈ t, Clean c.1)
    (he : ∀ c ∈ t, c.1.head? ≠ some (str "ERROR")) :
    loadSample table t = .ok ⟨loadedData table t, loadedUnits t⟩ := by
  have hno : (loadedData table t).filter isError = [] := by
    rw [List.filter_eq_nil_iff]
    intro c hc
    obtain ⟨c', hc', rfl⟩ := List.mem_map.1 ((loadedData_perm table t).mem_iff.1 hc)
    simp only [isError, decide_eq_true_eq]
    exact he c' hc'
  simp only [loadSample, parseLabels_clean (loadedData_clean h), parseLabels_clean (loadedUnits_clean h),
    removeErrors, hno]

/-- A header with or without a leading event id and the label it stands for: blanks are ignored. -/
def StandsFor (header label : Label) : Prop :=
  ∃ t l d : Str, label = [t, l, d].map (List.filter (· ≠ ' ')) ∧
    (header = [t, l, d] ∨ ∃ event, header = [event, t, l, d])

theorem parseLabel_standsFor {h l : Label} (hs : StandsFor h l) : parseLabel h = .ok l := by
  obtain ⟨t, x, d, rfl, rfl | ⟨e, rfl⟩⟩ := hs <;> rfl

theorem parseLabels_map {α : Type} {f : Label → Label} {l : List (Label × α)} (h : ∀ c ∈ l, StandsFor c.1 (f c.1)) :
    parseLabels l = .ok (l.map fun c => (f c.1, c.2)) := by
  unfold parseLabels
  exact mapE_pure (g := fun c : Label × α => (f c.1, c.2)) (fun c hc => by rw [relabel, parseLabel_standsFor (h c hc)])

/-- C75: headers may start with an event id and contain blanks; a loaded sample has exactly the demands
of the table, without event ids and blanks, converted from the units of the table, and these units. -/
theorem C75_headers (table : Dict Str ℚ) (t : RawTable) (f : Label → Label)
    (hf : ∀ c ∈ t, StandsFor c.1 (f c.1)) (he : ∀ c ∈ t, (f c.1).head? ≠ some (str "ERROR")) :
    ∃ r, loadSample table t = .ok r ∧
      r.cols.Perm (t.map fun c => (f c.1, c.2.2.map (Option.map (· * ((c.2.1.bind table.get?).getD 1))))) ∧
      r.units.Perm (t.filterMap fun c => c.2.1.map fun u => (f c.1, u)) := by
  have hp := loadedData_perm table t
  have hq := loadedUnits_perm t
  have h1 := parseLabels_map (f := f) (l := loadedData table t) (by
    intro c hc
    obtain ⟨c', hc', rfl⟩ := List.mem_map.1 (hp.mem_iff.1 hc)
    exact hf c' hc')
  have h2 := parseLabels_map (f := f) (l := loadedUnits t) (by
    intro u hu
    obtain ⟨c, hc, he⟩ := List.mem_filterMap.1 (hq.mem_iff.1 hu)
    obtain ⟨w, _, rfl⟩ := Option.map_eq_some_iff.1 he
    exact hf c hc)
  have hno : ((loadedData table t).map fun c => (f c.1, c.2)).filter isError = [] := by
    rw [List.filter_eq_nil_iff]
    intro c hc
    obtain ⟨c', hc', rfl⟩ := List.mem_map.1 hc
    obtain ⟨c'', hc'', rfl⟩ := List.mem_map.1 (hp.mem_iff.1 hc')
    simp only [isError, decide_eq_true_eq]
    exact he c'' hc''
  refine ⟨_, by simp only [loadSample, h1, h2, removeErrors, hno]; rfl, ?_, ?_⟩
  · refine (hp.map _).trans (List.Perm.of_eq ?_)
    rw [List.map_map]
    refine List.map_congr_left fun c _ => ?_
    simp only [Function.comp, scaleCells]
    have : loadFactor table c.2.1 = (c.2.1.bind table.get?).getD 1 := by
      cases c.2.1 with
      | none => rfl
      | some u => simp only [loadFactor, Option.bind_some]; cases table.get? u <;> rfl
    rw [this]
  · refine (hq.map _).trans (List.Perm.of_eq ?_)
    rw [List.map_filterMap]
    congr 1
    funext c
    cases c.2.1 <;> rfl

/-- Headers with an event id and blanks. -/
example : loadSample [(str "g", 981 / 100)]
    [([str "1", str " PFA ", str "0", str "1"], some (str "g"), [some 1]), ([str "1", str "PID", str " 1", str "1"], none, [some 2])] =
    .ok ⟨[([str "PFA", str "0", str "1"], [some (981 / 100)]), ([str "PID", str "1", str "1"], [some 2])],
      [([str "PFA", str "0", str "1"], str "g")]⟩ := by
  decide +kernel

/-- C75: headers with fewer than three parts are refused. -/
theorem C75_short_header (table : Dict Str ℚ) (t : RawTable) (c : Label × Option Str × List (Option ℚ))
    (hc : c ∈ t) (hlen : c.1.length < 3) : loadSample table t = .error .indexError := by
  have hm : (c.1, scaleCells (loadFactor table c.2.1) c.2.2) ∈ loadedData table t :=
    (loadedData_perm table t).mem_iff.2 (List.mem_map.2 ⟨c, hc, rfl⟩)
  cases hp : parseLabels (loadedData table t) with
  | ok r =>
    obtain ⟨r', _, h⟩ := forall₂_mem_left (mapE_ok_iff.1 hp) hm
    rw [relabel] at h
    match hl : c.1, hlen with
    | [], _ => rw [hl] at h; simp [parseLabel] at h
    | [a], _ => rw [hl] at h; simp [parseLabel] at h
    | [a, b], _ => rw [hl] at h; simp [parseLabel] at h
  | error e =>
    obtain ⟨a, _, h⟩ := mapE_error hp
    have : e = .indexError := by
      rw [relabel] at h
      cases hq : parseLabel a.1 with
      | ok l => rw [hq] at h; simp at h
      | error e' =>
        rw [hq] at h
        cases h
        unfold parseLabel at hq
        split at hq <;> simp_all
    simp only [loadSample, hp, this]

/-! ## Adding a column -/

theorem set_perm {κ α : Type} [DecidableEq κ] {d : Dict κ α} (hd : d.NoDupKeys) (k : κ) (v : α) :
    (d.set k v).Perm (d.filter (fun e => e.1 ≠ k) ++ [(k, v)]) := by
  induction d with
  | nil => exact List.Perm.refl _
  | cons e d ih =>
    obtain ⟨a, b⟩ := e
    simp only [Dict.NoDupKeys, Dict.keys, List.map_cons, List.nodup_cons] at hd
    simp only [Dict.set]
    by_cases h : a = k
    · subst h
      rw [if_pos rfl]
      have hf : (List.filter (fun e => decide (e.1 ≠ a)) ((a, b) :: d)) = d := by
        rw [List.filter_cons_of_neg (by simp), List.filter_eq_self]
        intro x hx
        simp only [ne_eq, decide_not, Bool.not_eq_eq_eq_not, Bool.not_true, decide_eq_false_iff_not]
        rintro rfl
        exact hd.1 (List.mem_map.2 ⟨x, hx, rfl⟩)
      rw [hf]
      exact (List.perm_append_singleton _ _).symm
    · rw [if_neg h, List.filter_cons_of_pos (by simpa using h), List.cons_append]
      exact (ih hd.2).cons _

/-- The value a user passed, one per realization. -/
def userValues (n : Nat) : NewValue → List ℚ
  | .scalar q => List.replicate n q
  | .array v => v

theorem saveSample_ok (table : Dict Str ℚ) (s : Sample) (hu : Dict.NoDupKeys s.units)
    (hk : ∀ u ∈ s.units.map Prod.snd, ∃ f, table.get? u = some f) :
    saveSample table s = .ok ((pySort (fun a b => labelLe a.1 b.1)
      (s.cols.map fun c => (c.1, scaleCells (1 / loadFactor table (Dict.get? s.units c.1)) c.2))).map
        fun c => (c.1, Dict.get? s.units c.1, c.2)) := by
  simp only [saveSample]
  rw [scaleLoop_ok table s.units hu _ (uniqueVals_nodup _ _)
    (fun u h => hk u ((uniqueVals_mem _ _ _).1 h).1)]
  simp only
  congr 4
  funext c
  congr 2
  unfold doneFactor loadFactor
  cases hg : Dict.get? s.units c.1 with
  | none => simp
  | some u =>
    have hm := List.mem_map_of_mem (f := Prod.snd) (Dict.mem_of_get? hg)
    obtain ⟨f, hf⟩ := hk u hm
    simp only
    rw [if_pos ((uniqueVals_mem _ _ _).2 ⟨hm, by simp⟩), hf]
    rfl

/-- C28 for demand samples: a saved sample has the values in user units, and loading it again gives the same
columns with the same values and units. -/
theorem C28_sample_round_trip (table : Dict Str ℚ) (s : Sample)
    (hclean : ∀ c ∈ s.cols, Clean c.1) (herr : ∀ c ∈ s.cols, c.1.head? ≠ some (str "ERROR"))
    (hu : Dict.NoDupKeys s.units)
    (hk : ∀ u ∈ s.units.map Prod.snd, ∃ f, table.get? u = some f ∧ f ≠ 0) :
    ∃ t r, saveSample table s = .ok t ∧
      t.Perm (s.cols.map fun c => (c.1, Dict.get? s.units c.1,
        c.2.map (Option.map (· / (((Dict.get? s.units c.1).bind table.get?).getD 1))))) ∧
      loadSample table t = .ok r ∧ r.cols.Perm s.cols ∧
      ∀ lab u, (lab, u) ∈ r.units ↔ lab ∈ s.cols.map Prod.fst ∧ (lab, u) ∈ s.units := by
  have hk' : ∀ u ∈ s.units.map Prod.snd, ∃ f, table.get? u = some f := fun u h =>
    (hk u h).imp fun _ h => h.1
  have hsave := saveSample_ok table s hu hk'
  set g : Column → Column := fun c =>
    (c.1, scaleCells (1 / loadFactor table (Dict.get? s.units c.1)) c.2) with hg
  set t : RawTable := (pySort (fun a b => labelLe a.1 b.1) (s.cols.map g)).map
    fun c => (c.1, Dict.get? s.units c.1, c.2) with ht
  have htp : t.Perm (s.cols.map fun c => (c.1, Dict.get? s.units c.1, (g c).2)) := by
    rw [ht]
    refine ((pySort_perm _ _).map _).trans (List.Perm.of_eq ?_)
    rw [List.map_map]; rfl
  have hmemt : ∀ c ∈ t, ∃ c' ∈ s.cols, c = (c'.1, Dict.get? s.units c'.1, (g c').2) := by
    intro c hc
    obtain ⟨c', h1, h2⟩ := List.mem_map.1 (htp.mem_iff.1 hc)
    exact ⟨c', h1, h2.symm⟩
  have hload := loadSample_noError table t
    (by
      intro c hc
      obtain ⟨c', h1, rfl⟩ := hmemt c hc
      exact hclean c' h1)
    (by
      intro c hc
      obtain ⟨c', h1, rfl⟩ := hmemt c hc
      exact herr c' h1)
  refine ⟨t, _, hsave, htp.trans (List.Perm.of_eq (List.map_congr_left fun c _ => ?_)), hload, ?_, ?_⟩
  · simp only [hg, scaleCells, div_eq_mul_inv, one_mul]
    have : loadFactor table (Dict.get? s.units c.1) = ((Dict.get? s.units c.1).bind table.get?).getD 1 := by
      cases Dict.get? s.units c.1 with
      | none => rfl
      | some u => simp only [loadFactor, Option.bind_some]; cases table.get? u <;> rfl
    rw [this]
  · refine (loadedData_perm table t).trans ((htp.map _).trans (List.Perm.of_eq ?_))
    rw [List.map_map]
    conv_rhs => rw [← List.map_id s.cols]
    refine List.map_congr_left (fun c hc => ?_)
    simp only [Function.comp, hg, id, scaleCells_mul]
    have : 1 / loadFactor table (Dict.get? s.units c.1) * loadFactor table (Dict.get? s.units c.1) = 1 := by
      apply one_div_mul_cancel
      unfold loadFactor
      cases hgu : Dict.get? s.units c.1 with
      | none => simp
      | some u =>
        obtain ⟨f, hf, h0⟩ := hk u (List.mem_map_of_mem (f := Prod.snd) (Dict.mem_of_get? hgu))
        simp only [hf]; exact h0
    rw [this, scaleCells_one]
  · intro lab u
    simp only
    rw [(loadedUnits_perm t).mem_iff, List.mem_filterMap]
    constructor
    · rintro ⟨c, hc, he⟩
      obtain ⟨w, hw, he⟩ := Option.map_eq_some_iff.1 he
      cases he
      obtain ⟨c', h3, rfl⟩ := hmemt c hc
      exact ⟨List.mem_map.2 ⟨c', h3, rfl⟩, Dict.mem_of_get? hw⟩
    · rintro ⟨h2, h3⟩
      obtain ⟨c', h4, rfl⟩ := List.mem_map.1 h2
      exact ⟨_, htp.mem_iff.2 (List.mem_map.2 ⟨c', h4, rfl⟩), by
        simp only [Dict.get?_of_mem hu h3, Option.map_some]⟩

/-- A sample with two units meets the hypotheses. -/
example : ∃ t r, saveSample [(str "g", 981 / 100), (str "in", 254 / 10000)]
      ⟨[([str "PFA", str "1", str "1"], [some 1, none]), ([str "PGD", str "0", str "1"], [some 2, some 3])],
       [([str "PGD", str "0", str "1"], str "in"), ([str "PFA", str "1", str "1"], str "g")]⟩ = .ok t ∧
    loadSample [(str "g", 981 / 100), (str "in", 254 / 10000)] t = .ok r := by
  obtain ⟨t, r, h1, _, h2, _⟩ := C28_sample_round_trip [(str "g", 981 / 100), (str "in", 254 / 10000)]
      ⟨[([str "PFA", str "1", str "1"], [some 1, none]), ([str "PGD", str "0", str "1"], [some 2, some 3])],
       [([str "PGD", str "0", str "1"], str "in"), ([str "PFA", str "1", str "1"], str "g")]⟩
    (by
      intro c hc
      simp only [List.mem_cons, List.not_mem_nil, or_false] at hc
      rcases hc with rfl | rfl <;> exact ⟨rfl, by decide⟩)
    (by
      intro c hc
      simp only [List.mem_cons, List.not_mem_nil, or_false] at hc
      rcases hc with rfl | rfl <;> decide)
    (by unfold Dict.NoDupKeys; decide)
    (by
      intro u hu
      simp only [List.map_cons, List.map_nil, List.mem_cons, List.not_mem_nil, or_false] at hu
      rcases hu with rfl | rfl
      · exact ⟨254 / 10000, by decide +kernel, by norm_num⟩
      · exact ⟨981 / 100, by decide +kernel, by norm_num⟩)
  exact ⟨t, r, h1, h2⟩

/-- C30: adding a demand to a sample keeps the values of all other demands, gives the new demand
the passed values converted from the passed unit, and records its unit.  A demand with the same
label is replaced.  Arithmetic is exact. -/
theorem C30_added_demand (table : Dict Str ℚ) (s : Sample) (l : Label) (value : NewValue) (unit : Str)
    (n : Nat) (hne : s.cols ≠ []) (hn : ∀ c ∈ s.cols, c.2.length = n)
    (hnd : (s.cols.map Prod.fst).Nodup) (hclean : ∀ c ∈ s.cols, Clean c.1)
    (herr : ∀ c ∈ s.cols, c.1.head? ≠ some (str "ERROR"))
    (hl : Clean l) (hle : l.head? ≠ some (str "ERROR"))
    (hu : Dict.NoDupKeys s.units)
    (hk : ∀ u ∈ s.units.map Prod.snd, ∃ f, table.get? u = some f ∧ f ≠ 0)
    (f : ℚ) (hf : table.get? unit = some f)
    (hv : ∀ v, value = .array v → v.length = n) :
    ∃ r, expandSample table (some s) l value unit = .ok r ∧
      r.cols.Perm (s.cols.filter (fun c => c.1 ≠ l) ++
        [(l, (userValues n value).map fun q => some (q * f))]) ∧
      ∀ lab u, (lab, u) ∈ r.units ↔
        (lab = l ∧ u = unit) ∨ (lab ≠ l ∧ lab ∈ s.cols.map Prod.fst ∧ (lab, u) ∈ s.units) := by
  have hk' : ∀ u ∈ s.units.map Prod.snd, ∃ f, table.get? u = some f := fun u h =>
    (hk u h).imp fun _ h => h.1
  have hsave := saveSample_ok table s hu hk'
  set g : Column → Column := fun c =>
    (c.1, scaleCells (1 / loadFactor table (Dict.get? s.units c.1)) c.2) with hg
  set t : RawTable := (pySort (fun a b => labelLe a.1 b.1) (s.cols.map g)).map
    fun c => (c.1, Dict.get? s.units c.1, c.2) with ht
  have htp : t.Perm (s.cols.map fun c => (c.1, Dict.get? s.units c.1, (g c).2)) := by
    rw [ht]
    refine ((pySort_perm _ _).map _).trans (List.Perm.of_eq ?_)
    rw [List.map_map]; rfl
  have htkeys : Dict.NoDupKeys t := by
    unfold Dict.NoDupKeys Dict.keys
    rw [(htp.map Prod.fst).nodup_iff, List.map_map]
    exact hnd
  have hmemt : ∀ c ∈ t, ∃ c' ∈ s.cols, c = (c'.1, Dict.get? s.units c'.1, (g c').2) := by
    intro c hc
    obtain ⟨c', h1, h2⟩ := List.mem_map.1 (htp.mem_iff.1 hc)
    exact ⟨c', h1, h2.symm⟩
  have hcount : rowCount t = n := by
    cases htc : t with
    | nil =>
      rw [htc] at htp
      have := htp.length_eq
      simp only [List.length_nil, List.length_map] at this
      exact absurd (List.length_eq_zero_iff.1 this.symm) hne
    | cons c t' =>
      obtain ⟨c', h1, h2⟩ := hmemt c (by rw [htc]; simp)
      simp only [rowCount, h2, hg, scaleCells, List.length_map]
      exact hn c' h1
  have hnew : newCells n value = .ok ((userValues n value).map some) := by
    cases value with
    | scalar q => simp [newCells, userValues]
    | array v => simp [newCells, userValues, hv v rfl]
  have hsetp := set_perm htkeys l ((some unit : Option Str), (userValues n value).map some)
  set t' : RawTable := setColumn t l unit ((userValues n value).map some) with ht'
  have ht'p : t'.Perm (t.filter (fun e => e.1 ≠ l) ++ [(l, some unit, (userValues n value).map some)]) :=
    hsetp
  have hmem' : ∀ c ∈ t', c = (l, some unit, (userValues n value).map some) ∨ (c.1 ≠ l ∧ c ∈ t) := by
    intro c hc
    rcases List.mem_append.1 (ht'p.mem_iff.1 hc) with h | h
    · obtain ⟨h1, h2⟩ := List.mem_filter.1 h
      exact .inr ⟨by simpa using h2, h1⟩
    · exact .inl (List.mem_singleton.1 h)
  have hload := loadSample_noError table t'
    (by
      intro c hc
      rcases hmem' c hc with rfl | ⟨_, h⟩
      · exact hl
      · obtain ⟨c', h1, rfl⟩ := hmemt c h
        exact hclean c' h1)
    (by
      intro c hc
      rcases hmem' c hc with rfl | ⟨_, h⟩
      · exact hle
      · obtain ⟨c', h1, rfl⟩ := hmemt c h
        exact herr c' h1)
  refine ⟨⟨loadedData table t', loadedUnits t'⟩, ?_, ?_, ?_⟩
  · simp only [expandSample, hsave]
    rw [hcount, hnew]
    exact hload
  · refine (loadedData_perm table t').trans ?_
    refine (ht'p.map _).trans ?_
    rw [List.map_append, List.map_singleton]
    refine List.Perm.append ?_ (List.Perm.of_eq ?_)
    · refine ((htp.filter _).map _).trans (List.Perm.of_eq ?_)
      rw [List.filter_map, List.map_map]
      conv_rhs => rw [← List.map_id (s.cols.filter (fun c => c.1 ≠ l))]
      refine List.map_congr_left (fun c hc => ?_)
      simp only [Function.comp, hg, id, scaleCells_mul]
      have : 1 / loadFactor table (Dict.get? s.units c.1) * loadFactor table (Dict.get? s.units c.1) = 1 := by
        apply one_div_mul_cancel
        unfold loadFactor
        cases hgu : Dict.get? s.units c.1 with
        | none => simp
        | some u =>
          obtain ⟨f, hf, h0⟩ := hk u (List.mem_map_of_mem (f := Prod.snd) (Dict.mem_of_get? hgu))
          simp only [hf]; exact h0
      rw [this, scaleCells_one]
    · simp only [loadFactor, hf, scaleCells, List.map_map]
      rfl
  · intro lab u
    simp only
    rw [(loadedUnits_perm t').mem_iff, List.mem_filterMap]
    constructor
    · rintro ⟨c, hc, he⟩
      obtain ⟨w, hw, he⟩ := Option.map_eq_some_iff.1 he
      cases he
      rcases hmem' c hc with rfl | ⟨h1, h2⟩
      · simp only [Option.some.injEq] at hw
        exact .inl ⟨rfl, hw.symm⟩
      · obtain ⟨c', h3, rfl⟩ := hmemt c h2
        exact .inr ⟨h1, List.mem_map.2 ⟨c', h3, rfl⟩, Dict.mem_of_get? hw⟩
    · rintro (⟨rfl, rfl⟩ | ⟨h1, h2, h3⟩)
      · exact ⟨_, ht'p.mem_iff.2 (List.mem_append_right _ (List.mem_singleton.2 rfl)), rfl⟩
      · obtain ⟨c', h4, rfl⟩ := List.mem_map.1 h2
        refine ⟨(c'.1, Dict.get? s.units c'.1, (g c').2), ht'p.mem_iff.2 (List.mem_append_left _ ?_), ?_⟩
        · refine List.mem_filter.2 ⟨htp.mem_iff.2 (List.mem_map.2 ⟨c', h4, rfl⟩), by simpa using h1⟩
        · simp only [Dict.get?_of_mem hu h3, Option.map_some]

/-- C30: arrays of the wrong length, and calls before there is a sample, are refused. -/
theorem C30_refused (table : Dict Str ℚ) (s : Sample) (l : Label) (v : List ℚ) (unit : Str)
    (n : Nat) (hne : s.cols ≠ []) (hn : ∀ c ∈ s.cols, c.2.length = n)
    (hu : Dict.NoDupKeys s.units) (hk : ∀ u ∈ s.units.map Prod.snd, ∃ f, table.get? u = some f)
    (hv : v.length ≠ n) (value : NewValue) :
    expandSample table none l value unit = .error .valueError ∧
    expandSample table (some s) l (.array v) unit = .error .valueError := by
  refine ⟨rfl, ?_⟩
  simp only [expandSample, saveSample_ok table s hu hk]
  have hp := pySort_perm (fun a b => labelLe a.1 b.1) (s.cols.map fun c =>
    (c.1, scaleCells (1 / loadFactor table (Dict.get? s.units c.1)) c.2))
  cases hs : pySort (fun a b => labelLe a.1 b.1) (s.cols.map fun c =>
      (c.1, scaleCells (1 / loadFactor table (Dict.get? s.units c.1)) c.2)) with
  | nil =>
    rw [hs] at hp
    have := hp.length_eq
    simp only [List.length_nil, List.length_map] at this
    exact absurd (List.length_eq_zero_iff.1 this.symm) hne
  | cons c cs =>
    rw [hs] at hp
    obtain ⟨c', h1, rfl⟩ := List.mem_map.1 (hp.mem_iff.1 List.mem_cons_self)
    simp only [List.map_cons, rowCount, newCells, scaleCells, List.length_map, hn c' h1, if_neg hv]

/-- The unit of the new demand is not checked: an unknown one is taken as the base unit. -/
theorem C30_unknown_unit_accepted :
    expandSample [(str "m", 1)] (some ⟨[([str "PGV", str "0", str "1"], [some 1])], []⟩)
      [str "PGD", str "0", str "1"] (.scalar 5) (str "xyz") =
    .ok ⟨[([str "PGD", str "0", str "1"], [some 5]), ([str "PGV", str "0", str "1"], [some 1])],
      [([str "PGD", str "0", str "1"], str "xyz")]⟩ := by
  decide +kernel

/-- The hypotheses of C30 are met. -/
example : expandSample [(str "in", 254 / 10000), (str "g", 981 / 100)]
      (some ⟨[([str "PFA", str "1", str "1"], [some 1, none])], [([str "PFA", str "1", str "1"], str "g")]⟩)
      [str "PGD", str "0", str "1"] (.array [100, 200]) (str "in") =
    .ok ⟨[([str "PFA", str "1", str "1"], [some 1, none]),
        ([str "PGD", str "0", str "1"], [some (254 / 100), some (508 / 100)])],
      [([str "PFA", str "1", str "1"], str "g"), ([str "PGD", str "0", str "1"], str "in")]⟩ := by
  decide +kernel

/-! ## Realizations flagged as erroneous -/

theorem dropFlagged_spec {α : Type} (flags : List Bool) (v : List α) (h : flags.length = v.length) :
    dropFlagged flags v =
      ((List.range v.length).filter fun i => flags[i]? = some false).filterMap fun i => v[i]? := by
  induction flags generalizing v with
  | nil =>
    cases v with
    | nil => rfl
    | cons a v => simp at h
  | cons b flags ih =>
    cases v with
    | nil => simp at h
    | cons a v =>
      have h' : flags.length = v.length := by simpa using h
      have ih := ih v h'
      rw [List.length_cons, List.range_succ_eq_map, List.filter_cons]
      have hshift : List.filterMap (fun i => (a :: v)[i]?)
          (List.filter (fun i => decide ((b :: flags)[i]? = some false)) (List.map Nat.succ (List.range v.length)))
          = List.filterMap (fun i => v[i]?) (List.filter (fun i => decide (flags[i]? = some false)) (List.range v.length)) := by
        rw [List.filter_map, List.filterMap_map]
        rfl
      cases b with
      | true =>
        rw [if_neg (by simp), hshift, ← ih]
        simp [dropFlagged]
      | false =>
        rw [if_pos (by simp), List.filterMap_cons, hshift, ← ih]
        simp [dropFlagged]

/-- C75: realizations with a nonzero (or missing) value in the `ERROR` column are removed from
all demands, all others are kept in order and unit-converted; the `ERROR` column is dropped. -/
theorem C75_flagged_realizations_removed (table : Dict Str ℚ) (t : RawTable) (n : Nat)
    (hclean : ∀ c ∈ t, Clean c.1) (hlen : ∀ c ∈ t, c.2.2.length = n)
    (e : Label × Option Str × List (Option ℚ)) (others : RawTable)
    (he : e.1.head? = some (str "ERROR")) (ht : t.Perm (e :: others))
    (ho : ∀ c ∈ others, c.1.head? ≠ some (str "ERROR"))
    (hf : loadFactor table e.2.1 ≠ 0) :
    ∃ r, loadSample table t = .ok r ∧
      r.cols.Perm (others.map fun c => (c.1,
        ((List.range n).filter fun i => e.2.2[i]? = some (some 0)).filterMap fun i =>
          (c.2.2[i]?).map (Option.map (· * loadFactor table c.2.1)))) := by
  have hp : (loadedData table t).Perm ((e.1, scaleCells (loadFactor table e.2.1) e.2.2) ::
      others.map fun c => (c.1, scaleCells (loadFactor table c.2.1) c.2.2)) :=
    (loadedData_perm table t).trans (ht.map _)
  have hee : isError (e.1, scaleCells (loadFactor table e.2.1) e.2.2) = true := by
    simp only [isError, decide_eq_true_eq]; exact he
  have hoe : ∀ c ∈ (others.map fun c => (c.1, scaleCells (loadFactor table c.2.1) c.2.2)),
      isError c = false := by
    intro c hc
    obtain ⟨c', h1, rfl⟩ := List.mem_map.1 hc
    simp only [isError, decide_eq_false_iff_not]
    exact ho c' h1
  have hn1 : (others.map fun c => (c.1, scaleCells (loadFactor table c.2.1) c.2.2)).filter isError = [] :=
    List.filter_eq_nil_iff.2 (fun c hc => by rw [hoe c hc]; simp)
  have hn2 : (others.map fun c => (c.1, scaleCells (loadFactor table c.2.1) c.2.2)).filter (fun c => !isError c) =
      others.map fun c => (c.1, scaleCells (loadFactor table c.2.1) c.2.2) :=
    List.filter_eq_self.2 (fun c hc => by rw [hoe c hc]; rfl)
  have hfe : (loadedData table t).filter isError = [(e.1, scaleCells (loadFactor table e.2.1) e.2.2)] := by
    have h1 := hp.filter isError
    rw [List.filter_cons_of_pos hee, hn1] at h1
    exact List.perm_singleton.1 h1
  have hfo : ((loadedData table t).filter fun c => !isError c).Perm
      (others.map fun c => (c.1, scaleCells (loadFactor table c.2.1) c.2.2)) := by
    have h1 := hp.filter (fun c => !isError c)
    rw [List.filter_cons_of_neg (by simp [hee]), hn2] at h1
    exact h1
  refine ⟨⟨((loadedData table t).filter fun c => !isError c).map fun c => (c.1,
    dropFlagged ((scaleCells (loadFactor table e.2.1) e.2.2).map truthy) c.2), loadedUnits t⟩, ?_, ?_⟩
  · simp only [loadSample, parseLabels_clean (loadedData_clean hclean),
      parseLabels_clean (loadedUnits_clean hclean), removeErrors, hfe]
  · refine (hfo.map _).trans (List.Perm.of_eq ?_)
    rw [List.map_map]
    refine List.map_congr_left (fun c hc => ?_)
    simp only [Function.comp, Prod.mk.injEq, true_and]
    have hcl : c.2.2.length = n := hlen c (ht.mem_iff.2 (List.mem_cons_of_mem _ hc))
    have hel : e.2.2.length = n := hlen e (ht.mem_iff.2 List.mem_cons_self)
    rw [dropFlagged_spec _ _ (by simp [scaleCells, hcl, hel])]
    have hl2 : (scaleCells (loadFactor table c.2.1) c.2.2).length = n := by simp [scaleCells, hcl]
    rw [hl2]
    congr 1
    · funext i; simp [scaleCells]
    · refine List.filter_congr (fun i hi => ?_)
      have hi' : i < e.2.2.length := by rw [hel]; simpa using hi
      simp only [scaleCells, List.map_map, List.getElem?_map, List.getElem?_eq_getElem hi',
        Option.map_some, Option.some.injEq, decide_eq_decide]
      cases hx : e.2.2[i] with
      | none => simp [truthy]
      | some q => simp [truthy, hf]

example : loadSample [(str "g", 981 / 100), (str "rad", 1), (str "unitless", 1)] errorTable =
    .ok ⟨[([str "PFA", str "0", str "1"], [some (981 / 100)]), ([str "PID", str "1", str "1"], [some 3])],
      [([str "ERROR", str "0", str "1"], str "unitless"), ([str "PFA", str "0", str "1"], str "g"),
       ([str "PID", str "1", str "1"], str "rad")]⟩ := by
  decide +kernel

end Verif.DemandSample
