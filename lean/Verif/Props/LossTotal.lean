import Verif.Model.LossTotal
import Verif.Props.LossAgg

/-!
# Property C110

The aggregated losses have the decision variables that are selected, and no others.
-/

namespace Verif.LossTotal

open LossAgg
open Verif.Config (Js Fields)

/-! ## The selection -/

/-- The place of the decision variables in a configuration. -/
def selectionPath : List Str := [str "DL", str "Losses", str "Repair", str "DecisionVariables"]

/-- The configuration sets the decision variable to `true`. -/
def Selected (config : Js) (dv : Str) : Prop :=
  ∃ f, config.at selectionPath = some (.dict f) ∧ f.get? dv = some (.leaf (.atom (.bool true)))

/-- A dictionary has each key once. -/
def UniqueKeys (config : Js) : Prop := ∀ f, config.at selectionPath = some (.dict f) → f.keys.Nodup

theorem trueKeys_sublist (f : Fields) : (trueKeys f).Sublist f.keys := by
  induction f using trueKeys.induct with
  | case1 => exact List.Sublist.refl _
  | case2 k f ih => rw [trueKeys, Fields.keys]; exact ih.cons_cons _
  | case3 k v f hv ih =>
    rw [trueKeys, Fields.keys]
    · exact ih.cons _
    · exact hv

theorem get?_keys {f : Fields} {k : Str} {v : Js} (h : f.get? k = some v) : k ∈ f.keys := by
  induction f using trueKeys.induct with
  | case1 => simp [Fields.get?] at h
  | case2 k' f ih =>
    rw [Fields.get?] at h
    rw [Fields.keys, List.mem_cons]
    split at h
    · left; symm; assumption
    · exact .inr (ih h)
  | case3 k' v' f hv ih =>
    rw [Fields.get?] at h
    rw [Fields.keys, List.mem_cons]
    split at h
    · left; symm; assumption
    · exact .inr (ih h)

theorem mem_trueKeys (f : Fields) (hnd : f.keys.Nodup) (k : Str) :
    k ∈ trueKeys f ↔ f.get? k = some (.leaf (.atom (.bool true))) := by
  induction f using trueKeys.induct with
  | case1 => simp [trueKeys, Fields.get?]
  | case2 k' f ih =>
    rw [Fields.keys, List.nodup_cons] at hnd
    rw [trueKeys, Fields.get?, List.mem_cons]
    by_cases hk : k' = k
    · rw [if_pos hk]; simp [hk]
    · rw [if_neg hk, ih hnd.2]
      simp [Ne.symm hk]
  | case3 k' v' f hv ih =>
    rw [Fields.keys, List.nodup_cons] at hnd
    rw [trueKeys, Fields.get?]
    · by_cases hk : k' = k
      · rw [if_pos hk]
        subst hk
        constructor
        · intro h; exact absurd ((trueKeys_sublist f).subset h) hnd.1
        · intro h
          simp only [Option.some.injEq] at h
          exact absurd h hv
      · rw [if_neg hk]; exact ih hnd.2
    · exact hv

theorem parse_eq (config : Js) :
    parseDecisionVariables config = match (config.at selectionPath).getD (.leaf (.atom (.bool false))) with
      | .leaf (.atom (.bool false)) => .ok []
      | .leaf _ => .error .attributeError
      | .dict f => .ok (trueKeys f) := by
  have e : Verif.Config.pathKeys (str "DL/Losses/Repair/DecisionVariables") = selectionPath := by decide
  unfold parseDecisionVariables Verif.Config.get
  simp only [e]
  rfl

/-- C110: the decision variables that are read from a configuration are those set to `true`, each once. -/
theorem C110_selection (config : Js) (hk : UniqueKeys config) (sel : List Str) (h : parseDecisionVariables config = .ok sel) :
    sel.Nodup ∧ ∀ dv, dv ∈ sel ↔ Selected config dv := by
  rw [parse_eq] at h
  unfold Selected
  cases hat : config.at selectionPath with
  | none => rw [hat] at h; simp at h; subst h; simp
  | some v =>
    rw [hat] at h
    simp only [Option.getD_some] at h
    split at h
    · simp at h; subst h; simp
    · simp at h
    · rename_i f
      simp only [Except.ok.injEq] at h
      subst h
      have hnd := hk f hat
      refine ⟨(trueKeys_sublist f).nodup hnd, fun dv => ?_⟩
      rw [mem_trueKeys f hnd]
      simp

/-- C110: a selection is refused exactly if it is there and neither a dictionary nor `false`. -/
theorem C110_selection_refused_iff (config : Js) :
    (∃ e, parseDecisionVariables config = .error e) ↔
      ∃ l, config.at selectionPath = some (.leaf l) ∧ l ≠ .atom (.bool false) := by
  rw [parse_eq]
  cases hat : config.at selectionPath with
  | none => simp
  | some v =>
    simp only [Option.getD_some]
    split
    · simp
    · rename_i l hl
      simp only [Except.error.injEq, exists_eq', Option.some.injEq, Js.leaf.injEq, exists_eq_left', true_iff]
      intro h; subst h; exact hl rfl
    · simp

/-! ## What is reported -/

/-- The column of a decision variable is one of the columns for it: `repair_time-sequential` and
`repair_time-parallel` for the time and `repair_cost` etc. for the others. -/
def ColumnOf (dv name : Str) : Prop :=
  (dv ≠ str "Time" ∧ name = repairColumn dv) ∨
  (dv = str "Time" ∧ (name = str "repair_time-sequential" ∨ name = str "repair_time-parallel"))

theorem sumUp_plain (iter : List Str → List Str) (ds : Option DsSample) (lf : Option LfSample) (cfg : Option Config)
    (dvs : List Str) (u : Units) :
    sumUp iter ds lf cfg none dvs u = match aggregateLosses ds lf cfg dvs u.dv u.table with
      | .error e => .error e
      | .ok r => .ok (.pair r.1 r.2) := by
  unfold sumUp aggregateLosses
  simp only [afterCombos]
  cases afterThresholds cfg (combined ds lf) with
  | error e => rfl
  | ok s =>
    simp only
    cases aggregateSample dvs u.dv u.table s.1 <;> rfl

theorem aggregate_some (iter : List Str → List Str) (raises : Bool) (ds : Option DsSample) (lf : Option LfSample)
    (hs : ds ≠ none ∨ lf ≠ none) (cfg : Option Config) (combos : Option Combos) (dvs : List Str) (u : Units)
    (hv : validate raises cfg combos dvs = .ok ()) :
    aggregate iter raises ds lf cfg combos dvs u = sumUp iter ds lf cfg combos dvs u := by
  unfold aggregate
  rw [hv]
  cases ds with
  | some d => rfl
  | none =>
    cases lf with
    | some l => rfl
    | none => simp at hs

theorem results_plain (iter : List Str → List Str) (raises : Bool) (ds : Option DsSample) (lf : Option LfSample)
    (hs : ds ≠ none ∨ lf ≠ none) (file : Except PyErr (List (List ℚ))) (map dvs : List Str) (u : Units) :
    results iter raises ds lf none none file map dvs u = aggregateLosses ds lf none dvs u.dv u.table := by
  unfold results
  simp only [chosenCombos]
  rw [aggregate_some iter raises ds lf hs none none dvs u rfl, sumUp_plain]
  cases aggregateLosses ds lf none dvs u.dv u.table with
  | error e => rfl
  | ok r => rfl

theorem results_none (iter : List Str → List Str) (raises : Bool) (cfg : Option Config) (method : Option Str)
    (file : Except PyErr (List (List ℚ))) (map dvs : List Str) (u : Units) :
    ∃ e, results iter raises none none cfg method file map dvs u = .error e := by
  unfold results
  cases chosenCombos method file map with
  | error e => exact ⟨e, rfl⟩
  | ok combos =>
    simp only
    unfold aggregate
    cases validate raises cfg combos dvs with
    | error e => exact ⟨e, rfl⟩
    | ok _ =>
      simp only
      unfold unpack
      split
      · rename_i h; simp at h
      · exact ⟨_, rfl⟩
      · exact ⟨_, rfl⟩

/-- C110, without combinations: when some decision variable is selected and the tool gives results, these have the
total of every selected decision variable that has losses, in its unit (for the time: the sum, and the largest
location), and no column for anything else.  Missing: the cases in which nothing is selected
(`C110_nothing_selected`), and in which there are no losses (`C110_no_losses_refused`). -/
theorem C110_reported_partial (iter : List Str → List Str) (raises : Bool) (config : Js) (hk : UniqueKeys config)
    (losses : List Str → Option DsSample × Option LfSample) (file : Except PyErr (List (List ℚ))) (map : List Str)
    (u : Units) (out : List (Str × List ℚ)) (flags : List (Str × List Bool))
    (h : toolResults iter raises config losses none file map u = .ok (out, flags)) (hsel : ∃ dv, Selected config dv) :
    ∃ dvs, dvs.Nodup ∧ (∀ dv, dv ∈ dvs ↔ Selected config dv) ∧
      (∀ name vals, (name, vals) ∈ out →
        ∃ dv, Selected config dv ∧ HasColumn (losses dvs).1 (losses dvs).2 (·.dv = dv) ∧ ColumnOf dv name) ∧
      ∀ n, Rows (losses dvs).1 (losses dvs).2 n →
        (∀ dv, Selected config dv → dv ≠ str "Time" → Capitalised dv → HasColumn (losses dvs).1 (losses dvs).2 (·.dv = dv) →
          ∃ f, UnitFactor u.dv u.table dv f ∧
            (repairColumn dv, (List.range n).map fun i =>
              LossSum (losses dvs).1 (losses dvs).2 (fun k => decide (k.dv = dv)) i / f) ∈ out) ∧
        (Selected config (str "Time") → HasColumn (losses dvs).1 (losses dvs).2 (·.dv = str "Time") →
          (∀ un f, u.table.get? un = some f → 0 < f) →
          (∀ s, (losses dvs).1 = some s → ∀ row ∈ s.rows, ∀ c ∈ s.cols, 0 ≤ row c) →
          (∀ s, (losses dvs).2 = some s → ∀ row ∈ s.rows, ∀ k ∈ s.cols, 0 ≤ row k) →
          ∃ f par, UnitFactor u.dv u.table (str "Time") f ∧
            (str "repair_time-sequential", (List.range n).map fun i =>
              LossSum (losses dvs).1 (losses dvs).2 (fun k => decide (k.dv = str "Time")) i / f) ∈ out ∧
            (str "repair_time-parallel", par) ∈ out ∧ par.length = n) := by
  unfold toolResults at h
  cases hp : parseDecisionVariables config with
  | error e => rw [hp] at h; simp at h
  | ok sel =>
    rw [hp] at h
    simp only at h
    obtain ⟨hnd, hmem⟩ := C110_selection config hk sel hp
    have hact : activeDvs defaultDvs sel = sel := by
      unfold activeDvs
      obtain ⟨dv, hdv⟩ := hsel
      rw [if_neg]
      rintro rfl
      exact absurd ((hmem dv).2 hdv) (by simp)
    rw [hact] at h
    have hs : (losses sel).1 ≠ none ∨ (losses sel).2 ≠ none := by
      by_contra hn
      push Not at hn
      rw [hn.1, hn.2] at h
      obtain ⟨e, he⟩ := results_none iter raises none none file map sel u
      rw [he] at h
      simp at h
    rw [results_plain iter raises _ _ hs] at h
    refine ⟨sel, hnd, hmem, ?_, ?_⟩
    · intro name vals hm
      have h' := h
      unfold aggregateLosses at h'
      simp only [afterThresholds] at h'
      split at h'
      · simp at h'
      rename_i agg hagg
      simp only [Except.ok.injEq, Prod.mk.injEq] at h'
      obtain ⟨rfl, rfl⟩ := h'
      rcases C54_no_other_columns sel u.dv u.table _ agg hagg name vals hm with ⟨dv, h1, h2, h3, h4⟩ | ⟨h1, h3, h4⟩
      · exact ⟨dv, (hmem dv).1 h1, (hasColumn_colsOf _ _ _).2 h3, .inl ⟨h2, h4⟩⟩
      · exact ⟨_, (hmem _).1 h1, (hasColumn_colsOf _ _ _).2 h3, .inr ⟨rfl, h4⟩⟩
    · intro n hR
      refine ⟨?_, ?_⟩
      · intro dv hdv ht hc hcol
        exact (C54_end_to_end _ _ n hR sel u.dv u.table out flags h dv ((hmem dv).2 hdv) ht hc hcol).2
      · intro hdv hcol hpos h1 h2
        obtain ⟨f, par, a1, a2, a3, a4, _⟩ :=
          C54_time_end_to_end _ _ n hR sel u.dv u.table out flags h ((hmem _).2 hdv) hcol hpos h1 h2
        exact ⟨f, par, a1, a2, a3, a4⟩

/-- A configuration that selects the given decision variables. -/
def selecting (dvs : List Str) : Js :=
  .dict (.cons (str "DL") (.dict (.cons (str "Losses") (.dict (.cons (str "Repair") (.dict (.cons (str "DecisionVariables")
    (.dict (dvs.foldr (fun dv f => .cons dv (.leaf (.atom (.bool true))) f) .nil)) .nil)) .nil)) .nil)) .nil)

theorem trueKeys_foldr (dvs : List Str) :
    trueKeys (dvs.foldr (fun dv f => .cons dv (.leaf (.atom (.bool true))) f) .nil) = dvs := by
  induction dvs with
  | nil => rfl
  | cons d l ih => rw [List.foldr_cons, trueKeys, ih]

theorem parse_selecting (dvs : List Str) : parseDecisionVariables (selecting dvs) = .ok dvs := by
  rw [parse_eq]
  have : (selecting dvs).at selectionPath =
      some (.dict (dvs.foldr (fun dv f => .cons dv (.leaf (.atom (.bool true))) f) .nil)) := by
    simp [selecting, selectionPath, Js.at, Fields.get?]
  rw [this]
  simp only [Option.getD_some]
  rw [trueKeys_foldr]

/-- C110 does not hold when every decision variable is declined: the results are the same as when the cost and the
time are selected. -/
theorem C110_nothing_selected (iter : List Str → List Str) (raises : Bool) (config : Js) (hk : UniqueKeys config)
    (hno : ∀ dv, ¬ Selected config dv) (sel : List Str) (hsel : parseDecisionVariables config = .ok sel)
    (losses : List Str → Option DsSample × Option LfSample) (method : Option Str)
    (file : Except PyErr (List (List ℚ))) (map : List Str) (u : Units) :
    toolResults iter raises config losses method file map u =
      toolResults iter raises (selecting [str "Cost", str "Time"]) losses method file map u := by
  have hs : sel = [] := by
    obtain ⟨_, hm⟩ := C110_selection config hk sel hsel
    cases sel with
    | nil => rfl
    | cons d l => exact absurd ((hm d).1 (by simp)) (hno d)
  subst hs
  unfold toolResults
  rw [hsel, parse_selecting]
  rfl

/-- C110 does not hold for an asset without losses: there are no results, whatever is selected. -/
theorem C110_no_losses_refused (iter : List Str → List Str) (raises : Bool) (config : Js)
    (losses : List Str → Option DsSample × Option LfSample) (hno : ∀ dvs, losses dvs = (none, none))
    (method : Option Str) (file : Except PyErr (List (List ℚ))) (map : List Str) (u : Units) :
    ∃ e, toolResults iter raises config losses method file map u = .error e := by
  unfold toolResults
  cases parseDecisionVariables config with
  | error e => exact ⟨e, rfl⟩
  | ok sel =>
    simp only [hno]
    exact results_none _ _ _ _ _ _ _ _

/-- C110: the aggregation itself gives zero, in one realization, for the columns of the active decision variables,
but as a single table. -/
theorem C110_no_losses_zero (iter : List Str → List Str) (raises : Bool) (dvs : List Str) (u : Units) :
    ∃ agg, aggregate iter raises none none none none dvs u = .ok (.alone agg) ∧
      (∀ name vals, (name, vals) ∈ agg → vals = [0] ∧ ∃ dv ∈ dvs, ColumnOf dv name) ∧
      ∀ dv ∈ dvs, ∀ name, ColumnOf dv name → (name, [0]) ∈ agg := by
  refine ⟨_, rfl, ?_, ?_⟩
  · intro name vals hm
    obtain ⟨c, hc, he⟩ := List.mem_map.1 hm
    cases he
    refine ⟨rfl, ?_⟩
    unfold constructColumns at hc
    rcases List.mem_append.1 hc with hc | hc
    · obtain ⟨dv, h1, rfl⟩ := List.mem_map.1 hc
      rw [List.mem_filter, decide_eq_true_eq] at h1
      exact ⟨dv, h1.1, .inl ⟨h1.2, (lower_name dv)⟩⟩
    · split at hc
      · rename_i ht
        simp only [List.mem_cons, List.not_mem_nil, or_false] at hc
        exact ⟨_, ht, .inr ⟨rfl, hc⟩⟩
      · simp at hc
  · intro dv hdv name hn
    refine List.mem_map.2 ⟨name, ?_, rfl⟩
    unfold constructColumns
    rcases hn with ⟨h1, rfl⟩ | ⟨rfl, hn⟩
    · refine List.mem_append_left _ (List.mem_map.2 ⟨dv, ?_, lower_name dv⟩)
      simp [hdv, h1]
    · refine List.mem_append_right _ ?_
      rw [if_pos hdv]
      simpa using hn

/-! ## Thresholds -/

theorem flagsOf_error {s : LfSample} {ratios : Dict Str ℚ} {dv : Str} {value : Nat → ℚ} {e : PyErr}
    (h : flagsOf s ratios dv value = .error e) : e = .keyError := by
  unfold flagsOf at h
  split at h
  · cases h; rfl
  · split at h
    · simp at h
    · split at h
      · cases h; rfl
      · simp at h

theorem applyThresholds_error {s : LfSample} {cfg : Config} {e : PyErr} (h : applyThresholds s cfg = .error e) :
    e = .keyError := by
  unfold applyThresholds at h
  split at h
  · rename_i e' hm
    cases h
    obtain ⟨d, _, hd⟩ := mapE_error hm
    cases hx : flagsOf s cfg.ratios d.1 d.2 with
    | ok f => rw [hx] at hd; simp at hd
    | error e'' =>
      rw [hx] at hd
      simp only [Except.error.injEq] at hd
      rw [← hd]
      exact flagsOf_error hx
  · simp at h

/-- The registry has a value for every active decision variable and, if unknown names are refused, there is nothing
else in the registry and the ratios. -/
def CoversDvs (raises : Bool) (cfg : Config) (dvs : List Str) : Prop :=
  (∀ dv ∈ dvs, dv ∈ cfg.reg.keys) ∧
  (raises = true → (∀ k ∈ cfg.reg.keys, k ∈ dvs) ∧ ∀ k ∈ cfg.ratios.keys, k ∈ dvs)

theorem validate_thresholds (raises : Bool) (cfg : Config) (dvs : List Str) :
    (CoversDvs raises cfg dvs → validate raises (some cfg) none dvs = .ok ()) ∧
    (¬ CoversDvs raises cfg dvs → validate raises (some cfg) none dvs = .error .valueError) := by
  unfold validate validateThresholds CoversDvs
  simp only
  constructor
  · rintro ⟨h1, h2⟩
    rw [if_neg, if_neg, if_neg]
    · simp only [List.any_eq_true, decide_eq_true_eq, not_exists, not_and, not_not]; exact h1
    · simp only [Bool.and_eq_true, List.any_eq_true, decide_eq_true_eq, not_and, not_exists, not_not]
      exact fun hr => (h2 hr).2
    · simp only [Bool.and_eq_true, List.any_eq_true, decide_eq_true_eq, not_and, not_exists, not_not]
      exact fun hr => (h2 hr).1
  · intro h
    by_cases a : (raises && (cfg.reg.keys.any fun k => decide (k ∉ dvs))) = true
    · rw [if_pos a]
    · rw [if_neg a]
      by_cases b : (raises && (cfg.ratios.keys.any fun k => decide (k ∉ dvs))) = true
      · rw [if_pos b]
      · rw [if_neg b]
        by_cases c : (dvs.any fun k => decide (k ∉ cfg.reg.keys)) = true
        · rw [if_pos c]
        · exfalso
          apply h
          simp only [Bool.and_eq_true, List.any_eq_true, decide_eq_true_eq, not_and, not_exists, not_not] at a b c
          exact ⟨c, fun hr => ⟨a hr, b hr⟩⟩

/-- C110: losses with thresholds are aggregated exactly if the registry covers the active decision variables, all
decision variables of the registry have losses and those with a realization without replacement a ratio, and
the active ones have units. -/
theorem C110_thresholds_accepted_iff (iter : List Str → List Str) (raises : Bool) (ds : Option DsSample)
    (lf : Option LfSample) (n : Nat) (hR : Rows ds lf n) (cfg : Config) (hnd : cfg.reg.NoDupKeys) (dvs : List Str)
    (hc : ∀ dv ∈ dvs, Capitalised dv) (u : Units) :
    (∃ out flags, aggregate iter raises ds lf (some cfg) none dvs u = .ok (.pair out flags)) ↔
      CoversDvs raises cfg dvs ∧
      (∀ dv ∈ cfg.reg.keys, HasColumn ds lf (·.dv = dv) ∧ ((∃ r, cfg.ratios.get? dv = some r) ∨
        ∀ i < n, ∃ k : LKey, k.dv = dv ∧ k.loss = str "replacement" ∧ 0 < LossSum ds lf (fun k' => decide (k' = k)) i)) ∧
      ∀ dv ∈ dvs, ∃ f, UnitFactor u.dv u.table dv f := by
  by_cases hcov : CoversDvs raises cfg dvs
  swap
  · constructor
    · rintro ⟨out, flags, h⟩
      unfold aggregate at h
      rw [(validate_thresholds raises cfg dvs).2 hcov] at h
      simp at h
    · rintro ⟨h, _⟩; exact absurd h hcov
  rw [aggregate_some iter raises ds lf hR.1 (some cfg) none dvs u ((validate_thresholds raises cfg dvs).1 hcov), sumUp_plain]
  have href := C52_refused_iff (combined ds lf) cfg
  have hbad : (∃ dv value, (dv, value) ∈ cfg.reg ∧ ((∀ k ∈ (combined ds lf).cols, k.dv ≠ dv) ∨
        (cfg.ratios.get? dv = none ∧
          ∃ row ∈ (combined ds lf).rows, ∀ k ∈ (combined ds lf).cols, k.dv = dv → k.loss = str "replacement" → row k ≤ 0))) ↔
      ¬ ∀ dv ∈ cfg.reg.keys, HasColumn ds lf (·.dv = dv) ∧ ((∃ r, cfg.ratios.get? dv = some r) ∨
        ∀ i < n, ∃ k : LKey, k.dv = dv ∧ k.loss = str "replacement" ∧ 0 < LossSum ds lf (fun k' => decide (k' = k)) i) := by
    have hone : ∀ dv, ((∀ k ∈ (combined ds lf).cols, k.dv ≠ dv) ∨
        (cfg.ratios.get? dv = none ∧
          ∃ row ∈ (combined ds lf).rows, ∀ k ∈ (combined ds lf).cols, k.dv = dv → k.loss = str "replacement" → row k ≤ 0)) ↔
        ¬ (HasColumn ds lf (·.dv = dv) ∧ ((∃ r, cfg.ratios.get? dv = some r) ∨
        ∀ i < n, ∃ k : LKey, k.dv = dv ∧ k.loss = str "replacement" ∧ 0 < LossSum ds lf (fun k' => decide (k' = k)) i)) := by
      intro dv
      rw [not_and_or, not_or]
      refine or_congr ?_ (and_congr ?_ ?_)
      · rw [hasColumn_colsOf]
        push Not
        rfl
      · cases cfg.ratios.get? dv <;> simp
      · rw [combined_rows hR]
        push Not
        constructor
        · rintro ⟨row, hrow, h⟩
          obtain ⟨i, hi, rfl⟩ := List.mem_map.1 hrow
          refine ⟨i, List.mem_range.1 hi, fun k h1 h2 => ?_⟩
          by_cases hk : k ∈ colsOf ds lf
          · rw [← rowOf_eq]; exact h k hk h1 h2
          · rw [lossSum_not_mem hk]
        · rintro ⟨i, hi, h⟩
          refine ⟨rowOf ds lf i, List.mem_map.2 ⟨i, List.mem_range.2 hi, rfl⟩, fun k _ h1 h2 => ?_⟩
          rw [rowOf_eq]; exact h k h1 h2
    constructor
    · rintro ⟨dv, value, hm, h⟩ hall
      exact (hone dv).1 h (hall dv (List.mem_map.2 ⟨_, hm, rfl⟩))
    · intro h
      push Not at h
      obtain ⟨dv, hm, h⟩ := h
      obtain ⟨⟨d, v⟩, hm', rfl⟩ := List.mem_map.1 hm
      refine ⟨d, v, hm', (hone d).2 ?_⟩
      rintro ⟨a, b⟩
      obtain ⟨b1, i, hi, b2⟩ := h a
      rcases b with ⟨r, hr⟩ | b
      · exact b1 r hr
      · obtain ⟨k, k1, k2, k3⟩ := b i hi
        exact absurd (b2 k k1 k2) (not_le.2 k3)
  rw [hbad] at href
  unfold aggregateLosses
  simp only [afterThresholds]
  cases hA : applyThresholds (combined ds lf) cfg with
  | error e =>
    have := applyThresholds_error hA
    subst this
    simp only [reduceCtorEq, exists_false, false_iff]
    rintro ⟨_, h, _⟩
    exact href.1 hA h
  | ok sf =>
    obtain ⟨s', fl⟩ := sf
    have hgood : ∀ dv ∈ cfg.reg.keys, HasColumn ds lf (·.dv = dv) ∧ ((∃ r, cfg.ratios.get? dv = some r) ∨
        ∀ i < n, ∃ k : LKey, k.dv = dv ∧ k.loss = str "replacement" ∧ 0 < LossSum ds lf (fun k' => decide (k' = k)) i) := by
      by_contra hn
      rw [href.2 hn] at hA
      simp at hA
    obtain ⟨_, _, t3, _⟩ := C52_thresholds _ s' cfg fl hnd hA
    obtain ⟨r1, r2⟩ := C54_refused_iff dvs u.dv u.table s' hc
    have hcol : ∀ dv ∈ dvs, ∃ k ∈ s'.cols, k.dv = dv := by
      intro dv hdv
      exact ⟨thresholdColumn dv, (t3 _).2 (.inr ⟨dv, hcov.1 dv hdv, rfl⟩), rfl⟩
    simp only
    cases hg : aggregateSample dvs u.dv u.table s' with
    | error e =>
      have := r2 e hg
      subst this
      simp only [reduceCtorEq, exists_false, false_iff]
      rintro ⟨_, _, h⟩
      obtain ⟨dv, hdv, _, hno⟩ := r1.1 hg
      exact hno (h dv hdv)
    | ok agg =>
      simp only [Except.ok.injEq, Result.pair.injEq]
      refine ⟨fun _ => ⟨hcov, hgood, ?_⟩, fun _ => ⟨agg, fl, rfl, rfl⟩⟩
      intro dv hdv
      by_contra hno
      rw [r1.2 ⟨dv, hdv, hcol dv hdv, hno⟩] at hg
      simp at hg

/-- C110: with thresholds, in the realizations in which some decision variable of the registry exceeds its threshold
every active decision variable has its replacement value, in the others the total of its losses. -/
theorem C110_thresholds (iter : List Str → List Str) (raises : Bool) (ds : Option DsSample) (lf : Option LfSample)
    (n : Nat) (hR : Rows ds lf n) (cfg : Config) (hnd : cfg.reg.NoDupKeys)
    (hname : ¬ HasColumn ds lf (·.dmg = str "threshold_exceedance")) (dvs : List Str) (u : Units)
    (out : List (Str × List ℚ)) (flags : List (Str × List Bool))
    (h : aggregate iter raises ds lf (some cfg) none dvs u = .ok (.pair out flags)) (dv : Str) (hdv : dv ∈ dvs)
    (ht : dv ≠ str "Time") (hc : Capitalised dv) :
    ∃ value f vals, cfg.reg.get? dv = some value ∧ UnitFactor u.dv u.table dv f ∧ (repairColumn dv, vals) ∈ out ∧
      vals.length = n ∧ ∀ i < n,
        ((∃ d v, cfg.reg.get? d = some v ∧ ExceedsThreshold ds lf cfg.ratios d (v i) i) → vals[i]? = some (value i / f)) ∧
        ((¬ ∃ d v, cfg.reg.get? d = some v ∧ ExceedsThreshold ds lf cfg.ratios d (v i) i) →
          vals[i]? = some (LossSum ds lf (fun k => decide (k.dv = dv)) i / f)) := by
  by_cases hcov : CoversDvs raises cfg dvs
  swap
  · unfold aggregate at h
    rw [(validate_thresholds raises cfg dvs).2 hcov] at h
    simp at h
  rw [aggregate_some iter raises ds lf hR.1 (some cfg) none dvs u ((validate_thresholds raises cfg dvs).1 hcov), sumUp_plain] at h
  cases hA : aggregateLosses ds lf (some cfg) dvs u.dv u.table with
  | error e => rw [hA] at h; simp at h
  | ok r =>
    rw [hA] at h
    simp only [Except.ok.injEq, Result.pair.injEq] at h
    obtain ⟨o, fl⟩ := r
    obtain ⟨rfl, rfl⟩ := h
    obtain ⟨_, _, h3⟩ := C52_end_to_end ds lf n hR cfg hnd hname dvs u.dv u.table o fl hA
    have hin := hcov.1 dv hdv
    obtain ⟨f, vals, f1, f2, f3, f4⟩ := h3 dv hdv ht hc (.inr hin)
    cases hg : cfg.reg.get? dv with
    | none => rw [Dict.get?_eq_none_iff] at hg; exact absurd hin hg
    | some v =>
      refine ⟨v, f, vals, rfl, f1, f2, f3, fun i hi => ⟨fun hx => ?_, (f4 i hi).2⟩⟩
      rw [(f4 i hi).1 hx, hg]

/-- C110: a registry with a decision variable that is not active is refused, also if unknown names are to be reported
as warnings only: there are no losses of decision variables that are not active. -/
theorem C110_unknown_threshold_refused (iter : List Str → List Str) (raises : Bool) (ds : Option DsSample)
    (lf : Option LfSample) (hs : ds ≠ none ∨ lf ≠ none) (cfg : Config) (dvs : List Str) (u : Units)
    (hdv : ¬ HasColumn ds lf (·.dv ∉ dvs)) (name : Str) (hin : name ∈ cfg.reg.keys) (hno : name ∉ dvs) :
    aggregate iter raises ds lf (some cfg) none dvs u = .error .valueError ∨
    (raises = false ∧ aggregate iter raises ds lf (some cfg) none dvs u = .error .keyError) := by
  by_cases hcov : CoversDvs raises cfg dvs
  swap
  · left
    unfold aggregate
    rw [(validate_thresholds raises cfg dvs).2 hcov]
  right
  constructor
  · cases raises with
    | false => rfl
    | true => exact absurd ((hcov.2 rfl).1 name hin) hno
  rw [aggregate_some iter raises ds lf hs (some cfg) none dvs u ((validate_thresholds raises cfg dvs).1 hcov), sumUp_plain]
  obtain ⟨⟨d, v⟩, hm, rfl⟩ := List.mem_map.1 hin
  have : applyThresholds (combined ds lf) cfg = .error .keyError := by
    rw [C52_refused_iff]
    refine ⟨d, v, hm, .inl ?_⟩
    rintro k hk rfl
    exact hdv ((hasColumn_colsOf _ _ _).2 ⟨k, hk, hno⟩)
  unfold aggregateLosses
  simp only [afterThresholds, this]

/-! ## Combinations -/

/-- C110: losses of wind and flood are combined only if the cost is a decision variable; otherwise, and for any other
method, the run stops. -/
theorem C110_combination_refused (iter : List Str → List Str) (raises : Bool) (ds : Option DsSample) (lf : Option LfSample)
    (cfg : Option Config) (method : Str) (file : Except PyErr (List (List ℚ))) (map dvs : List Str) (u : Units)
    (h : method ≠ str "Hazus Hurricane" ∨ str "Cost" ∉ dvs) :
    ∃ e, results iter raises ds lf cfg (some method) file map dvs u = .error e := by
  unfold results chosenCombos
  by_cases hm : method = str "Hazus Hurricane"
  · simp only [if_pos hm]
    have hd : str "Cost" ∉ dvs := h.resolve_left (not_not.2 hm)
    cases file with
    | error e => exact ⟨e, rfl⟩
    | ok arr =>
      match map with
      | [] => exact ⟨_, rfl⟩
      | [_] => exact ⟨_, rfl⟩
      | wind :: flood :: _ =>
        simp only
        unfold aggregate
        cases hv : validate raises cfg (some [(str "Cost", [wind, flood], arr)]) dvs with
        | error e => exact ⟨e, rfl⟩
        | ok _ =>
          exfalso
          unfold validate validateCombos at hv
          split at hv
          · simp at hv
          · simp [hd] at hv
  · simp only [if_neg hm]
    exact ⟨_, rfl⟩

/-- C110: combination tables are refused as a whole if one of them is for a decision variable that is not active. -/
theorem C110_combinations_refused (iter : List Str → List Str) (raises : Bool) (ds : Option DsSample) (lf : Option LfSample)
    (combos : Combos) (dvs : List Str) (u : Units) (name : Str) (cmps : List Str) (table : List (List ℚ))
    (hin : (name, cmps, table) ∈ combos) (hno : name ∉ dvs) :
    aggregate iter raises ds lf none (some combos) dvs u = .error .valueError := by
  have : validate raises none (some combos) dvs = .error .valueError := by
    simp only [validate, validateCombos]
    rw [if_pos]
    exact List.any_eq_true.2 ⟨_, hin, by simpa using hno⟩
  unfold aggregate
  rw [this]

set_option synthInstance.maxSize 4000 in
example : aggregate id true none none none (some [(str "Cost", [], []), (str "Energy", [], [])]) [str "Cost"] ⟨[], []⟩ =
    .error .valueError := C110_combinations_refused _ _ _ _ _ _ _ (str "Energy") [] [] (by simp) (by decide)

theorem set_noDup {κ α : Type} [DecidableEq κ] {d : Dict κ α} (hd : d.NoDupKeys) (k : κ) (v : α) : (d.set k v).NoDupKeys := by
  unfold Dict.NoDupKeys at *
  rw [Dict.keys_set]
  split
  · exact hd
  · rw [List.nodup_append]
    refine ⟨hd, by simp, ?_⟩
    rintro a ha b hb rfl
    simp only [List.mem_singleton] at hb
    subst hb
    contradiction

theorem combineLoop_noDup {cols : List LKey} {rows : List (LKey → ℚ)} {dv : Str} {comps : List Str} {arr : List (List ℚ)}
    {order : List Str} (us : List LossComb.LDU) : ∀ {st st' : LossComb.State}, st.2.NoDupKeys →
    LossComb.combineLoop cols rows dv comps arr order st us = .ok st' → st'.2.NoDupKeys := by
  induction us with
  | nil => intro st st' h he; rw [LossComb.combineLoop] at he; cases he; exact h
  | cons x us ih =>
    intro st st' h he
    rw [LossComb.combineLoop] at he
    cases hc : LossComb.combineAt cols rows dv comps arr order st x with
    | error e => rw [hc] at he; simp at he
    | ok s1 =>
      rw [hc] at he
      refine ih ?_ he
      unfold LossComb.combineAt at hc
      split at hc
      · simp at hc
      · split at hc
        · simp at hc
        · split at hc
          · simp at hc
          · cases hc; exact set_noDup h _ _

theorem combineAll_noDup {iter : List Str → List Str} {s : Sample LKey} (combos : Combos) : ∀ {st st' : LossComb.State},
    st.2.NoDupKeys → LossComb.combineAll iter s st combos = .ok st' → st'.2.NoDupKeys := by
  induction combos with
  | nil => intro st st' h he; rw [LossComb.combineAll] at he; cases he; exact h
  | cons c l ih =>
    obtain ⟨dv, comps, arr⟩ := c
    intro st st' h he
    rw [LossComb.combineAll] at he
    cases hc : LossComb.combineOne iter s st dv comps arr with
    | error e => rw [hc] at he; simp at he
    | ok s1 =>
      rw [hc] at he
      refine ih ?_ he
      unfold LossComb.combineOne at hc
      split at hc
      · simp at hc
      · exact combineLoop_noDup _ h hc

theorem foldl_set_noDup (f : LKey → List ℚ) (l : List LKey) : ∀ {d : Dict LKey (List ℚ)}, d.NoDupKeys →
    (l.foldl (fun d k => d.set k (f k)) d).NoDupKeys := by
  induction l with
  | nil => intro d h; exact h
  | cons k l ih => intro d h; exact ih (set_noDup h _ _)

theorem applyCombinations_noDup {iter : List Str → List Str} {combos : Combos} {s : Sample LKey} {d : Dict LKey (List ℚ)}
    (h : LossComb.applyCombinations iter combos s = .ok d) : d.NoDupKeys := by
  unfold LossComb.applyCombinations at h
  split at h
  · simp at h
  · rename_i left comb hc
    cases h
    exact foldl_set_noDup _ _ (combineAll_noDup (st := (s.cols, [])) combos (by simp [Dict.NoDupKeys, Dict.keys]) hc)

/-- C110: with the combination for hurricanes, the first two components of the loss map are combined with the table of
the library (C53 says what the combined columns are), and the aggregated value of a decision variable in each realization is the sum over the
columns that are there then, in its unit. -/
theorem C110_combined_total (iter : List Str → List Str) (raises : Bool) (ds : Option DsSample) (lf : Option LfSample)
    (n : Nat) (hR : Rows ds lf n) (file : Except PyErr (List (List ℚ))) (map dvs : List Str) (u : Units)
    (out : List (Str × List ℚ)) (flags : List (Str × List Bool))
    (h : results iter raises ds lf none (some (str "Hazus Hurricane")) file map dvs u = .ok (out, flags)) :
    ∃ arr wind flood rest d, file = .ok arr ∧ map = wind :: flood :: rest ∧ str "Cost" ∈ dvs ∧
      LossComb.applyCombinations iter [(str "Cost", [wind, flood], arr)] (combined ds lf) = .ok d ∧
      ∀ dv ∈ dvs, dv ≠ str "Time" → Capitalised dv → (∃ k ∈ d.keys, k.dv = dv) →
        ∃ f, UnitFactor u.dv u.table dv f ∧
          (repairColumn dv, (List.range n).map fun i =>
            ((d.filter fun kv => decide (kv.1.dv = dv)).map fun kv => kv.2.getD i 0).sum / f) ∈ out := by
  have hcost : str "Cost" ∈ dvs := by
    by_contra hn
    obtain ⟨e, he⟩ := C110_combination_refused iter raises ds lf none (str "Hazus Hurricane") file map dvs u (.inr hn)
    rw [he] at h
    simp at h
  unfold results chosenCombos at h
  simp only [if_true] at h
  cases file with
  | error e => simp at h
  | ok arr =>
    match map with
    | [] => simp at h
    | [_] => simp at h
    | wind :: flood :: rest =>
      simp only at h
      have hv : validate raises none (some [(str "Cost", [wind, flood], arr)]) dvs = .ok () := by
        simp [validate, validateCombos, hcost]
      rw [aggregate_some iter raises ds lf hR.1 none _ dvs u hv] at h
      unfold sumUp at h
      simp only [afterCombos, afterThresholds] at h
      cases hd : LossComb.applyCombinations iter [(str "Cost", [wind, flood], arr)] (combined ds lf) with
      | error e => rw [hd] at h; simp at h
      | ok d =>
        rw [hd] at h
        simp only at h
        cases hg : aggregateSample dvs u.dv u.table (ofColumns (combined ds lf).rows.length d) with
        | error e => rw [hg] at h; simp at h
        | ok agg =>
          rw [hg] at h
          simp only [unpack, Except.ok.injEq, Prod.mk.injEq] at h
          obtain ⟨rfl, rfl⟩ := h
          refine ⟨arr, wind, flood, rest, d, rfl, rfl, hcost, hd, ?_⟩
          intro dv hdv ht hc hk
          obtain ⟨f, f1, f2⟩ := C54_totals dvs u.dv u.table _ agg hg dv hdv ht hc hk
          refine ⟨f, f1, ?_⟩
          have hlen : (combined ds lf).rows.length = n := by rw [combined_rows hR]; simp
          have e : (ofColumns (combined ds lf).rows.length d).rows.map
                (fun row => Total (ofColumns (combined ds lf).rows.length d).cols dv row / f) =
              (List.range n).map fun i =>
                ((d.filter fun kv => decide (kv.1.dv = dv)).map fun kv => kv.2.getD i 0).sum / f := by
            unfold ofColumns
            simp only [hlen, List.map_map]
            apply List.map_congr_left
            intro i _
            simp only [Function.comp_apply]
            congr 1
            unfold LossAgg.Total Dict.keys
            rw [List.filter_map, List.map_map]
            congr 1
            apply List.map_congr_left
            intro kv hkv
            have hmem := (List.mem_filter.1 hkv).1
            simp only [Function.comp_apply]
            rw [Dict.get?_of_mem (applyCombinations_noDup hd) (k := kv.1) (v := kv.2) hmem]
            rfl
          rw [e] at f2
          exact f2

/-! ## Not vacuous -/

/-- Costs and times of a wall in two realizations. -/
def wallDs : DsSample :=
  ⟨[(⟨str "Cost", str "wall", str "wall", str "1", str "1", str "0"⟩, str "1"),
    (⟨str "Time", str "wall", str "wall", str "1", str "1", str "0"⟩, str "1")],
   [fun c => if c.1.dv = str "Cost" then 5 else 2, fun c => if c.1.dv = str "Cost" then 50 else 4]⟩

/-- The losses of the wall for the decision variables asked for. -/
def wallLosses (dvs : List Str) : Option DsSample × Option LfSample :=
  (some ⟨wallDs.cols.filter fun c => decide (c.1.dv ∈ dvs), wallDs.rows⟩, none)

def exUnits : Units := ⟨[(str "Cost", str "USD"), (str "Time", str "day")], [(str "USD", 1), (str "day", 2)]⟩

/-- Only the cost is selected. -/
example : toolResults id true (selecting [str "Cost"]) wallLosses none (.ok []) [] exUnits =
    .ok ([(str "repair_cost", [5, 50])], []) := by decide +kernel

example : Selected (selecting [str "Cost"]) (str "Cost") := ⟨_, rfl, rfl⟩

/-- Nothing is selected: cost and time. -/
example : toolResults id true (selecting []) wallLosses none (.ok []) [] exUnits =
    .ok ([(str "repair_cost", [5, 50]), (str "repair_time-sequential", [1, 2]), (str "repair_time-parallel", [1, 2])], []) := by
  decide +kernel

/-- Replacement for 100 when the repair is more than 40 percent of it. -/
def exConfig : Config := ⟨[(str "Cost", fun _ => 100)], [(str "Cost", 2 / 5)]⟩

example : aggregate id true (wallLosses [str "Cost"]).1 none (some exConfig) none [str "Cost"] exUnits =
    .ok (.pair [(str "repair_cost", [5, 100])] [(str "Cost", [false, true])]) := by decide +kernel

/-- Replacement of the time is given and the time is not a decision variable. -/
example : aggregate id false (wallLosses [str "Cost"]).1 none
    (some ⟨[(str "Cost", fun _ => 100), (str "Time", fun _ => 9)], [(str "Cost", 2 / 5)]⟩) none [str "Cost"] exUnits =
    .error .keyError := by decide +kernel

/-- Wind and flood damage to a house: 1 and 2 are combined to 5 / 2. -/
def houseDs : DsSample :=
  ⟨[(⟨str "Cost", str "W", str "W", str "1", str "1", str "0"⟩, str "1"),
    (⟨str "Cost", str "F", str "F", str "1", str "1", str "0"⟩, str "1")],
   [fun c => if c.1.dmg = str "W" then 1 else 2]⟩

example : results id true (some houseDs) none none (some (str "Hazus Hurricane"))
    (.ok [[0, 1, 2], [1, 3 / 2, 5 / 2], [2, 5 / 2, 3]]) [str "W", str "F", str "collapse"] [str "Cost"] exUnits =
    .ok ([(str "repair_cost", [5 / 2])], []) := by decide +kernel

end Verif.LossTotal
