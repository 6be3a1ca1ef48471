import Verif.Model.CalcLoss
import Verif.Props.ParamUnits
import Verif.Props.LossTotal

/-!
# C127: losses of an assessment in one call
-/

namespace Verif.CalcLoss

open LossAgg (Config HasColumn Rows LossSum Capitalised repairColumn)
open LossParams (LossMap Key addLossMap dsTables Merged HasRow)
open DmgParams (Row)
open ParamUnits (LossState loadLoss TablesOk Defined SizeFactor dvUnit qntUnit empirical StateOk)
open LossTotal (Combos Units aggregate ColumnOf)

variable (table : Dict Str ℚ) (M : Models)

/-- **C127.** If the call succeeds, the losses are calculated for the decision variables, the loss map and the sources of this call. -/
theorem C127_same_call (dvs : List Str) (given : Option LossMap) (policy : Option Str) (sources : List LossParams.Source) (st : State)
    (h : (calculateLoss table M dvs given policy sources st).2 = none) :
    ∃ m p missing, addLossMap given policy M.cmps = .ok m ∧ loadLoss table st.params sources m dvs = .ok (p, missing) ∧
      M.calculate dvs m p missing st.losses = ((calculateLoss table M dvs given policy sources st).1.losses, none) ∧
      (calculateLoss table M dvs given policy sources st).1 =
        ⟨dvs, some m, p, missing, (calculateLoss table M dvs given policy sources st).1.losses⟩ := by
  unfold calculateLoss at h ⊢
  cases h1 : addLossMap given policy M.cmps with
  | error e => rw [h1] at h; simp at h
  | ok m =>
    rw [h1] at h
    simp only at h ⊢
    cases h2 : loadLoss table st.params sources m dvs with
    | error e => rw [h2] at h; simp at h
    | ok x =>
      obtain ⟨p, missing⟩ := x
      rw [h2] at h
      simp only at h ⊢
      exact ⟨m, p, missing, rfl, h2, Prod.ext rfl h, rfl⟩

/-- **C127, failures.** A call that fails before the calculation leaves the losses and the loss parameters as they are. -/
theorem C127_failed (dvs : List Str) (given : Option LossMap) (policy : Option Str) (sources : List LossParams.Source) (st : State) (e : PyErr)
    (h : (calculateLoss table M dvs given policy sources st).2 = some e) :
    ((calculateLoss table M dvs given policy sources st).1.losses = st.losses ∧ (calculateLoss table M dvs given policy sources st).1.params = st.params) ∨
    ∃ m p missing, addLossMap given policy M.cmps = .ok m ∧ loadLoss table st.params sources m dvs = .ok (p, missing) ∧
      M.calculate dvs m p missing st.losses = ((calculateLoss table M dvs given policy sources st).1.losses, some e) := by
  unfold calculateLoss at h ⊢
  cases h1 : addLossMap given policy M.cmps with
  | error e => exact .inl ⟨rfl, rfl⟩
  | ok m =>
    rw [h1] at h
    simp only at h ⊢
    cases h2 : loadLoss table st.params sources m dvs with
    | error e => exact .inl ⟨rfl, rfl⟩
    | ok x =>
      obtain ⟨p, missing⟩ := x
      rw [h2] at h
      simp only at h ⊢
      exact .inr ⟨m, p, missing, rfl, h2, Prod.ext rfl h⟩

/-- **C127, failures.** Without a loss map and a policy the call is refused. -/
theorem C127_no_map_refused (dvs : List Str) (sources : List LossParams.Source) (st : State) :
    calculateLoss table M dvs none none sources st = ({ st with dvs := dvs }, some .valueError) := rfl

theorem aggregateLoss_plain {iter : List Str → List Str} {raises : Bool} {u : Units} {st : State} {out : List (Str × List ℚ)}
    {flags : List (Str × List Bool)} (h : aggregateLoss iter raises none none u st = .ok (out, flags)) :
    LossAgg.aggregateLosses st.losses.1 st.losses.2 none st.dvs u.dv u.table = .ok (out, flags) := by
  unfold aggregateLoss at h
  by_cases hs : st.losses.1 ≠ none ∨ st.losses.2 ≠ none
  · rw [LossTotal.aggregate_some iter raises _ _ hs none none st.dvs u rfl, LossTotal.sumUp_plain] at h
    cases ha : LossAgg.aggregateLosses st.losses.1 st.losses.2 none st.dvs u.dv u.table with
    | error e => rw [ha] at h; simp at h
    | ok x => rw [ha] at h; simpa using h
  · push Not at hs
    obtain ⟨agg, h1, _⟩ := LossTotal.C110_no_losses_zero iter raises st.dvs u
    rw [hs.1, hs.2, h1] at h
    simp at h

/-- The columns of aggregated losses belong to active decision variables that have losses. -/
theorem columns {iter : List Str → List Str} {raises : Bool} {u : Units} {st : State} {out : List (Str × List ℚ)}
    {flags : List (Str × List Bool)} (h : aggregateLoss iter raises none none u st = .ok (out, flags)) {name : Str} {vals : List ℚ}
    (hm : (name, vals) ∈ out) : ∃ dv ∈ st.dvs, HasColumn st.losses.1 st.losses.2 (·.dv = dv) ∧ ColumnOf dv name := by
  have h' := aggregateLoss_plain h
  unfold LossAgg.aggregateLosses at h'
  simp only [LossAgg.afterThresholds] at h'
  split at h'
  · simp at h'
  rename_i agg hagg
  simp only [Except.ok.injEq, Prod.mk.injEq] at h'
  obtain ⟨rfl, rfl⟩ := h'
  rcases LossAgg.C54_no_other_columns st.dvs u.dv u.table _ agg hagg name vals hm with ⟨dv, h1, h2, h3, h4⟩ | ⟨h1, h3, h4⟩
  · exact ⟨dv, h1, (LossAgg.hasColumn_colsOf _ _ _).2 h3, .inl ⟨h2, h4⟩⟩
  · exact ⟨_, h1, (LossAgg.hasColumn_colsOf _ _ _).2 h3, .inr ⟨rfl, h4⟩⟩

/-- **C127, totals.** After a call that succeeds, the aggregated losses are the totals of the calculated losses, in their units, for the decision
variables of the call that have losses, and there is no column for anything else.  Missing: an assessment without losses, for which
it is false. -/
theorem C127_totals_partial (iter : List Str → List Str) (raises : Bool) (u : Units) (dvs : List Str) (given : Option LossMap) (policy : Option Str)
    (sources : List LossParams.Source) (st : State) (h : (calculateLoss table M dvs given policy sources st).2 = none)
    (out : List (Str × List ℚ)) (flags : List (Str × List Bool))
    (ha : aggregateLoss iter raises none none u (calculateLoss table M dvs given policy sources st).1 = .ok (out, flags)) :
    ∃ m p missing l, addLossMap given policy M.cmps = .ok m ∧ loadLoss table st.params sources m dvs = .ok (p, missing) ∧
      M.calculate dvs m p missing st.losses = (l, none) ∧
      (∀ name vals, (name, vals) ∈ out → ∃ dv ∈ dvs, HasColumn l.1 l.2 (·.dv = dv) ∧ ColumnOf dv name) ∧
      ∀ n, Rows l.1 l.2 n → ∀ dv ∈ dvs, dv ≠ str "Time" → Capitalised dv → HasColumn l.1 l.2 (·.dv = dv) →
        ∃ f, LossAgg.UnitFactor u.dv u.table dv f ∧
          (repairColumn dv, (List.range n).map fun i => LossSum l.1 l.2 (fun k => decide (k.dv = dv)) i / f) ∈ out := by
  obtain ⟨m, p, missing, h1, h2, h3, h4⟩ := C127_same_call table M dvs given policy sources st h
  rw [h4] at ha
  refine ⟨m, p, missing, _, h1, h2, h3, fun name vals hm => columns ha hm, ?_⟩
  intro n hR dv hdv ht hc hcol
  exact (LossAgg.C54_end_to_end _ _ n hR dvs u.dv u.table out flags (aggregateLoss_plain ha) dv hdv ht hc hcol).2

/-- C127 does not hold for an assessment without losses: the documented pair of tables is not returned, the call ends with an
`AssertionError`. -/
theorem C127_no_losses_refused (iter : List Str → List Str) (raises : Bool) (u : Units) (st : State) (h : st.losses = (none, none)) :
    aggregateLoss iter raises none none u st = .error .assertionError := by
  obtain ⟨agg, h1, _⟩ := LossTotal.C110_no_losses_zero iter raises st.dvs u
  unfold aggregateLoss
  rw [h, h1]

/-- C127 does not hold for a call that fails: the decision variables are those of the failed call already, so that the losses of before, which are
still there, have no column in the aggregated losses for a decision variable that the failed call does not have. -/
theorem C127_failed_hides (iter : List Str → List Str) (raises : Bool) (u : Units) (dvs : List Str) (sources : List LossParams.Source) (st : State)
    (dv : Str) (hdv : dv ≠ str "Time") (hnot : ∀ d ∈ dvs, d ≠ str "Time" → repairColumn d ≠ repairColumn dv) (ht : str "Time" ∉ dvs) :
    (calculateLoss table M dvs none none sources st).1.losses = st.losses ∧
    ∀ out flags, aggregateLoss iter raises none none u (calculateLoss table M dvs none none sources st).1 = .ok (out, flags) →
      ∀ vals, (repairColumn dv, vals) ∉ out := by
  refine ⟨rfl, fun out flags h vals hm => ?_⟩
  obtain ⟨d, hd, _, h1 | ⟨h1, _⟩⟩ := columns h hm
  · have hd' : d ∈ dvs := hd
    exact hnot d hd' h1.1 h1.2.symm
  · exact ht (h1 ▸ hd)

/-! ### The same call again -/

/-- The definition that a second call with the same sources finds: converted cells first. -/
theorem defined_same {st : LossState} (hst : StateOk st) {sources : List LossParams.Source} {m : LossMap} {k : Key} {row row1 : Row}
    (hdef : Defined (dsTables sources) m k row) (h : HasRow st.params.ds k row1)
    (hi : row1 (str "Incomplete", []) = row (str "Incomplete", [])) :
    Defined (ParamUnits.start st.params.ds ++ dsTables sources) m k (fun c => (row1 c).or (row c)) := by
  obtain ⟨q, hq, hmem⟩ := h
  refine ⟨hdef.1, ?_, ?_⟩
  · rw [LossParams.merged_iff, hq]
    simp only [ParamUnits.start, List.flatten_append, List.flatten_cons, List.flatten_nil, List.append_nil]
    refine ⟨?_, ?_⟩
    · rw [List.map_append, List.mem_append]
      exact .inl (List.mem_map.2 ⟨_, hmem, rfl⟩)
    · funext x
      rw [LossParams.firstCell_append, ParamUnits.firstCell_self (hst.dsKeys q hq) hmem, ← ((LossParams.merged_iff _ _ _).1 hdef.2.1).2]
  · have := hdef.2.2
    show (row1 _).or (row _) ≠ _
    rw [hi]
    cases hr : row (str "Incomplete", []) with
    | none => simp
    | some x => rw [hr] at this; simpa using this

theorem repeat_scale {U Q : Str} {u q : ℚ} (hU : ParamUnits.UnitFactor table U u) (hQ : SizeFactor table Q q)
    (hq : q ≠ 0) {k : Key} {ds : Str} (hds : str "DS" <+: ds) {dvs : List Str} {given : Option LossMap} {policy : Option Str}
    {sources : List LossParams.Source} (hok : TablesOk sources) {m : LossMap} (hm : addLossMap given policy M.cmps = .ok m) {row : Row}
    (hdef : Defined (dsTables sources) m k row) (hrU : row dvUnit = some (.text U)) (hrQ : row qntUnit = some (.text Q))
    (he : row (ds, str "Family") ≠ empirical) : ∀ (n : Nat) {st : State} {row1 : Row} {x : ℚ}, StateOk st.params →
    (∀ r, HasRow st.params.params.ds k r ↔ r = row1) → row1 dvUnit = row dvUnit → row1 qntUnit = row qntUnit →
    row1 (ds, str "Family") = row (ds, str "Family") → row1 (str "Incomplete", []) = row (str "Incomplete", []) →
    row1 (ds, str "Theta_0") = some (.num x) → (repeatLoss table M dvs given policy sources n st).2 = none →
    ∃ row', (∀ r, HasRow (repeatLoss table M dvs given policy sources n st).1.params.params.ds k r ↔ r = row') ∧
      row' (ds, str "Theta_0") = some (.num (x * (u / q) ^ n)) := by
  intro n
  induction n with
  | zero =>
    intro st row1 x _ hr _ _ _ _ hx _
    exact ⟨row1, hr, by simpa using hx⟩
  | succ n ih =>
    intro st row1 x hst hr e1 e2 e3 e4 hx h
    simp only [repeatLoss] at h ⊢
    cases hc : calculateLoss table M dvs given policy sources st with
    | mk st' err =>
      cases err with
      | some e => rw [hc] at h; simp at h
      | none =>
        rw [hc] at h
        simp only at h ⊢
        obtain ⟨m', p, missing, h1, h2, _, h4⟩ := C127_same_call table M dvs given policy sources st (by rw [hc])
        rw [hm, Except.ok.injEq] at h1
        subst h1
        rw [hc] at h4
        have hp : st'.params = p := by
          have := congrArg State.params h4
          simpa using this
        have hor : ∀ c, row1 c = row c → (row1 c).or (row c) = row c := fun c h => by rw [h]; cases row c <;> rfl
        obtain ⟨row2, i1, i2, i3, i4, i5⟩ := ParamUnits.ds_scaled hst hok h2 (defined_same hst hdef ((hr row1).2 rfl) e4)
          ((hor _ e1).trans hrU) hU ((hor _ e2).trans hrQ) hQ hq hds (by rw [hor _ e3]; exact he) (c := .num x) (by simp only [hx]; rfl)
        have f1 : row2 (ds, str "Theta_0") = some (.num (x * (u / q))) := i2.number x (by
          show ParamUnits.parseTheta ((row1 (ds, str "Theta_0")).or _) = _
          rw [hx]; rfl)
        have f2 : row2 (ds, str "Family") = row (ds, str "Family") := Eq.trans i2.family (hor _ e3)
        obtain ⟨row', j1, j2⟩ := ih (st := st') (row1 := row2) (x := x * (u / q)) (hp ▸ ParamUnits.state_ok hst hok h2) (hp ▸ i1) (i3.trans (hor _ e1))
          (i4.trans (hor _ e2)) f2 (i5.trans (hor _ e4)) f1 h
        refine ⟨row', j1, ?_⟩
        rw [j2, pow_succ]
        congr 2
        ring

/-- C127 does not hold for a call that is repeated: with the same arguments, in a new assessment, the parameter that the calculation is given has been
multiplied by the factor of its unit as often as the call was made. -/
theorem C127_repeated {U Q : Str} {u q : ℚ} (hU : ParamUnits.UnitFactor table U u) (hQ : SizeFactor table Q q)
    (hq : q ≠ 0) {k : Key} {ds : Str} (hds : str "DS" <+: ds) {dvs : List Str} {given : Option LossMap} {policy : Option Str}
    {sources : List LossParams.Source} (hok : TablesOk sources) {m : LossMap} (hm : addLossMap given policy M.cmps = .ok m) {row : Row}
    (hdef : Defined (dsTables sources) m k row) (hrU : row dvUnit = some (.text U)) (hrQ : row qntUnit = some (.text Q))
    (he : row (ds, str "Family") ≠ empirical) {x : ℚ} (hx : row (ds, str "Theta_0") = some (.num x)) (n : Nat)
    (h : (repeatLoss table M dvs given policy sources (n + 1) .fresh).2 = none) :
    ∃ row', (∀ r, HasRow (repeatLoss table M dvs given policy sources (n + 1) .fresh).1.params.params.ds k r ↔ r = row') ∧
      row' (ds, str "Theta_0") = some (.num (x * (u / q) ^ (n + 1))) := by
  simp only [repeatLoss] at h ⊢
  cases hc : calculateLoss table M dvs given policy sources .fresh with
  | mk st' err =>
    cases err with
    | some e => rw [hc] at h; simp at h
    | none =>
      rw [hc] at h
      simp only at h ⊢
      obtain ⟨m', p, missing, h1, h2, _, h4⟩ := C127_same_call table M dvs given policy sources .fresh (by rw [hc])
      rw [hm, Except.ok.injEq] at h1
      subst h1
      rw [hc] at h4
      have hp : st'.params = p := by
        have := congrArg State.params h4
        simpa using this
      obtain ⟨row2, i1, i2, i3, i4, i5⟩ := ParamUnits.ds_scaled ParamUnits.fresh_ok hok h2 hdef hrU hU hrQ hQ hq hds he hx
      have f1 : row2 (ds, str "Theta_0") = some (.num (x * (u / q))) :=
        i2.number x (by show ParamUnits.parseTheta (row (ds, str "Theta_0")) = _; rw [hx]; rfl)
      obtain ⟨row', j1, j2⟩ := repeat_scale table M hU hQ hq hds hok hm hdef hrU hrQ he n (hp ▸ ParamUnits.state_ok ParamUnits.fresh_ok hok h2) (hp ▸ i1) i3 i4
        i2.family i5 f1 h
      refine ⟨row', j1, ?_⟩
      rw [j2, pow_succ]
      congr 2
      ring

/-- C127, what does hold for a repeated call: the second call is given the same parameter as the first one if, and only if, it is zero or its unit needs no
conversion. -/
theorem C127_repeated_same_iff {U Q : Str} {u q : ℚ} (hU : ParamUnits.UnitFactor table U u) (hQ : SizeFactor table Q q)
    (hq : q ≠ 0) {k : Key} {ds : Str} (hds : str "DS" <+: ds) {dvs : List Str} {given : Option LossMap} {policy : Option Str}
    {sources : List LossParams.Source} (hok : TablesOk sources) {m : LossMap} (hm : addLossMap given policy M.cmps = .ok m) {row : Row}
    (hdef : Defined (dsTables sources) m k row) (hrU : row dvUnit = some (.text U)) (hrQ : row qntUnit = some (.text Q))
    (he : row (ds, str "Family") ≠ empirical) {x : ℚ} (hx : row (ds, str "Theta_0") = some (.num x))
    (h1 : (repeatLoss table M dvs given policy sources 1 .fresh).2 = none) (h2 : (repeatLoss table M dvs given policy sources 2 .fresh).2 = none)
    {r1 r2 : Row} (hr1 : HasRow (repeatLoss table M dvs given policy sources 1 .fresh).1.params.params.ds k r1)
    (hr2 : HasRow (repeatLoss table M dvs given policy sources 2 .fresh).1.params.params.ds k r2) :
    r2 (ds, str "Theta_0") = r1 (ds, str "Theta_0") ↔ x = 0 ∨ u = 0 ∨ u = q := by
  obtain ⟨a, a1, a2⟩ := C127_repeated table M hU hQ hq hds hok hm hdef hrU hrQ he hx 0 h1
  obtain ⟨b, b1, b2⟩ := C127_repeated table M hU hQ hq hds hok hm hdef hrU hrQ he hx 1 h2
  rw [(a1 r1).1 hr1, (b1 r2).1 hr2, a2, b2]
  simp only [Option.some.injEq, DmgParams.Cell.num.injEq]
  constructor
  · intro e
    have e' : x * u * (u - q) = 0 := by
      have e2 : x * (u / q) ^ 2 = x * (u / q) := by simpa using e
      rw [div_pow] at e2
      field_simp at e2
      have e3 : x * u ^ 2 = x * u * q := by linarith
      linear_combination e3
    rcases mul_eq_zero.1 e' with e | e
    · rcases mul_eq_zero.1 e with e | e
      · exact .inl e
      · exact .inr (.inl e)
    · exact .inr (.inr (sub_eq_zero.1 e))
  · rintro (rfl | rfl | rfl)
    · simp
    · simp
    · rw [div_self hq]; simp

/-! ### The hypotheses are met -/

def exModels : Models := ⟨[str "C.30.1"], fun dvs _ _ _ _ => (LossTotal.wallLosses dvs, none)⟩

def exSources : List LossParams.Source := [ParamUnits.oneRow ParamUnits.exKey ParamUnits.exCells]

/-- The cost of the second damage state that the calculation is given. -/
def exCost (st : State) : Option DmgParams.Cell := ParamUnits.dsCell (.ok (st.params, [])) ParamUnits.exKey (str "DS2", str "Theta_0")

/-- `C127_same_call`, `C127_totals_partial`: the call succeeds and the losses are summed up. -/
example : let r := calculateLoss ParamUnits.exTable exModels [str "Cost"] (some ParamUnits.exMap) none exSources .fresh
    r.2.isNone = true ∧ exCost r.1 = some (.num 500) ∧
    aggregateLoss id true none none LossTotal.exUnits r.1 = .ok ([(str "repair_cost", [5, 50])], []) := by
  refine ⟨?_, ?_, ?_⟩ <;> decide +kernel

/-- `C127_repeated`, `C127_repeated_same_iff`: the second call, with the same arguments, multiplies the cost by 100 once more. -/
example : let r := repeatLoss ParamUnits.exTable exModels [str "Cost"] (some ParamUnits.exMap) none exSources 2 .fresh
    r.2.isNone = true ∧ exCost r.1 = some (.num 50000) := by
  refine ⟨?_, ?_⟩ <;> decide +kernel

example : addLossMap (some ParamUnits.exMap) none exModels.cmps = .ok ParamUnits.exMap ∧ TablesOk exSources ∧
    Defined (dsTables exSources) ParamUnits.exMap ParamUnits.exKey (fun c => Dict.get? ParamUnits.exCells c) :=
  ⟨by decide +kernel, ParamUnits.oneRow_ok _ _, ParamUnits.ex_defined⟩

/-- `C127_failed`, `C127_failed_hides`: the cost is calculated, a call for the energy is refused, and then the cost is not reported. -/
example : let first := calculateLoss ParamUnits.exTable exModels [str "Cost"] (some ParamUnits.exMap) none exSources .fresh
    let second := calculateLoss ParamUnits.exTable exModels [str "Energy"] none none exSources first.1
    second.2 = some .valueError ∧ aggregateLoss id true none none LossTotal.exUnits second.1 = .ok ([], []) ∧
    repairColumn (str "Energy") ≠ repairColumn (str "Cost") := by
  refine ⟨rfl, ?_, ?_⟩ <;> decide +kernel

end Verif.CalcLoss
