import Verif.Model.CalcDamage
import Verif.Props.RidAdjust
import Verif.Props.ParamUnits

/-!
# C126: damage of an assessment in one call
-/

namespace Verif.CalcDamage

open DemandSample (Sample NewValue Clean userValues)
open RidAdjust (Ready KnownMethod ridColumns)
open ParamUnits (DmgState loadDmg loadAllDmg DmgCall HasCmp)
open FileIO (Label)

variable {D : Type} (table : Dict Str ℚ) (est : ℚ → Label → List (Option ℚ) → List (Option ℚ)) (M : Models D)

/-- A configuration of residual drifts as the code reads it. -/
def asRead (p : Dict Str ℚ) (m : Str) : RidConfig := ⟨none, some m, some p⟩

/-- A configuration of an additional demand without location and direction. -/
def atDefault (l : Str) (v : NewValue) (u : Str) : CollapseConfig := ⟨some l, some v, some u, none, none⟩

/-- The demand sample after all demands are prepared. -/
theorem rid_ready {table : Dict Str ℚ} {g r : Sample} {y : ℚ} (hg : Ready table g) (hT : ∃ T, r = ⟨DemandSample.loadedData table T, DemandSample.loadedUnits T⟩)
    (hc : r.cols.Perm (g.cols ++ ridColumns table est y g)) :
    (r.cols.map Prod.fst).Nodup ∧ (∀ c ∈ r.cols, Clean c.1) ∧ (∀ c ∈ r.cols, c.1.head? ≠ some (str "ERROR")) ∧ Dict.NoDupKeys r.units := by
  have hmem : ∀ c, c ∈ r.cols ↔ c ∈ g.cols ∨ c ∈ ridColumns table est y g := fun c => by rw [hc.mem_iff, List.mem_append]
  have hn : (r.cols.map Prod.fst).Nodup := by
    rw [(hc.map Prod.fst).nodup_iff, List.map_append, List.nodup_append]
    refine ⟨hg.distinct, ?_, ?_⟩
    · have h1 : (ridColumns table est y g).map Prod.fst =
          (g.cols.map Prod.fst).filterMap fun l => match l with
            | [t, a, b] => if t = str "PID" then some [str "RID", a, b] else none
            | _ => none := by
        unfold ridColumns
        rw [List.map_filterMap, List.filterMap_map]
        refine List.filterMap_congr fun c _ => ?_
        obtain ⟨lab, v⟩ := c
        match lab with
        | [] => rfl
        | [_] => rfl
        | [_, _] => rfl
        | _ :: _ :: _ :: _ :: _ => rfl
        | [t, a, b] =>
          simp only [Function.comp]
          split <;> rfl
      rw [h1]
      refine List.Nodup.filterMap ?_ hg.distinct
      intro a a' b hb hb'
      match a, a' with
      | [t, x, y], [t', x', y'] =>
        simp only [Option.mem_def] at hb hb'
        split at hb
        · split at hb'
          · rename_i h1 h2
            simp only [Option.some.injEq] at hb hb'
            rw [← hb'] at hb
            simp only [List.cons.injEq, and_true, true_and] at hb
            rw [h1, h2, hb.1, hb.2]
          · simp at hb'
        · simp at hb
    · intro a ha b hb e
      subst e
      obtain ⟨c, hc', rfl⟩ := List.mem_map.1 ha
      obtain ⟨c2, hc2, e⟩ := List.mem_map.1 hb
      obtain ⟨l, d, v, _, rfl⟩ := RidAdjust.ridColumns_mem.1 hc2
      exact hg.noRid c hc' (by rw [← e]; rfl)
  refine ⟨hn, ?_, ?_, ?_⟩
  · intro c hc'
    rcases (hmem c).1 hc' with h | h
    · exact hg.clean c h
    · obtain ⟨l, d, v, hv, rfl⟩ := RidAdjust.ridColumns_mem.1 h
      refine ⟨rfl, fun w hw => ?_⟩
      simp only [List.mem_cons, List.not_mem_nil, or_false] at hw
      rcases hw with rfl | hw
      · decide
      · exact (hg.clean _ hv).2 w (by simp only [List.mem_cons, List.not_mem_nil, or_false]; exact .inr hw)
  · intro c hc'
    rcases (hmem c).1 hc' with h | h
    · exact hg.noFlags c h
    · obtain ⟨l, d, v, hv, rfl⟩ := RidAdjust.ridColumns_mem.1 h
      rw [List.head?_cons]
      decide
  · obtain ⟨T, rfl⟩ := hT
    have h1 : (T.map Prod.fst).Nodup := by
      have := (((DemandSample.loadedData_perm table T).map Prod.fst).nodup_iff).1 hn
      rwa [List.map_map] at this
    show ((DemandSample.loadedUnits T).map Prod.fst).Nodup
    rw [((DemandSample.loadedUnits_perm T).map Prod.fst).nodup_iff]
    have h2 : ((T.filterMap fun c => c.2.1.map fun u => (c.1, u)).map Prod.fst).Sublist (T.map Prod.fst) := by
      clear h1 hn hmem hc
      induction T with
      | nil => simp
      | cons c T ih =>
        obtain ⟨lab, u, v⟩ := c
        cases u with
        | none => simpa using ih.cons _
        | some u => simpa using ih
    exact h2.nodup h1

/-- **C126, demands.** After `calculate_damage` with residual drifts and an additional demand, whether or not a later step fails, the demand
sample has the generated demands, one residual drift per peak drift and the additional demand with the given values in base
units, and nothing else.  Missing: an additional demand at a given location and direction, and the documented names and defaults of the
configuration of residual drifts, where it is false. -/
theorem C126_demands_partial (p : Dict Str ℚ) (m : Str) (y : ℚ) (l : Str) (v : NewValue) (u : Str) (f : ℚ) (n : Nat)
    (stories : Nat) (sources : List DmgParams.Source) (st : State D) (g : Sample) (hgen : M.demand = .ok g) (hg : Ready table g)
    (hn : ∀ c ∈ g.cols, c.2.length = n) (hest : ∀ y l v, (est y l v).length = v.length)
    (hm : KnownMethod m) (hy : p.get? (str "yield_drift") = some y) (hpid : ∃ l d, [str "PID", l, d] ∈ g.cols.map Prod.fst)
    (hl : ' ' ∉ l ∧ l ≠ str "ERROR") (hu : table.get? u = some f) (hv : ∀ x, v = .array x → x.length = n) :
    ∃ r, (calculateDamage table est M (some (asRead p m)) (some (atDefault l v u)) stories sources st).1.demand = some r ∧
      r.cols.Perm ((g.cols ++ ridColumns table est y g).filter (fun c => c.1 ≠ [l, str "0", str "1"]) ++
        [([l, str "0", str "1"], (userValues n v).map fun q => some (q * f))]) := by
  obtain ⟨r1, hT, h1, h2, h3⟩ := RidAdjust.adjusted table est p m y g hg hm hy hpid
  obtain ⟨k1, k2, k3, k4⟩ := rid_ready est hg hT h2
  have hne : r1.cols ≠ [] := by
    obtain ⟨a, b, hab⟩ := hpid
    obtain ⟨c, hc, _⟩ := List.mem_map.1 hab
    exact List.ne_nil_of_mem (h2.mem_iff.2 (List.mem_append_left _ hc))
  have hlen : ∀ c ∈ r1.cols, c.2.length = n := by
    intro c hc
    rcases List.mem_append.1 (h2.mem_iff.1 hc) with h | h
    · exact hn c h
    · obtain ⟨a, b, w, hw, rfl⟩ := RidAdjust.ridColumns_mem.1 h
      have := hn _ hw
      simp only at this
      simp only [hest, RidAdjust.inUserUnit, List.length_map, this]
  have hknown : ∀ w ∈ r1.units.map Prod.snd, ∃ f, table.get? w = some f ∧ f ≠ 0 := by
    intro w hw
    obtain ⟨⟨lab, w'⟩, hm', rfl⟩ := List.mem_map.1 hw
    rcases (h3 lab w').1 hm' with ⟨_, h⟩ | ⟨_, h⟩
    · exact hg.known _ (List.mem_map.2 ⟨_, h, rfl⟩)
    · simp only at h ⊢
      exact h ▸ ⟨1, hg.unitless, one_ne_zero⟩
  obtain ⟨r, e1, e2, _⟩ := DemandSample.C30_added_demand table r1 [l, str "0", str "1"] v u n hne hlen k1 k2 k3
    ⟨rfl, by
      intro w hw
      simp only [List.mem_cons, List.not_mem_nil, or_false] at hw
      rcases hw with rfl | rfl | rfl
      · exact hl.1
      · decide
      · decide⟩ (by simpa using hl.2) k4 hknown f hu hv
  refine ⟨r, ?_, e2.trans ((h2.filter _).append_right _)⟩
  unfold calculateDamage
  simp only [hgen, residualStep, asRead, h1, collapseStep, atDefault, e1]
  cases M.asset (some stories) with
  | error e => rfl
  | ok ids =>
    simp only
    cases loadDmg table st.params sources ids with
    | error e => rfl
    | ok x =>
      simp only
      cases M.damage r x.1 x.2 <;> rfl

/-- **C126, demands.** Without configurations the demand sample is the generated one. -/
theorem C126_demands_plain (rid : Option RidConfig) (collapse : Option CollapseConfig) (hr : rid = none ∨ rid = some ⟨none, none, none⟩)
    (hc : collapse = none ∨ collapse = some ⟨none, none, none, none, none⟩) (stories : Nat) (sources : List DmgParams.Source) (st : State D)
    (g : Sample) (hgen : M.demand = .ok g) :
    (calculateDamage table est M rid collapse stories sources st).1.demand = some g := by
  have h1 : residualStep table est rid g = .ok g := by rcases hr with rfl | rfl <;> rfl
  have h2 : collapseStep table collapse g = .ok g := by rcases hc with rfl | rfl <;> rfl
  unfold calculateDamage
  simp only [hgen, h1, h2]
  cases M.asset (some stories) with
  | error e => rfl
  | ok ids =>
    simp only
    cases loadDmg table st.params sources ids with
    | error e => rfl
    | ok x =>
      simp only
      cases M.damage g x.1 x.2 <;> rfl

/-- **C126, demands.** The configuration of residual drifts alone adds one residual drift per peak drift. -/
theorem C126_demands_drifts (p : Dict Str ℚ) (m : Str) (y : ℚ) (stories : Nat) (sources : List DmgParams.Source) (st : State D)
    (g : Sample) (hgen : M.demand = .ok g) (hg : Ready table g) (hm : KnownMethod m) (hy : p.get? (str "yield_drift") = some y)
    (hpid : ∃ l d, [str "PID", l, d] ∈ g.cols.map Prod.fst) :
    ∃ r, (calculateDamage table est M (some (asRead p m)) none stories sources st).1.demand = some r ∧
      r.cols.Perm (g.cols ++ ridColumns table est y g) := by
  obtain ⟨r, _, h1, h2, _⟩ := RidAdjust.adjusted table est p m y g hg hm hy hpid
  refine ⟨r, ?_, h2⟩
  unfold calculateDamage
  simp only [hgen, residualStep, asRead, h1, collapseStep]
  cases M.asset (some stories) with
  | error e => rfl
  | ok ids =>
    simp only
    cases loadDmg table st.params sources ids with
    | error e => rfl
    | ok x =>
      simp only
      cases M.damage r x.1 x.2 <;> rfl

/-- C126 does not hold for the location and the direction of the additional demand: they have no effect at all. -/
theorem C126_location_ignored (rid : Option RidConfig) (l : Str) (v : NewValue) (u : Str) (location direction : Option Str)
    (stories : Nat) (sources : List DmgParams.Source) (st : State D) :
    calculateDamage table est M rid (some ⟨some l, some v, some u, location, direction⟩) stories sources st =
      calculateDamage table est M rid (some (atDefault l v u)) stories sources st := rfl

/-- C126 does not hold for the documented configuration of residual drifts: with the documented name of the parameters, or without a method, which
is documented as optional, the call ends with a `KeyError` after the demands are generated. -/
theorem C126_documented_refused (params : Dict Str ℚ) (method : Option Str) (collapse : Option CollapseConfig)
    (stories : Nat) (sources : List DmgParams.Source) (st : State D) (g : Sample) (hgen : M.demand = .ok g) :
    calculateDamage table est M (some ⟨some params, method, none⟩) collapse stories sources st = ({ st with demand := some g }, some .keyError) ∧
    calculateDamage table est M (some ⟨none, none, some params⟩) collapse stories sources st = ({ st with demand := some g }, some .keyError) := by
  unfold calculateDamage
  simp only [hgen]
  constructor
  · cases method <;> rfl
  · rfl

/-- **C126, stories.** The components are located with the number of stories of the same call, whatever the assessment had before: if the call
succeeds, the damage is that of the demand sample it leaves, for the components of the asset with this number of stories. -/
theorem C126_same_call (rid : Option RidConfig) (collapse : Option CollapseConfig) (stories : Nat) (sources : List DmgParams.Source) (st : State D)
    (h : (calculateDamage table est M rid collapse stories sources st).2 = none) :
    ∃ ids s p missing d, M.asset (some stories) = .ok ids ∧ loadDmg table st.params sources ids = .ok (p, missing) ∧ M.damage s p missing = .ok d ∧
      (calculateDamage table est M rid collapse stories sources st).1 = ⟨some s, some stories, p, some d⟩ := by
  unfold calculateDamage at h ⊢
  cases hd : M.demand with
  | error e => rw [hd] at h; simp at h
  | ok g =>
    rw [hd] at h
    simp only at h ⊢
    cases h1 : residualStep table est rid g with
    | error e => rw [h1] at h; simp at h
    | ok s1 =>
      rw [h1] at h
      simp only at h ⊢
      cases h2 : collapseStep table collapse s1 with
      | error e => rw [h2] at h; simp at h
      | ok s2 =>
        rw [h2] at h
        simp only at h ⊢
        cases h3 : M.asset (some stories) with
        | error e => rw [h3] at h; simp at h
        | ok ids =>
          rw [h3] at h
          simp only at h ⊢
          cases h4 : loadDmg table st.params sources ids with
          | error e => rw [h4] at h; simp at h
          | ok x =>
            obtain ⟨p, missing⟩ := x
            rw [h4] at h
            simp only at h ⊢
            cases h5 : M.damage s2 p missing with
            | error e => rw [h5] at h; simp at h
            | ok d => exact ⟨ids, s2, p, missing, d, rfl, h4, h5, rfl⟩

/-- **C126, failures.** If the call fails, the damage of the assessment is that of before; if it fails before the damage parameters are loaded, so are
the damage parameters. -/
theorem C126_failed (rid : Option RidConfig) (collapse : Option CollapseConfig) (stories : Nat) (sources : List DmgParams.Source) (st : State D)
    (h : (calculateDamage table est M rid collapse stories sources st).2 ≠ none) :
    (calculateDamage table est M rid collapse stories sources st).1.damage = st.damage ∧
    ((calculateDamage table est M rid collapse stories sources st).1.params = st.params ∨
      ∃ ids missing s e, loadDmg table st.params sources ids = .ok ((calculateDamage table est M rid collapse stories sources st).1.params, missing) ∧
        M.damage s (calculateDamage table est M rid collapse stories sources st).1.params missing = .error e) := by
  unfold calculateDamage at h ⊢
  cases hd : M.demand with
  | error e => exact ⟨rfl, .inl rfl⟩
  | ok g =>
    rw [hd] at h
    simp only at h ⊢
    cases h1 : residualStep table est rid g with
    | error e => exact ⟨rfl, .inl rfl⟩
    | ok s1 =>
      rw [h1] at h
      simp only at h ⊢
      cases h2 : collapseStep table collapse s1 with
      | error e => exact ⟨rfl, .inl rfl⟩
      | ok s2 =>
        rw [h2] at h
        simp only at h ⊢
        cases h3 : M.asset (some stories) with
        | error e => exact ⟨rfl, .inl rfl⟩
        | ok ids =>
          rw [h3] at h
          simp only at h ⊢
          cases h4 : loadDmg table st.params sources ids with
          | error e => exact ⟨rfl, .inl rfl⟩
          | ok x =>
            obtain ⟨p, missing⟩ := x
            rw [h4] at h
            simp only at h ⊢
            cases h5 : M.damage s2 p missing with
            | ok d => rw [h5] at h; simp at h
            | error e => exact ⟨rfl, .inr ⟨ids, missing, s2, e, h4, h5⟩⟩

/-- C126 does not hold for damage parameters in a second call: a component that has parameters from an earlier call keeps them, whatever the second
call is given for it. -/
theorem C126_second_call {before : List DmgCall} {st : State D} (hst : loadAllDmg table .fresh before = .ok st.params) {c : Str} {row : DmgParams.Row}
    (hrow : HasCmp st.params c row) (rid : Option RidConfig) (collapse : Option CollapseConfig) (stories : Nat) (sources : List DmgParams.Source)
    (hc : ∀ ids, M.asset (some stories) = .ok ids → c ∈ ids)
    (h : (calculateDamage table est M rid collapse stories sources st).2 = none) :
    HasCmp (calculateDamage table est M rid collapse stories sources st).1.params c row ∧
      ∀ r, HasCmp (calculateDamage table est M rid collapse stories sources st).1.params c r → r = row := by
  obtain ⟨ids, s, p, missing, d, h1, h2, h3, h4⟩ := C126_same_call table est M rid collapse stories sources st h
  rw [h4]
  refine ParamUnits.C94_damage_kept hst hrow [⟨sources, ids⟩] (st' := p) (by simpa using hc ids h1) ?_
  simp only [loadAllDmg, h2]

/-- **C126, parameters.** A component without parameters from earlier calls gets those of the first source of the call that has it, in base units. -/
theorem C126_new_component {before : List DmgCall} {st : State D} (hst : loadAllDmg table .fresh before = .ok st.params) {c : Str}
    (hnew : ∀ r, ¬ HasCmp st.params c r) (rid : Option RidConfig) (collapse : Option CollapseConfig) (stories : Nat)
    (sources : List DmgParams.Source) (hc : ∀ ids, M.asset (some stories) = .ok ids → c ∈ ids)
    (h : (calculateDamage table est M rid collapse stories sources st).2 = none)
    {row : DmgParams.Row} (hw : DmgParams.WinningRow sources c row) (hi : row (str "Incomplete", []) ≠ some (.num 1))
    {U : Str} {u : ℚ} (hrU : row ParamUnits.demUnit = some (.text U)) (hU : ParamUnits.UnitFactor table U u) {ls : Str} (hls : str "LS" <+: ls)
    (hcol : ∃ x, (ls, x) ∈ sources.flatMap (·.cols)) (he : row (ls, str "Family") ≠ ParamUnits.empirical) {x : ℚ}
    (hx : row (ls, str "Theta_0") = some (.num x)) :
    ∃ row', (∀ r, HasCmp (calculateDamage table est M rid collapse stories sources st).1.params c r ↔ r = row') ∧
      row' (ls, str "Theta_0") = some (.num (x * u)) := by
  obtain ⟨ids, s, p, missing, d, h1, h2, h3, h4⟩ := C126_same_call table est M rid collapse stories sources st h
  rw [h4]
  obtain ⟨row', k1, k2, _⟩ := ParamUnits.C94_damage_first_definition hst h2 (hc ids h1) hnew hw hi hrU hU hls hcol he hx
  exact ⟨row', k1, k2⟩

/-! ### The hypotheses are met -/

/-- Damage parameters of a component in a unit. -/
def exSource (unit : Str) (x : ℚ) : DmgParams.Source :=
  ⟨[ParamUnits.demUnit, (str "LS1", str "Theta_0")],
    [(str "B.1", fun c => Dict.get? [(ParamUnits.demUnit, .text unit), ((str "LS1", str "Theta_0"), .num x)] c)]⟩

/-- Two generated realizations of three demands, a component, and the number of demands as damage. -/
def exModels : Models Nat where
  demand := .ok RidAdjust.exRad
  asset := fun s => if s = some 2 then .ok [str "B.1"] else .error .valueError
  damage := fun s _ _ => .ok s.cols.length

def exStart : State Nat := ⟨none, none, .fresh, none⟩

def exRid : RidConfig := asRead [(str "yield_drift", 1/100)] (str "FEMA P-58")

def exCollapse : CollapseConfig := atDefault (str "SA_1.13") (.scalar (3/2)) (str "g")

/-- `C126_demands_partial`: three generated demands, two residual drifts and the additional demand. -/
example : ∃ r, (calculateDamage RidAdjust.exTable RidAdjust.median exModels (some exRid) (some exCollapse) 2 [exSource (str "percent") 2] exStart).1.demand
      = some r ∧ r.cols.length = 6 ∧ ([str "RID", str "1", str "1"], [some (1/50), none]) ∈ r.cols ∧
      ([str "SA_1.13", str "0", str "1"], [some (2943/200), some (2943/200)]) ∈ r.cols := by
  obtain ⟨r, h1, h2⟩ := C126_demands_partial RidAdjust.exTable RidAdjust.median exModels [(str "yield_drift", 1/100)] (str "FEMA P-58") (1/100)
    (str "SA_1.13") (.scalar (3/2)) (str "g") (981/100) 2 2 [exSource (str "percent") 2] exStart RidAdjust.exRad rfl RidAdjust.radReady
    (by decide +kernel) (by intro y l v; simp [RidAdjust.median]) (.inr rfl) (by decide +kernel) ⟨str "1", str "1", by decide +kernel⟩
    ⟨by decide, by decide⟩ (by decide +kernel) (by simp)
  refine ⟨r, h1, ?_, h2.mem_iff.2 (by decide +kernel), h2.mem_iff.2 (by decide +kernel)⟩
  rw [h2.length_eq]
  decide +kernel

/-- `C126_same_call`, `C126_new_component`, `C126_second_call`: a call succeeds on a fresh assessment, a second one keeps the parameters of the first. -/
example : let first := calculateDamage RidAdjust.exTable RidAdjust.median exModels none none 2 [exSource (str "percent") 2] exStart
    let second := calculateDamage RidAdjust.exTable RidAdjust.median exModels none none 2 [exSource (str "rad") 7] first.1
    first.2.isNone = true ∧ second.2.isNone = true ∧ first.1.damage = some 3 ∧
    ParamUnits.dmgCell (.ok first.1.params) (str "B.1") (str "LS1", str "Theta_0") = some (.num (1/50)) ∧
    ParamUnits.dmgCell (.ok second.1.params) (str "B.1") (str "LS1", str "Theta_0") = some (.num (1/50)) := by
  refine ⟨?_, ?_, ?_, ?_, ?_⟩ <;> decide +kernel

/-- `C126_failed`: with another number of stories the components cannot be located. -/
example : (calculateDamage RidAdjust.exTable RidAdjust.median exModels none none 3 [exSource (str "percent") 2] exStart).2 = some .valueError := rfl

end Verif.CalcDamage
