import Verif.Model.LossCalc
import Verif.Props.LossLfDev

/-!
# C95: the losses belong to the current demands and damage
-/

namespace Verif.LossCalc

section
variable {F : Type} [Field F] [LinearOrder F] [FloorRing F]

/-- The asset has a component whose consequence has loss functions for a decision variable of the
calculation. -/
def HasLossFunctions (e : Env F) : Prop :=
  ∃ p, e.lfIn.params = some p ∧ ∃ pg blocks loss dv dv', (pg, blocks) ∈ e.lfIn.blocks ∧
    e.lfIn.inp.lossMap.get? pg.cmp = some loss ∧ (loss, dv') ∈ p.keys ∧
    dv ∈ e.lfIn.inp.dvs ∧ (pg.cmp, dv) ∉ e.lfIn.inp.missing

theorem groups_nil_iff (p : LossLf.Params) (inp : LossLf.Input) (blocks : List (DemandReq.PGid × Nat)) :
    LossLf.groupsOf p inp blocks = [] ↔ ¬ ∃ pg n loss dv dv', (pg, n) ∈ blocks ∧
      inp.lossMap.get? pg.cmp = some loss ∧ (loss, dv') ∈ p.keys ∧ dv ∈ inp.dvs ∧ (pg.cmp, dv) ∉ inp.missing := by
  unfold LossLf.groupsOf
  rw [List.flatMap_eq_nil_iff]
  constructor
  · rintro h ⟨pg, n, loss, dv, dv', h1, h2, h3, h4, h5⟩
    have := h (pg, n) (List.mem_filter.2 ⟨h1, ?_⟩)
    · unfold LossLf.dvGroups at this
      rw [List.map_eq_nil_iff, List.filter_eq_nil_iff] at this
      exact this dv h4 (by simpa using h5)
    · unfold LossLf.ofLf
      rw [h2]
      simp only [List.any_eq_true, decide_eq_true_eq]
      exact ⟨_, h3, rfl⟩
  · intro h b hb
    unfold LossLf.dvGroups
    rw [List.map_eq_nil_iff, List.filter_eq_nil_iff]
    intro dv hdv hm
    obtain ⟨hb1, hb2⟩ := List.mem_filter.1 hb
    unfold LossLf.ofLf at hb2
    cases hl : inp.lossMap.get? b.1.cmp with
    | none => rw [hl] at hb2; simp at hb2
    | some loss =>
      rw [hl] at hb2
      simp only [List.any_eq_true, decide_eq_true_eq] at hb2
      obtain ⟨k, hk, rfl⟩ := hb2
      exact h ⟨b.1, b.2, k.1, dv, k.2, hb1, hl, hk, hdv, by simpa using hm⟩

theorem lf_none_iff {e : Env F} {p : LossLf.Params} (hp : e.lfIn.params = some p) :
    lfLosses e p = .ok none ↔ ¬ HasLossFunctions e := by
  have h1 : HasLossFunctions e ↔ LossLf.groupsOf p e.lfIn.inp e.lfIn.blocks ≠ [] := by
    rw [Ne, groups_nil_iff, not_not]
    unfold HasLossFunctions
    rw [hp]
    simp
  rw [h1, not_not]
  unfold lfLosses LossLfDev.calculate
  constructor
  · intro h
    by_contra hne
    split at h
    · simp at h
    · rename_i hm
      unfold LossLf.medians at hm
      split at hm
      · rename_i hg; exact hne hg
      · repeat' split at hm
        all_goals simp at hm
    · simp at h
    · split at h
      · simp at h
      · split at h
        · simp at h
        · unfold LossLf.sampleOf at h
          simp only at h
          split at h <;> simp at h
  · intro h
    have : LossLf.medians p e.lfIn.inp e.lfIn.blocks = .ok none := by
      unfold LossLf.medians
      rw [h]
    rw [this]

/-- The step of the loss functions, in terms of what is calculated. -/
theorem stepLf_error (e : Env F) (st st' : State F) : (stepLf e st).2 = (stepLf e st').2 := by
  unfold stepLf
  split
  · rfl
  · split <;> rfl

theorem stepDs_error (e : Env F) (st st' : State F) : (stepDs e st).2 = (stepDs e st').2 := by
  unfold stepDs
  split
  · rfl
  · split
    · rfl
    · split <;> rfl

theorem stepLf_ds (e : Env F) (st : State F) : (stepLf e st).1.ds = st.ds := by
  unfold stepLf
  split
  · rfl
  · split <;> rfl

theorem stepDs_lf (e : Env F) (st : State F) : (stepDs e st).1.lf = st.lf := by
  unfold stepDs
  split
  · rfl
  · split
    · rfl
    · split <;> rfl

theorem stepLf_without {e : Env F} (h : ¬ HasLossFunctions e) (st : State F) : stepLf e st = (st, none) := by
  unfold stepLf
  split
  · rfl
  · rename_i p hp
    rw [(lf_none_iff hp).2 h]

theorem stepLf_with {e : Env F} (h : HasLossFunctions e) : (∃ s, ∀ st : State F, stepLf e st = ({ st with lf := some s }, none)) ∨
    ∃ err, ∀ st : State F, stepLf e st = (st, some err) := by
  have hh := h
  obtain ⟨p, hp, _⟩ := hh
  cases hl : lfLosses e p with
  | error err => exact .inr ⟨err, fun st => by unfold stepLf; rw [hp]; simp only [hl]⟩
  | ok s =>
    cases s with
    | none => exact absurd h ((lf_none_iff hp).1 hl)
    | some s => exact .inl ⟨s, fun st => by unfold stepLf; rw [hp]; simp only [hl]⟩

theorem stepDs_with {e : Env F} (h : e.damage ≠ none) : (∃ s, ∀ st : State F, stepDs e st = ({ st with ds := s }, none)) ∨
    ∃ err, ∀ st : State F, stepDs e st = (st, some err) := by
  obtain ⟨d, hd⟩ := Option.ne_none_iff_exists'.1 h
  by_cases hn : e.realizations ≠ d.rows.length
  · exact .inr ⟨.valueError, fun st => by unfold stepDs; rw [hd]; simp only; rw [if_pos hn]⟩
  · cases hl : dsLosses e d with
    | error err => exact .inr ⟨err, fun st => by unfold stepDs; rw [hd]; simp only; rw [if_neg hn, hl]⟩
    | ok s => exact .inl ⟨s, fun st => by unfold stepDs; rw [hd]; simp only; rw [if_neg hn, hl]⟩

theorem stepDs_without {e : Env F} (h : e.damage = none) (st : State F) : stepDs e st = (st, none) := by
  unfold stepDs; rw [h]

/-- C95: whether a calculation succeeds, and with which error it fails, does not depend on what was done
before. -/
theorem C95_outcome (ops : List (Op F)) (e : Env F) : (calculate e (run ops)).2 = (calculate e State.fresh).2 := by
  unfold calculate
  by_cases hd : e.damage = none
  · rw [stepDs_without hd, stepDs_without hd]
    exact stepLf_error _ _ _
  · rcases stepDs_with hd with ⟨s, h⟩ | ⟨err, h⟩
    · rw [h, h]; exact stepLf_error _ _ _
    · rw [h, h]

/-- C95, full characterization: a calculation that succeeds gives the losses that a new loss model would give, whatever
was done before, if there is a damage sample and the asset has components with loss functions.  Otherwise
it does so only if there are no losses from before: see `C95_loss_functions_stale`. -/
theorem C95_as_new_partial (ops : List (Op F)) (e : Env F) (hok : (calculate e (run ops)).2 = none) :
    (calculate e (run ops)).1 = (calculate e State.fresh).1 ↔
      (e.damage ≠ none ∨ (run ops).ds = none) ∧ (HasLossFunctions e ∨ (run ops).lf = none) := by
  generalize run ops = st at hok
  unfold calculate at hok ⊢
  by_cases hd : e.damage = none
  · rw [stepDs_without hd] at hok
    rw [stepDs_without hd, stepDs_without hd]
    simp only at hok ⊢
    by_cases hl : HasLossFunctions e
    · rcases stepLf_with hl with ⟨s, h⟩ | ⟨err, h⟩
      · rw [h, h]
        simp [hd, hl, State.fresh]
      · rw [h] at hok; simp at hok
    · rw [stepLf_without hl, stepLf_without hl]
      cases st
      simp [hd, hl, State.fresh]
  · rcases stepDs_with hd with ⟨s, h⟩ | ⟨err, h⟩
    · rw [h] at hok
      rw [h, h]
      simp only at hok ⊢
      by_cases hl : HasLossFunctions e
      · rcases stepLf_with hl with ⟨s', h'⟩ | ⟨err, h'⟩
        · rw [h', h']
          simp [hd, hl]
        · rw [h'] at hok; simp at hok
      · rw [stepLf_without hl, stepLf_without hl]
        simp [hd, hl, State.fresh]
    · rw [h] at hok; simp at hok

/-- C95, the sample of the damage states: with a damage sample it is what the damage gives. -/
theorem C95_damage_losses (ops : List (Op F)) (e : Env F) (hok : (calculate e (run ops)).2 = none) {d : Damage}
    (hd : e.damage = some d) : dsLosses e d = .ok (calculate e (run ops)).1.ds ∧ d.rows.length = e.realizations := by
  generalize run ops = st at hok
  unfold calculate at hok ⊢
  unfold stepDs at hok ⊢
  simp only [hd] at hok ⊢
  by_cases hn : e.realizations ≠ d.rows.length
  · rw [if_pos hn] at hok; simp at hok
  · rw [if_neg hn] at hok ⊢
    cases hl : dsLosses e d with
    | error err => rw [hl] at hok; simp at hok
    | ok s =>
      simp only [stepLf_ds]
      exact ⟨trivial, (not_not.1 hn).symm⟩

/-- C95, the sample of the loss functions: if a component has loss functions it is what the demands give. -/
theorem C95_loss_function_losses (ops : List (Op F)) (e : Env F) (hok : (calculate e (run ops)).2 = none)
    {p : LossLf.Params} (hp : e.lfIn.params = some p) (hl : HasLossFunctions e) :
    lfLosses e p = .ok (calculate e (run ops)).1.lf ∧ (calculate e (run ops)).1.lf ≠ none := by
  generalize run ops = st at hok
  have key : ∀ st' : State F, (stepLf e st').2 = none → lfLosses e p = .ok (stepLf e st').1.lf ∧ (stepLf e st').1.lf ≠ none := by
    intro st' h
    unfold stepLf at h ⊢
    rw [hp] at h ⊢
    simp only at h ⊢
    cases hc : lfLosses e p with
    | error err => rw [hc] at h; simp at h
    | ok s =>
      cases s with
      | none => exact absurd hl ((lf_none_iff hp).1 hc)
      | some s => simp
  unfold calculate at hok ⊢
  rcases hs : stepDs e st with ⟨st', _ | err⟩
  · rw [hs] at hok
    exact key st' hok
  · rw [hs] at hok; simp at hok

/-- C95 does not hold otherwise: if the asset has no component with loss functions (any more), the losses of
an earlier calculation stay in the model; if there is no damage sample, the losses from damage stay. -/
theorem C95_loss_functions_stale (ops : List (Op F)) (e : Env F) :
    (¬ HasLossFunctions e → (calculate e (run ops)).1.lf = (run ops).lf) ∧
    (e.damage = none → (calculate e (run ops)).1.ds = (run ops).ds) := by
  generalize run ops = st
  unfold calculate
  constructor
  · intro h
    rcases hs : stepDs e st with ⟨st', _ | err⟩
    · simp only
      rw [stepLf_without h]
      have := stepDs_lf e st
      rw [hs] at this
      exact this
    · have := stepDs_lf e st
      rw [hs] at this
      exact this
  · intro h
    rw [stepDs_without h]
    simp only
    rw [stepLf_ds]

/-- C95: samples with different numbers of realizations are refused, and nothing changes. -/
theorem C95_lengths_refused (ops : List (Op F)) (e : Env F) {d : Damage} (hd : e.damage = some d)
    (hn : e.realizations ≠ d.rows.length) : calculate e (run ops) = (run ops, some .valueError) := by
  unfold calculate stepDs
  simp only [hd]
  rw [if_pos hn]

/-- C95: if everything is undamaged there are no losses from damage, also if there were some before. -/
theorem C95_no_damage (ops : List (Op F)) (e : Env F) (hok : (calculate e (run ops)).2 = none) {d : Damage}
    (hd : e.damage = some d) (hc : d.cols ≠ []) (h0 : ∀ k ∈ d.cols, k.ds = str "0") : (calculate e (run ops)).1.ds = none := by
  have h := (C95_damage_losses ops e hok hd).1
  unfold dsLosses LossDev.calculate at h
  rw [if_pos ⟨hc, h0⟩] at h
  simpa using h.symm

/-- C95 does not hold for a calculation that fails: if the loss functions fail, the losses from damage have
been replaced already and those from loss functions have not. -/
theorem C95_failed_half_done (ops : List (Op F)) (e : Env F) {d : Damage} (hd : e.damage = some d)
    (hn : d.rows.length = e.realizations) {s : Option (List (LossDs.OutKey × List F))} (hs : dsLosses e d = .ok s)
    {p : LossLf.Params} (hp : e.lfIn.params = some p) {err : PyErr} (hl : lfLosses e p = .error err) :
    calculate e (run ops) = (⟨s, (run ops).lf⟩, some err) := by
  unfold calculate stepDs
  simp only [hd]
  rw [if_neg (by simp [hn]), hs]
  simp only
  unfold stepLf
  rw [hp]
  simp only [hl]

end

/-! ### Examples -/

/-- A building with loss functions, without damage. -/
def exEnv (cmp : String) : Env ℚ where
  num := UQ.ratNum
  method := .lhsMidpoint
  realizations := 3
  damage := some ⟨[⟨str "B", str "1", str "1", str "0", str "0"⟩], [fun _ => some 1, fun _ => some 1, fun _ => some 1]⟩
  dsIn := ⟨⟨true, true⟩, ⟨[], []⟩, fun _ _ => [], [], [], [str "Cost", str "Time"], none, fun _ => [0, 1, 2], fun _ => [0, 0, 0]⟩
  lfIn := ⟨some LossLfDev.lfParams, LossLfDev.lfSpread, LossLfDev.lfInp, none, fun j => if j % 2 = 0 then [0, 1, 2] else [2, 0, 1],
    fun _ => [0, 0, 0], [(LossLf.exPg cmp "1", 2)]⟩

theorem ex_has : HasLossFunctions (exEnv "A") :=
  ⟨_, rfl, _, _, str "A", str "Cost", str "Cost", List.mem_singleton.2 rfl, rfl, by decide, by decide, by decide⟩

theorem ex_has_not : ¬ HasLossFunctions (exEnv "B") := by
  rintro ⟨p, hp, pg, n, loss, dv, dv', h1, h2, _⟩
  simp only [exEnv, List.mem_singleton, Prod.mk.injEq] at h1
  obtain ⟨rfl, rfl⟩ := h1
  have : LossLfDev.lfInp.lossMap.get? (str "B") = none := by decide
  simp only [exEnv] at h2
  have h3 : (LossLf.exPg "B" "1").cmp = str "B" := rfl
  rw [h3, this] at h2
  simp at h2

def shownLf (r : State ℚ × Option PyErr) : Option (List (Str × List ℤ)) × Option PyErr :=
  (r.1.lf.map fun out => out.map fun e => (e.1.dv, e.2.map fun x => (x * 1000).floor), r.2)

set_option synthInstance.maxSize 4000 in
/-- Losses are calculated; then the component with loss functions is removed from the asset and the
calculation succeeds, but the losses are still there. -/
theorem C95_removed_component_violates :
    shownLf (calculate (exEnv "B") (run [.calculate (exEnv "A")])) =
      (some [(str "Cost", [29818, 44545, 0]), (str "Time", [7500, 7500, 0])], none) ∧
    shownLf (calculate (exEnv "B") (run [])) = (none, none) := by decide +kernel

/-- The calculations of `C95_as_new_partial` and the other theorems succeed. -/
example : (calculate (exEnv "A") (run [.calculate (exEnv "A"), .scale (fun c => c.2) (fun c => c.2.map (· * 2))])).2 = none ∧
    (exEnv "A").damage ≠ none ∧ HasLossFunctions (exEnv "A") ∧ ¬ HasLossFunctions (exEnv "B") :=
  ⟨by decide +kernel, by simp [exEnv], ex_has, ex_has_not⟩

/-- A demand sample without the demand of the loss functions: the calculation fails half way. -/
example : LossDs.errorOf (lfLosses { exEnv "A" with lfIn := { (exEnv "A").lfIn with inp := { LossLfDev.lfInp with demands := [] } } }
    LossLfDev.lfParams) ≠ none := by decide +kernel

end Verif.LossCalc
