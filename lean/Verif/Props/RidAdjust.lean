import Verif.Model.RidAdjust
import Verif.Props.AsmRid

/-!
# Property C123: residual drifts added to a demand sample
-/

namespace Verif.RidAdjust

open DemandSample
open FileIO

/-! ### Specification -/

/-- A sample as it is after loading or generating: distinct labels of type, location and direction, no flags, no residual drifts
yet, and known units. -/
structure Ready (table : Dict Str ℚ) (s : Sample) : Prop where
  distinct : (s.cols.map Prod.fst).Nodup
  clean : ∀ c ∈ s.cols, Clean c.1
  noFlags : ∀ c ∈ s.cols, c.1.head? ≠ some (str "ERROR")
  noRid : ∀ c ∈ s.cols, c.1.head? ≠ some (str "RID")
  units : Dict.NoDupKeys s.units
  known : ∀ u ∈ s.units.map Prod.snd, ∃ f, table.get? u = some f ∧ f ≠ 0
  unitless : table.get? (str "unitless") = some 1

/-- The base units in one unit of the demand: 1 for a demand without unit. -/
def unitSize (table : Dict Str ℚ) (s : Sample) (lab : Label) : ℚ :=
  match Dict.get? s.units lab with
  | none => 1
  | some u => (table.get? u).getD 1

/-- The values of a demand in the unit the user gave for it. -/
def inUserUnit (table : Dict Str ℚ) (s : Sample) (lab : Label) (v : List (Option ℚ)) : List (Option ℚ) :=
  v.map (Option.map (· / unitSize table s lab))

/-- The residual drifts that belong to the peak drifts of the sample: one per peak drift, at the same location and direction. -/
def ridColumns (table : Dict Str ℚ) (est : ℚ → Label → List (Option ℚ) → List (Option ℚ)) (y : ℚ) (s : Sample) : List Column :=
  s.cols.filterMap fun c => match c.1 with
    | [t, l, d] => if t = str "PID" then some ([str "RID", l, d], est y [l, d] (inUserUnit table s c.1 c.2)) else none
    | _ => none

/-- The two names of the method. -/
def KnownMethod (m : Str) : Prop := m = str "FEMA P58" ∨ m = str "FEMA P-58"

/-- The estimate of a column: a missing peak drift has a missing residual drift, and no residual drift is negative or larger than the peak drift
(C29). -/
def Estimate (est : ℚ → Label → List (Option ℚ) → List (Option ℚ)) : Prop :=
  ∀ y l v, 0 < y → (∀ x, some x ∈ v → 0 ≤ x) → List.Forall₂ (fun a b => (a = none ∧ b = none) ∨ ∃ x z, a = some x ∧ b = some z ∧ 0 ≤ z ∧ z ≤ x) v (est y l v)

/-! ### Proofs -/

theorem scale_user (table : Dict Str ℚ) (s : Sample) (lab : Label) (v : List (Option ℚ)) :
    scaleCells (1 / loadFactor table (Dict.get? s.units lab)) v = inUserUnit table s lab v := by
  unfold inUserUnit scaleCells unitSize loadFactor
  have : ∀ f : ℚ, (fun x : ℚ => x * (1 / f)) = fun x => x / f := by intro f; funext x; ring
  cases Dict.get? s.units lab with
  | none => simp only [this]
  | some u =>
    simp only [this]
    cases table.get? u <;> rfl

theorem unitSize_ne {table : Dict Str ℚ} {s : Sample} (hs : Ready table s) (lab : Label) : loadFactor table (Dict.get? s.units lab) ≠ 0 := by
  unfold loadFactor
  cases hgu : Dict.get? s.units lab with
  | none => simp
  | some u =>
    obtain ⟨f, hf, h0⟩ := hs.known u (List.mem_map_of_mem (f := Prod.snd) (Dict.mem_of_get? hgu))
    simp only [hf]; exact h0

theorem ridColumns_mem {table : Dict Str ℚ} {est : ℚ → Label → List (Option ℚ) → List (Option ℚ)} {y : ℚ} {s : Sample} {c : Column} :
    c ∈ ridColumns table est y s ↔ ∃ l d v, ([str "PID", l, d], v) ∈ s.cols ∧
      c = ([str "RID", l, d], est y [l, d] (inUserUnit table s [str "PID", l, d] v)) := by
  unfold ridColumns
  rw [List.mem_filterMap]
  constructor
  · rintro ⟨⟨lab, v⟩, hc, he⟩
    match lab with
    | [] => simp at he
    | [_] => simp at he
    | [_, _] => simp at he
    | _ :: _ :: _ :: _ :: _ => simp at he
    | [t, l, d] =>
      simp only at he
      split at he
      · rename_i h
        subst h
        cases he
        exact ⟨l, d, v, hc, rfl⟩
      · cases he
  · rintro ⟨l, d, v, hc, rfl⟩
    exact ⟨_, hc, by simp⟩

/-- The saved table. -/
theorem saved {table : Dict Str ℚ} {s : Sample} (hs : Ready table s) :
    ∃ t, saveSample table s = .ok t ∧ t.Perm (s.cols.map fun c => (c.1, Dict.get? s.units c.1, inUserUnit table s c.1 c.2)) := by
  refine ⟨_, saveSample_ok table s hs.units fun u h => (hs.known u h).imp fun _ h => h.1, ?_⟩
  refine ((pySort_perm _ _).map _).trans (List.Perm.of_eq ?_)
  rw [List.map_map]
  refine List.map_congr_left fun c _ => ?_
  simp only [Function.comp, scale_user]

theorem pid_nil {table : Dict Str ℚ} {s : Sample} (hs : Ready table s) {t : RawTable}
    (hp : t.Perm (s.cols.map fun c => (c.1, Dict.get? s.units c.1, inUserUnit table s c.1 c.2))) :
    AsmRid.pidColumns t = [] ↔ ∀ l d, [str "PID", l, d] ∉ s.cols.map Prod.fst := by
  rw [AsmRid.pid_nil]
  have : ∀ lab, lab ∈ t.map Prod.fst ↔ lab ∈ s.cols.map Prod.fst := by
    intro lab
    rw [(hp.map Prod.fst).mem_iff, List.map_map]
    rfl
  simp only [this]
  constructor
  · intro h l d hm
    exact h _ hm rfl
  · intro h lab hm he
    obtain ⟨c, hc, rfl⟩ := List.mem_map.1 hm
    have h3 := (hs.clean c hc).1
    obtain ⟨lab, v⟩ := c
    match lab, h3 with
    | [a, l, d], _ =>
      simp only [List.head?_cons, Option.some.injEq] at he
      subst he
      exact h l d hm

theorem rid_perm {table : Dict Str ℚ} (est : ℚ → Label → List (Option ℚ) → List (Option ℚ)) (y : ℚ) {s : Sample} (hs : Ready table s) {t : RawTable}
    (hp : t.Perm (s.cols.map fun c => (c.1, Dict.get? s.units c.1, inUserUnit table s c.1 c.2))) :
    ((AsmRid.pidColumns t).map fun c => (str "RID" :: c.1, est y c.1 c.2)).Perm (ridColumns table est y s) := by
  refine ((hp.filterMap _).map _).trans (List.Perm.of_eq ?_)
  rw [List.filterMap_map, List.map_filterMap]
  unfold ridColumns
  refine List.filterMap_congr fun c hc => ?_
  have h3 := (hs.clean c hc).1
  obtain ⟨lab, v⟩ := c
  match lab, h3 with
  | [a, l, d], _ =>
    simp only [Function.comp, List.head?_cons, Option.some.injEq, List.tail_cons]
    by_cases h : a = str "PID" <;> simp [h]

theorem adjusted (table : Dict Str ℚ) (est : ℚ → Label → List (Option ℚ) → List (Option ℚ)) (params : Dict Str ℚ) (method : Str)
    (y : ℚ) (s : Sample) (hs : Ready table s) (hm : KnownMethod method) (hy : params.get? (str "yield_drift") = some y)
    (hpid : ∃ l d, [str "PID", l, d] ∈ s.cols.map Prod.fst) :
    ∃ r, (∃ T, r = ⟨loadedData table T, loadedUnits T⟩) ∧ estimateAndAdjust table est params method (some s) = .ok r ∧
      r.cols.Perm (s.cols ++ ridColumns table est y s) ∧
      ∀ lab u, (lab, u) ∈ r.units ↔ (lab ∈ s.cols.map Prod.fst ∧ (lab, u) ∈ s.units) ∨
        ((∃ l d, lab = [str "RID", l, d] ∧ [str "PID", l, d] ∈ s.cols.map Prod.fst) ∧ u = str "unitless") := by
  obtain ⟨t, hsave, hp⟩ := saved hs
  have hne : AsmRid.pidColumns t ≠ [] := by
    rw [Ne, pid_nil hs hp]
    obtain ⟨l, d, h⟩ := hpid
    exact fun h' => h' l d h
  have hR := rid_perm est y hs hp
  set R := (AsmRid.pidColumns t).map fun c => (str "RID" :: c.1, est y c.1 c.2) with hRdef
  set T : RawTable := t ++ R.map fun c => (c.1, some (str "unitless"), c.2) with hT
  have hmem : ∀ c, c ∈ T ↔ (∃ c' ∈ s.cols, c = (c'.1, Dict.get? s.units c'.1, inUserUnit table s c'.1 c'.2)) ∨
      ∃ c' ∈ ridColumns table est y s, c = (c'.1, some (str "unitless"), c'.2) := by
    intro c
    rw [hT, List.mem_append, hp.mem_iff, List.mem_map, List.mem_map]
    simp only [hR.mem_iff, eq_comm]
  have hload := loadSample_noError table T
    (by
      intro c hc
      rcases (hmem c).1 hc with ⟨c', h', rfl⟩ | ⟨c', h', rfl⟩
      · exact hs.clean c' h'
      · obtain ⟨l, d, v, hv, rfl⟩ := ridColumns_mem.1 h'
        have := hs.clean _ hv
        refine ⟨rfl, ?_⟩
        intro w hw
        simp only [List.mem_cons, List.not_mem_nil, or_false] at hw
        rcases hw with rfl | hw
        · decide
        · exact this.2 w (by simp only [List.mem_cons, List.not_mem_nil, or_false]; exact .inr hw))
    (by
      intro c hc
      rcases (hmem c).1 hc with ⟨c', h', rfl⟩ | ⟨c', h', rfl⟩
      · exact hs.noFlags c' h'
      · obtain ⟨l, d, v, hv, rfl⟩ := ridColumns_mem.1 h'
        rw [List.head?_cons]
        decide)
  refine ⟨⟨loadedData table T, loadedUnits T⟩, ⟨T, rfl⟩, ?_, ?_, ?_⟩
  · unfold estimateAndAdjust estimateRid
    simp only [hsave]
    rw [if_neg hne, if_pos (show _ ∨ _ from hm), hy]
    exact hload
  · refine (loadedData_perm table T).trans ?_
    rw [hT, List.map_append]
    refine List.Perm.append ?_ ?_
    · refine (hp.map _).trans (List.Perm.of_eq ?_)
      rw [List.map_map]
      conv_rhs => rw [← List.map_id s.cols]
      refine List.map_congr_left fun c hc => ?_
      simp only [Function.comp, id, ← scale_user, scaleCells_mul]
      rw [one_div_mul_cancel (unitSize_ne hs _), scaleCells_one]
    · rw [List.map_map]
      refine (List.Perm.of_eq ?_).trans hR
      conv_rhs => rw [← List.map_id R]
      refine List.map_congr_left fun c _ => ?_
      simp [loadFactor, hs.unitless, scaleCells_one]
  · intro lab u
    simp only
    rw [(loadedUnits_perm T).mem_iff, List.mem_filterMap]
    constructor
    · rintro ⟨c, hc, he⟩
      obtain ⟨w, hw, he⟩ := Option.map_eq_some_iff.1 he
      cases he
      rcases (hmem c).1 hc with ⟨c', h', rfl⟩ | ⟨c', h', rfl⟩
      · exact .inl ⟨List.mem_map_of_mem h', Dict.mem_of_get? hw⟩
      · obtain ⟨l, d, v, hv, rfl⟩ := ridColumns_mem.1 h'
        exact .inr ⟨⟨l, d, rfl, List.mem_map_of_mem hv⟩, by simpa using hw.symm⟩
    · rintro (⟨h1, h2⟩ | ⟨⟨l, d, rfl, h⟩, rfl⟩)
      · obtain ⟨c, hc, rfl⟩ := List.mem_map.1 h1
        exact ⟨_, (hmem _).2 (.inl ⟨c, hc, rfl⟩), by rw [Dict.get?_of_mem hs.units h2]; rfl⟩
      · obtain ⟨⟨lab, v⟩, hc, he⟩ := List.mem_map.1 h
        simp only at he
        subst he
        exact ⟨_, (hmem _).2 (.inr ⟨_, ridColumns_mem.2 ⟨l, d, v, hc, rfl⟩, rfl⟩), rfl⟩

/-- **C123.** After `estimate_RID_and_adjust_sample` the sample has all demands it had, with their values and units, and for every peak drift one
residual drift at the same location and direction, without unit, estimated from the peak drift in the unit of the user with
the yield drift given; nothing else.  Missing: samples that already have residual drifts. -/
theorem C123_adjusted_partial (table : Dict Str ℚ) (est : ℚ → Label → List (Option ℚ) → List (Option ℚ)) (params : Dict Str ℚ) (method : Str)
    (y : ℚ) (s : Sample) (hs : Ready table s) (hm : KnownMethod method) (hy : params.get? (str "yield_drift") = some y)
    (hpid : ∃ l d, [str "PID", l, d] ∈ s.cols.map Prod.fst) :
    ∃ r, estimateAndAdjust table est params method (some s) = .ok r ∧
      r.cols.Perm (s.cols ++ ridColumns table est y s) ∧
      ∀ lab u, (lab, u) ∈ r.units ↔ (lab ∈ s.cols.map Prod.fst ∧ (lab, u) ∈ s.units) ∨
        ((∃ l d, lab = [str "RID", l, d] ∧ [str "PID", l, d] ∈ s.cols.map Prod.fst) ∧ u = str "unitless") := by
  obtain ⟨r, _, h⟩ := adjusted table est params method y s hs hm hy hpid
  exact ⟨r, h⟩

/-- **C123, when it works.** The call is refused without a sample, without peak drifts, with another method or without yield
drift, and only then. -/
theorem C123_refused (table : Dict Str ℚ) (est : ℚ → Label → List (Option ℚ) → List (Option ℚ)) (params : Dict Str ℚ) (method : Str) :
    estimateAndAdjust table est params method none = .error .valueError ∧
    ∀ s, Ready table s →
      ((∀ l d, [str "PID", l, d] ∉ s.cols.map Prod.fst) → estimateAndAdjust table est params method (some s) = .error .keyError) ∧
      (∀ l d, [str "PID", l, d] ∈ s.cols.map Prod.fst →
        (¬ KnownMethod method → estimateAndAdjust table est params method (some s) = .error .valueError) ∧
        (KnownMethod method → params.get? (str "yield_drift") = none → estimateAndAdjust table est params method (some s) = .error .keyError) ∧
        (KnownMethod method → ∀ y, params.get? (str "yield_drift") = some y → ∃ r, estimateAndAdjust table est params method (some s) = .ok r)) := by
  refine ⟨rfl, fun s hs => ?_⟩
  obtain ⟨t, hsave, hp⟩ := saved hs
  refine ⟨fun h => ?_, fun l d h => ?_⟩
  · unfold estimateAndAdjust
    simp only [hsave]
    rw [if_pos ((pid_nil hs hp).2 h)]
  · have hne : AsmRid.pidColumns t ≠ [] := by
      rw [Ne, pid_nil hs hp]
      exact fun h' => h' l d h
    refine ⟨fun hm => ?_, fun hm hy => ?_, fun hm y hy => ?_⟩
    · unfold estimateAndAdjust estimateRid
      simp only [hsave]
      rw [if_neg hne, if_neg (show ¬ (_ ∨ _) from hm)]
    · unfold estimateAndAdjust estimateRid
      simp only [hsave]
      rw [if_neg hne, if_pos (show _ ∨ _ from hm), hy]
    · obtain ⟨r, hr, -⟩ := C123_adjusted_partial table est params method y s hs hm hy ⟨l, d, h⟩
      exact ⟨r, hr⟩

/-- **C123, bounds.** If the peak drifts have a unit without conversion, no residual drift of the adjusted sample is negative or larger than the
peak drift of the same location, direction and realization.  Missing: other units, where it is false
(`C123_percent_exceeds`). -/
theorem C123_bounds_partial (table : Dict Str ℚ) (est : ℚ → Label → List (Option ℚ) → List (Option ℚ)) (params : Dict Str ℚ) (method : Str)
    (y : ℚ) (s r : Sample) (hs : Ready table s) (hest : Estimate est) (hm : KnownMethod method)
    (hy : params.get? (str "yield_drift") = some y) (hy0 : 0 < y)
    (hunit : ∀ l d u, Dict.get? s.units [str "PID", l, d] = some u → table.get? u = some 1)
    (hr : estimateAndAdjust table est params method (some s) = .ok r) (l d : Str) (p : List (Option ℚ))
    (hp : ([str "PID", l, d], p) ∈ r.cols) (hnn : ∀ x, some x ∈ p → 0 ≤ x) :
    ∃ v, ([str "RID", l, d], v) ∈ r.cols ∧
      List.Forall₂ (fun a b => (a = none ∧ b = none) ∨ ∃ x z, a = some x ∧ b = some z ∧ 0 ≤ z ∧ z ≤ x) p v := by
  have hpid : ∃ l d, [str "PID", l, d] ∈ s.cols.map Prod.fst := by
    by_contra h
    have := ((C123_refused table est params method).2 s hs).1 (fun l d h' => h ⟨l, d, h'⟩)
    rw [this] at hr
    cases hr
  obtain ⟨r', hr', hperm, -⟩ := C123_adjusted_partial table est params method y s hs hm hy hpid
  rw [hr] at hr'
  cases hr'
  have hps : ([str "PID", l, d], p) ∈ s.cols := by
    rcases List.mem_append.1 (hperm.mem_iff.1 hp) with h | h
    · exact h
    · obtain ⟨l', d', v, _, he⟩ := ridColumns_mem.1 h
      simp only [Prod.mk.injEq, List.cons.injEq] at he
      exact absurd he.1.1 (by decide)
  have hid : inUserUnit table s [str "PID", l, d] p = p := by
    have : unitSize table s [str "PID", l, d] = 1 := by
      unfold unitSize
      cases hu : Dict.get? s.units [str "PID", l, d] with
      | none => rfl
      | some u => simp [hunit l d u hu]
    unfold inUserUnit
    rw [this]
    simp
  refine ⟨_, hperm.mem_iff.2 (List.mem_append_right _ (ridColumns_mem.2 ⟨l, d, p, hps, rfl⟩)), ?_⟩
  rw [hid]
  exact hest y [l, d] p hy0 hnn

/-- **C123, other units.** Residual drifts are stored as numbers without unit although they are in the unit of the peak drift:
beside the peak drift `p` in base units there is the estimate for `p / f`, which is not converted back. -/
theorem C123_other_unit (table : Dict Str ℚ) (est : ℚ → Label → List (Option ℚ) → List (Option ℚ)) (params : Dict Str ℚ) (method : Str)
    (y : ℚ) (s r : Sample) (hs : Ready table s) (hm : KnownMethod method)
    (hy : params.get? (str "yield_drift") = some y) (hr : estimateAndAdjust table est params method (some s) = .ok r)
    (l d u : Str) (p : List (Option ℚ)) (f : ℚ) (hu : Dict.get? s.units [str "PID", l, d] = some u) (hf : table.get? u = some f)
    (hp : ([str "PID", l, d], p) ∈ s.cols) :
    ([str "PID", l, d], p) ∈ r.cols ∧ ([str "RID", l, d], est y [l, d] (p.map (Option.map (· / f)))) ∈ r.cols := by
  obtain ⟨r', hr', hperm, -⟩ := C123_adjusted_partial table est params method y s hs hm hy ⟨l, d, List.mem_map_of_mem hp⟩
  rw [hr] at hr'
  cases hr'
  refine ⟨hperm.mem_iff.2 (List.mem_append_left _ hp), hperm.mem_iff.2 (List.mem_append_right _ (ridColumns_mem.2 ⟨l, d, p, hp, ?_⟩))⟩
  have : unitSize table s [str "PID", l, d] = f := by
    unfold unitSize
    rw [hu]
    simp [hf]
  unfold inUserUnit
  rw [this]

/-! ### Concrete cases -/

/-- The medians of FEMA P-58 (`DemandRid.ridMedian`). -/
def median (y : ℚ) (_ : Label) (v : List (Option ℚ)) : List (Option ℚ) :=
  v.map (Option.map fun x => if x < y then 0 else if x < 4 * y then 3 / 10 * (x - y) else x - 3 * y)

theorem median_estimate : Estimate median := by
  intro y l v hy hv
  unfold median
  rw [List.forall₂_map_right_iff, List.forall₂_same]
  intro a ha
  cases a with
  | none => exact .inl ⟨rfl, rfl⟩
  | some x =>
    refine .inr ⟨x, _, rfl, rfl, ?_⟩
    have hx := hv x ha
    beta_reduce
    split
    · exact ⟨le_refl _, hx⟩
    · split <;> constructor <;> linarith

/-- Peak drifts in percent. -/
def exTable : Dict Str ℚ := [(str "percent", 1/100), (str "rad", 1), (str "unitless", 1), (str "g", 981/100)]

def exPercent : Sample where
  cols := [([str "PFA", str "1", str "1"], [some 3, some 4]), ([str "PID", str "1", str "1"], [some (1/20), none])]
  units := [([str "PFA", str "1", str "1"], str "g"), ([str "PID", str "1", str "1"], str "percent")]

def exRad : Sample where
  cols := [([str "PFA", str "1", str "1"], [some 3, some 4]), ([str "PID", str "1", str "1"], [some (1/20), none]),
    ([str "PID", str "2", str "1"], [some (1/200), some (1/50)])]
  units := [([str "PFA", str "1", str "1"], str "g"), ([str "PID", str "1", str "1"], str "rad"), ([str "PID", str "2", str "1"], str "rad")]

theorem percentReady : Ready exTable exPercent where
  distinct := by decide +kernel
  clean := by unfold Clean; decide +kernel
  noFlags := by decide +kernel
  noRid := by decide +kernel
  units := by unfold Dict.NoDupKeys; decide +kernel
  known := by
    intro u hu
    simp only [exPercent, List.map_cons, List.map_nil, List.mem_cons, List.not_mem_nil, or_false] at hu
    rcases hu with rfl | rfl
    · exact ⟨981/100, by decide +kernel, by norm_num⟩
    · exact ⟨1/100, by decide +kernel, by norm_num⟩
  unitless := by decide +kernel

theorem radReady : Ready exTable exRad where
  distinct := by decide +kernel
  clean := by unfold Clean; decide +kernel
  noFlags := by decide +kernel
  noRid := by decide +kernel
  units := by unfold Dict.NoDupKeys; decide +kernel
  known := by
    intro u hu
    simp only [exRad, List.map_cons, List.map_nil, List.mem_cons, List.not_mem_nil, or_false] at hu
    rcases hu with rfl | rfl | rfl
    · exact ⟨981/100, by decide +kernel, by norm_num⟩
    · exact ⟨1, by decide +kernel, by norm_num⟩
    · exact ⟨1, by decide +kernel, by norm_num⟩
  unitless := by decide +kernel

/-- The hypotheses of `C123_adjusted_partial` are met. -/
example : ∃ r, estimateAndAdjust exTable median [(str "yield_drift", 1/100)] (str "FEMA P-58") (some exRad) = .ok r ∧
    ([str "RID", str "1", str "1"], [some (1/50), none]) ∈ r.cols ∧ ([str "RID", str "2", str "1"], [some 0, some (3/1000)]) ∈ r.cols ∧
    ([str "PFA", str "1", str "1"], [some 3, some 4]) ∈ r.cols := by
  obtain ⟨r, h1, h2, -⟩ := C123_adjusted_partial exTable median [(str "yield_drift", 1/100)] (str "FEMA P-58") (1/100) exRad radReady (.inr rfl)
    (by decide +kernel) ⟨str "1", str "1", by decide +kernel⟩
  exact ⟨r, h1, h2.mem_iff.2 (by decide +kernel), h2.mem_iff.2 (by decide +kernel), h2.mem_iff.2 (by decide +kernel)⟩

/-- The hypotheses of `C123_bounds_partial` are met. -/
example : ∃ r v, estimateAndAdjust exTable median [(str "yield_drift", 1/100)] (str "FEMA P58") (some exRad) = .ok r ∧
    ([str "RID", str "1", str "1"], v) ∈ r.cols := by
  obtain ⟨r, h1, h2, -⟩ := C123_adjusted_partial exTable median [(str "yield_drift", 1/100)] (str "FEMA P58") (1/100) exRad radReady (.inl rfl)
    (by decide +kernel) ⟨str "1", str "1", by decide +kernel⟩
  obtain ⟨v, hv, -⟩ := C123_bounds_partial exTable median [(str "yield_drift", 1/100)] (str "FEMA P58") (1/100) exRad r radReady median_estimate
    (.inl rfl) (by decide +kernel) (by norm_num)
    (by
      intro l d u h
      have := Dict.mem_of_get? h
      simp only [exRad, List.mem_cons, Prod.mk.injEq, List.not_mem_nil, or_false] at this
      rcases this with ⟨h, _⟩ | ⟨_, rfl⟩ | ⟨_, rfl⟩
      · simp only [List.cons.injEq] at h
        exact absurd h.1 (by decide)
      · decide +kernel
      · decide +kernel) h1 (str "1") (str "1") [some (1/20), none]
    (h2.mem_iff.2 (by decide +kernel)) (by intro x hx; simp at hx; subst hx; norm_num)
  exact ⟨r, v, h1, hv⟩

/-- **C123, not all units.** With peak drifts in percent the call gives a residual drift larger than the peak drift: 2 for a
peak drift of 0.05 and a yield drift of one percent. -/
theorem C123_percent_exceeds :
    ∃ r, estimateAndAdjust exTable median [(str "yield_drift", 1)] (str "FEMA P-58") (some exPercent) = .ok r ∧
      ([str "PID", str "1", str "1"], [some (1/20), none]) ∈ r.cols ∧ ([str "RID", str "1", str "1"], [some 2, none]) ∈ r.cols := by
  obtain ⟨r, h1, -⟩ := C123_adjusted_partial exTable median [(str "yield_drift", 1)] (str "FEMA P-58") 1 exPercent percentReady (.inr rfl)
    (by decide +kernel) ⟨str "1", str "1", by decide +kernel⟩
  obtain ⟨h2, h3⟩ := C123_other_unit exTable median [(str "yield_drift", 1)] (str "FEMA P-58") 1 exPercent r percentReady (.inr rfl)
    (by decide +kernel) h1 (str "1") (str "1") (str "percent") [some (1/20), none] (1/100) (by decide +kernel) (by decide +kernel) (by decide +kernel)
  refine ⟨r, h1, h2, ?_⟩
  have : median 1 [str "1", str "1"] (([some (1/20), none] : List (Option ℚ)).map (Option.map (· / (1/100)))) = [some 2, none] := by decide +kernel
  rw [this] at h3
  exact h3

end Verif.RidAdjust
