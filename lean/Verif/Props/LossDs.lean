import Verif.Model.LossDs
import Verif.Props.FileIO
import Verif.Props.DmgQty
import Verif.Lemmas.Lists
import Verif.Lemmas.Interp
import Verif.Lemmas.Curve
import Mathlib.Data.List.Nodup
import Mathlib.Tactic.Ring
import Mathlib.Tactic.Linarith

/-!
# Properties C56 and C80

C56: quantity-dependent unit consequences.  C80: losses from damage states and economies of scale.
-/

namespace Verif.LossDs

/-! ## C56 -/

theorem interpFrom_between : ∀ (pre : List (ℚ × ℚ)) (x0 y0 x1 y1 : ℚ) (post : List (ℚ × ℚ)) (q : ℚ),
    XAsc (pre ++ (x0, y0) :: (x1, y1) :: post) → x0 ≤ q → q ≤ x1 →
    interpFrom (pre ++ (x0, y0) :: (x1, y1) :: post) q = y0 + (y1 - y0) / (x1 - x0) * (q - x0) := by
  intro pre
  induction pre with
  | nil =>
    intro x0 y0 x1 y1 post q hx h0 h1
    simp only [List.nil_append, XAsc, List.map_cons, List.pairwise_cons] at hx ⊢
    have h01 : x0 < x1 := hx.1 x1 (by simp)
    simp only [interpFrom]
    by_cases h : q < x1
    · rw [if_pos h]
    · have e : q = x1 := le_antisymm h1 (not_lt.1 h)
      rw [if_neg h, e]
      have d : x1 - x0 ≠ 0 := (sub_pos.2 h01).ne'
      have hgo : interpFrom ((x1, y1) :: post) x1 = y1 := by
        cases post with
        | nil => rfl
        | cons r post =>
          obtain ⟨x2, y2⟩ := r
          have : x1 < x2 := hx.2.1 x2 (by simp)
          simp only [interpFrom]
          rw [if_pos this]; ring
      rw [hgo, div_mul_cancel₀ _ d]; ring
  | cons p pre ih =>
    intro x0 y0 x1 y1 post q hx h0 h1
    obtain ⟨xp, yp⟩ := p
    have hx' := hx
    simp only [List.cons_append, XAsc, List.map_cons, List.pairwise_cons] at hx
    have htail : XAsc (pre ++ (x0, y0) :: (x1, y1) :: post) := hx.2
    rw [List.cons_append, ← ih x0 y0 x1 y1 post q htail h0 h1]
    match pre with
    | [] =>
      rw [List.nil_append]
      conv_lhs => rw [interpFrom]
      rw [if_neg (not_lt.2 h0)]
    | (xr, yr) :: pre =>
      rw [List.cons_append]
      conv_lhs => rw [interpFrom]
      have hle : xr ≤ q := by
        simp only [List.cons_append, XAsc, List.map_cons, List.pairwise_cons] at htail
        exact (htail.1 x0 (by simp)).le.trans h0
      rw [if_neg (not_lt.2 hle)]

/-- C56: between two neighbouring points the consequence is on the line through them. -/
theorem C56_linear_between (pre post : List (ℚ × ℚ)) (x0 y0 x1 y1 q : ℚ)
    (hx : XAsc (pre ++ (x0, y0) :: (x1, y1) :: post)) (h0 : x0 ≤ q) (h1 : q ≤ x1) :
    multilinear (pre ++ (x0, y0) :: (x1, y1) :: post) (some q) = some (y0 + (y1 - y0) / (x1 - x0) * (q - x0)) := by
  refine congrArg some ?_
  have := interpFrom_between pre x0 y0 x1 y1 post q hx h0 h1
  match pre with
  | [] => rw [List.nil_append] at *; rw [interp, if_neg (not_lt.2 h0)]; exact this
  | (xp, yp) :: pre =>
    rw [List.cons_append] at *
    have hle : xp ≤ q := by
      simp only [XAsc, List.map_cons, List.pairwise_cons] at hx
      exact (hx.1 x0 (by simp)).le.trans h0
    rw [interp, if_neg (not_lt.2 hle)]; exact this

/-- C56: so it is between the two given values. -/
theorem C56_between_neighbours (pre post : List (ℚ × ℚ)) (x0 y0 x1 y1 q : ℚ)
    (hx : XAsc (pre ++ (x0, y0) :: (x1, y1) :: post)) (h0 : x0 ≤ q) (h1 : q ≤ x1) :
    ∃ m, multilinear (pre ++ (x0, y0) :: (x1, y1) :: post) (some q) = some m ∧ min y0 y1 ≤ m ∧ m ≤ max y0 y1 := by
  refine ⟨_, C56_linear_between pre post x0 y0 x1 y1 q hx h0 h1, ?_⟩
  have h01 : x0 < x1 := by
    unfold XAsc at hx
    rw [List.map_append, List.pairwise_append] at hx
    simp only [List.map_cons, List.pairwise_cons] at hx
    exact hx.2.1.1 x1 (by simp)
  rcases le_total y0 y1 with hy | hy
  · rw [min_eq_left hy, max_eq_right hy]; exact seg_le h01 h0 h1 hy
  · rw [min_eq_right hy, max_eq_left hy]; exact seg_ge h01 h0 h1 hy

/-- C56: the plateaus. -/
theorem C56_plateaus (pts : List (ℚ × ℚ)) (hx : XAsc pts) (q : ℚ) :
    (∀ p, pts.head? = some p → q ≤ p.1 → multilinear pts (some q) = some p.2) ∧
    (∀ p, pts.getLast? = some p → p.1 ≤ q → multilinear pts (some q) = some p.2) := by
  cases pts with
  | nil => simp
  | cons p0 pts =>
    obtain ⟨x0, y0⟩ := p0
    constructor
    · intro p hp hq
      simp only [List.head?_cons, Option.some.injEq] at hp
      subst hp
      refine congrArg some ?_
      simp only [interp]
      by_cases h : q < x0
      · rw [if_pos h]
      · rw [if_neg h]
        have e : q = x0 := le_antisymm hq (not_lt.1 h)
        subst e
        cases pts with
        | nil => rfl
        | cons r pts =>
          obtain ⟨x1, y1⟩ := r
          simp only [XAsc, List.map_cons, List.pairwise_cons] at hx
          have : q < x1 := hx.1 x1 (by simp)
          simp only [interpFrom]
          rw [if_pos this]; ring
    · intro p hp hq
      refine congrArg some ?_
      have hle : x0 ≤ q := by
        have hm := List.mem_of_getLast? hp
        rcases List.mem_cons.1 hm with rfl | hm
        · exact hq
        · simp only [XAsc, List.map_cons, List.pairwise_cons] at hx
          exact (hx.1 p.1 (List.mem_map.2 ⟨p, hm, rfl⟩)).le.trans hq
      simp only [interp]
      rw [if_neg (not_lt.2 hle)]
      exact interpFrom_last pts (x0, y0) q hx (by intro r hr; rw [hp] at hr; simp at hr; subst hr; exact hq) p
        (by rw [hp]; simp)

theorem interpFrom_neg : ∀ (pts : List (ℚ × ℚ)) (x : ℚ), interpFrom (pts.map fun p => (p.1, -p.2)) x = -interpFrom pts x := by
  intro pts x
  induction pts with
  | nil => simp [interpFrom]
  | cons p pts ih =>
    obtain ⟨x0, y0⟩ := p
    cases pts with
    | nil => simp [interpFrom]
    | cons r pts =>
      obtain ⟨x1, y1⟩ := r
      simp only [List.map_cons, interpFrom] at ih ⊢
      by_cases h : x < x1
      · rw [if_pos h, if_pos h]; ring
      · rw [if_neg h, if_neg h, ih]

theorem interp_neg (pts : List (ℚ × ℚ)) (x : ℚ) : interp (pts.map fun p => (p.1, -p.2)) x = -interp pts x := by
  cases pts with
  | nil => simp [interp]
  | cons p pts =>
    obtain ⟨x0, y0⟩ := p
    simp only [List.map_cons, interp]
    by_cases h : x < x0
    · rw [if_pos h, if_pos h]
    · rw [if_neg h, if_neg h]
      exact interpFrom_neg ((x0, y0) :: pts) x

/-- C56: if the given values do not increase, the unit consequence does not increase with the quantity. -/
theorem C56_never_increases (pts : List (ℚ × ℚ)) (hx : XAsc pts) (hy : (pts.map Prod.snd).Pairwise (· ≥ ·)) (q q' : ℚ) (h : q ≤ q') :
    ∃ m m', multilinear pts (some q) = some m ∧ multilinear pts (some q') = some m' ∧ m' ≤ m := by
  refine ⟨_, _, rfl, rfl, ?_⟩
  have := interp_mono (pts := pts.map fun p => (p.1, -p.2)) (x := q) (x' := q') (by
      unfold XAsc at hx ⊢; rw [List.map_map]; exact hx) (by
      unfold YAsc
      rw [List.map_map]
      rw [List.pairwise_map] at hy ⊢
      exact hy.imp fun h => neg_le_neg h) h
  rw [interp_neg, interp_neg] at this
  linarith

example : XAsc [((1 : ℚ), (10 : ℚ)), (5, 6), (9, 6)] ∧ ([((1 : ℚ), (10 : ℚ)), (5, 6), (9, 6)].map Prod.snd).Pairwise (· ≥ ·) := by
  unfold XAsc; constructor <;> decide +kernel
example : multilinear [((1 : ℚ), (10 : ℚ)), (5, 6), (9, 6)] (some 3) = some 8 ∧
    multilinear [((1 : ℚ), (10 : ℚ)), (5, 6), (9, 6)] (some 0) = some 10 ∧
    multilinear [((1 : ℚ), (10 : ℚ)), (5, 6), (9, 6)] (some 70) = some 6 := by decide +kernel

/-! ## C80: specification -/

section
variable {F : Type} [Field F] [LinearOrder F] [IsStrictOrderedRing F]


/-- The quantity that governs the economies of scale of a damaged quantity: everything of the component
that is damaged in the same realization, on all floors, in the same damage state or, with
`AcrossDamageStates`, in any. -/
def governing (eco : Eco) (cols : List DKey) (r : Real F) (k : DKey) : ℚ :=
  ((cols.filter fun k' => decide (k'.cmp = k.cmp ∧ (eco.acrossStates = true ∨ k'.ds = k.ds))).map fun k' => (r.row k').getD 0).sum

/-- `m` is the median unit consequence for the quantity `q`.  For a constant median with a random deviation
the deviation has the median. -/
def UnitMedian (p : DsParam) (q m : ℚ) : Prop :=
  match p.theta with
  | .const x => m = if p.family = none then x else 1
  | .curve pts => pts ≠ [] → (pts.map Prod.fst).Pairwise (· < ·) → OnClampedGraph pts q m

/-- `v` is the loss of a damaged quantity in a realization: the quantity times the median unit consequence
at the governing quantity, times the deviation. -/
def IsLoss (eco : Eco) (cols : List DKey) (dv : Str) (p : DsParam) (k : DKey) (r : Real F) (v : F) : Prop :=
  match r.row k with
  | none => v = 0
  | some q => ∃ m, UnitMedian p (governing eco cols r k) m ∧ v = (q * m : ℚ) * if p.family = none then 1 else r.dev dv k

/-- The consequence of a component for a decision variable in a damage state. -/
def Defined (params : Params) (missing : List (Str × Str)) (lossMap : List (Str × Str)) (dv loss : Str) (k : DKey) (p : DsParam) : Prop :=
  (k.cmp, loss) ∈ lossMap ∧ (loss, dv) ∉ missing ∧ k.ds ≠ str "0" ∧
    ∃ row, params.rows.get? (loss, dv) = some row ∧ row k.ds = some p

/-- The label of a loss. -/
def outKey (dv loss : Str) (k : DKey) : OutKey := ⟨dv, loss, k.cmp, k.ds, k.loc, k.dir, k.uid⟩

/-! ## Lemmas -/

/-- The median as computed. -/
def unitMedian (p : DsParam) (q : ℚ) : ℚ :=
  match p.theta with
  | .const x => if p.family = none then x else 1
  | .curve pts => interp pts q

/-- The loss as computed. -/
def expectedLoss (eco : Eco) (cols : List DKey) (dv : Str) (p : DsParam) (k : DKey) (r : Real F) : F :=
  match r.row k with
  | none => 0
  | some q => (q * unitMedian p (governing eco cols r k) : ℚ) * if p.family = none then 1 else r.dev dv k

theorem expectedLoss_spec (eco : Eco) (cols : List DKey) (dv : Str) (p : DsParam) (k : DKey) (r : Real F) :
    IsLoss eco cols dv p k r (expectedLoss eco cols dv p k r) := by
  unfold IsLoss expectedLoss
  cases r.row k with
  | none => rfl
  | some q =>
    refine ⟨_, ?_, rfl⟩
    unfold UnitMedian unitMedian
    cases p.theta with
    | const x => rfl
    | curve pts => exact fun hne hx => interp_clamped hne hx _

theorem sumMin1_some {l : List (Option ℚ)} (h : ∃ x, some x ∈ l) : DmgQty.sumMin1 l = some ((l.map fun x => x.getD 0).sum) := by
  unfold DmgQty.sumMin1
  have hne : l.filterMap id ≠ [] := by
    obtain ⟨x, hx⟩ := h
    apply List.ne_nil_of_mem (a := x)
    rw [List.mem_filterMap]
    exact ⟨some x, hx, rfl⟩
  rw [if_neg hne]
  congr 1
  clear h hne
  induction l with
  | nil => rfl
  | cons a l ih =>
    cases a with
    | none => simpa using ih
    | some a => simpa using ih

theorem lossCell_eq (eco : Eco) (cols : List DKey) (dv : Str) (p : DsParam) (k : DKey) (hk : k ∈ cols) (r : Real F) (b : Bool)
    (hb : b = p.family.isSome) : lossCell eco cols b dv p k r = expectedLoss eco cols dv p k r := by
  unfold lossCell expectedLoss
  cases hq : r.row k with
  | none => cases b <;> simp [mulO]
  | some q =>
    have heco : ecoQnt cols (sameGroup eco k.cmp k.ds) r.row = some (governing eco cols r k) := by
      unfold ecoQnt
      rw [sumMin1_some]
      · unfold governing
        rw [List.map_map]
        congr 3
        apply List.filter_congr
        intro k' _
        unfold sameGroup
        by_cases h1 : k'.cmp = k.cmp <;> by_cases h2 : k'.ds = k.ds <;> cases eco.acrossStates <;> simp [h1, h2]
      · refine ⟨q, List.mem_map.2 ⟨k, ?_, hq⟩⟩
        rw [List.mem_filter]
        exact ⟨hk, by simp [sameGroup]⟩
    rw [heco]
    have hm : medianFun p (some (governing eco cols r k)) = some (unitMedian p (governing eco cols r k)) := by
      unfold medianFun unitMedian
      cases p.theta with
      | const x => by_cases h : p.family = none <;> simp [h]
      | curve pts => rfl
    rw [hm, hb]
    cases hf : p.family with
    | none => simp [mulO]
    | some f => simp [mulO]

theorem medianStates_spec {eco : Eco} {cols : List DKey} {row : Str → Option DsParam} {cmp : Str} : ∀ {states : List Str} {sts : List (Str × DsParam)},
    medianStates eco cols row cmp states = .ok sts →
    (∀ ds p, (ds, p) ∈ sts ↔ ds ∈ states ∧ ds ≠ str "0" ∧ row ds = some p ∧ stateAvailable eco cols cmp ds = true) ∧
    (sts.map (·.1)).Sublist states := by
  intro states
  induction states with
  | nil =>
    intro sts h
    simp only [medianStates, Except.ok.injEq] at h
    subst h
    simp
  | cons d states ih =>
    intro sts h
    simp only [medianStates] at h
    by_cases h0 : d = str "0"
    · rw [if_pos h0] at h
      obtain ⟨i1, i2⟩ := ih h
      refine ⟨?_, i2.cons d⟩
      intro ds p
      rw [i1]
      constructor
      · rintro ⟨a, b⟩; exact ⟨List.mem_cons_of_mem _ a, b⟩
      · rintro ⟨a, b⟩
        rcases List.mem_cons.1 a with rfl | a
        · exact absurd h0 b.1
        · exact ⟨a, b⟩
    · rw [if_neg h0] at h
      cases hr : row d with
      | none =>
        rw [hr] at h
        obtain ⟨i1, i2⟩ := ih h
        refine ⟨?_, i2.cons d⟩
        intro ds p
        rw [i1]
        constructor
        · rintro ⟨a, b⟩; exact ⟨List.mem_cons_of_mem _ a, b⟩
        · rintro ⟨a, b⟩
          rcases List.mem_cons.1 a with rfl | a
          · rw [hr] at b; exact absurd b.2.1 (by simp)
          · exact ⟨a, b⟩
      | some p0 =>
        rw [hr] at h
        simp only at h
        by_cases hf : familyOk p0.family = false
        · rw [if_pos hf] at h; exact absurd h (by simp)
        rw [if_neg hf] at h
        by_cases ha : stateAvailable eco cols cmp d = false
        · rw [if_pos ha] at h
          obtain ⟨i1, i2⟩ := ih h
          refine ⟨?_, i2.cons d⟩
          intro ds p
          rw [i1]
          constructor
          · rintro ⟨a, b⟩; exact ⟨List.mem_cons_of_mem _ a, b⟩
          · rintro ⟨a, b⟩
            rcases List.mem_cons.1 a with rfl | a
            · rw [ha] at b; exact absurd b.2.2 (by simp)
            · exact ⟨a, b⟩
        · rw [if_neg ha] at h
          cases hm : medianStates eco cols row cmp states with
          | error e => rw [hm] at h; exact absurd h (by simp)
          | ok r =>
            rw [hm] at h
            simp only [Except.ok.injEq] at h
            subst h
            obtain ⟨i1, i2⟩ := ih hm
            refine ⟨?_, by rw [List.map_cons]; exact i2.cons₂ d⟩
            intro ds p
            rw [List.mem_cons, i1]
            constructor
            · rintro (h | ⟨a, b⟩)
              · injection h with h1 h2
                subst h1; subst h2
                exact ⟨by simp, h0, hr, by simpa using ha⟩
              · exact ⟨List.mem_cons_of_mem _ a, b⟩
            · rintro ⟨a, b⟩
              rcases List.mem_cons.1 a with rfl | a
              · left
                rw [hr] at b
                have := b.2.1
                injection this with this
                rw [this]
              · exact Or.inr ⟨a, b⟩

theorem paramRow_spec {params : Params} {k : Str × Str} {row : Str → Option DsParam} (h : paramRow params k = .ok row) :
    params.rows.get? k = some row ∨ (row = fun _ => none) := by
  unfold paramRow at h
  cases hk : params.rows.get? k with
  | some r => rw [hk] at h; injection h with h; subst h; exact Or.inl rfl
  | none =>
    rw [hk] at h
    simp only at h
    split at h
    · exact absurd h (by simp)
    · injection h with h; exact Or.inr h.symm

theorem medianCmps_spec {eco : Eco} {params : Params} {missing : List (Str × Str)} {cols : List DKey} {dv : Str} :
    ∀ {m : List (Str × Str)} {r : List (Str × Str × List (Str × DsParam))},
    medianCmps eco params missing cols dv m = .ok r →
    (∀ cmp loss sts, (cmp, loss, sts) ∈ r → (cmp, loss) ∈ m ∧ (loss, dv) ∉ missing ∧ (∃ k ∈ cols, k.cmp = cmp) ∧ sts ≠ [] ∧
      ∃ row, paramRow params (loss, dv) = .ok row ∧ medianStates eco cols row cmp params.states = .ok sts) ∧
    (∀ cmp loss, (cmp, loss) ∈ m → (loss, dv) ∉ missing → (∃ k ∈ cols, k.cmp = cmp) →
      ∃ row sts, paramRow params (loss, dv) = .ok row ∧ medianStates eco cols row cmp params.states = .ok sts ∧
        (sts ≠ [] → (cmp, loss, sts) ∈ r)) ∧
    (r.map fun x => (x.1, x.2.1)).Sublist m := by
  intro m
  induction m with
  | nil =>
    intro r h
    simp only [medianCmps, Except.ok.injEq] at h
    subst h
    simp
  | cons a m ih =>
    intro r h
    obtain ⟨c, l⟩ := a
    simp only [medianCmps] at h
    by_cases hm : (l, dv) ∈ missing
    · rw [if_pos hm] at h
      obtain ⟨i1, i2, i3⟩ := ih h
      refine ⟨?_, ?_, i3.cons _⟩
      · intro cmp loss sts hin
        obtain ⟨j1, j2⟩ := i1 cmp loss sts hin
        exact ⟨List.mem_cons_of_mem _ j1, j2⟩
      · intro cmp loss hin hmis hex
        rcases List.mem_cons.1 hin with he | hin
        · injection he with h1 h2; subst h2; exact absurd hm hmis
        · exact i2 cmp loss hin hmis hex
    rw [if_neg hm] at h
    by_cases hc : (cols.any fun k => decide (k.cmp = c)) = false
    · rw [if_pos hc] at h
      obtain ⟨i1, i2, i3⟩ := ih h
      refine ⟨?_, ?_, i3.cons _⟩
      · intro cmp loss sts hin
        obtain ⟨j1, j2⟩ := i1 cmp loss sts hin
        exact ⟨List.mem_cons_of_mem _ j1, j2⟩
      · intro cmp loss hin hmis hex
        rcases List.mem_cons.1 hin with he | hin
        · injection he with h1 h2
          obtain ⟨k, hk, hk'⟩ := hex
          rw [List.any_eq_false] at hc
          exact absurd (by simpa using hk'.trans h1) (hc k hk)
        · exact i2 cmp loss hin hmis hex
    rw [if_neg hc] at h
    cases hp : paramRow params (l, dv) with
    | error e => rw [hp] at h; exact absurd h (by simp)
    | ok row =>
    rw [hp] at h
    simp only at h
    cases hs : medianStates eco cols row c params.states with
    | error e => rw [hs] at h; exact absurd h (by simp)
    | ok sts =>
    rw [hs] at h
    simp only at h
    cases hr : medianCmps eco params missing cols dv m with
    | error e => rw [hr] at h; exact absurd h (by simp)
    | ok r' =>
    rw [hr] at h
    simp only [Except.ok.injEq] at h
    obtain ⟨i1, i2, i3⟩ := ih hr
    have hany : ∃ k ∈ cols, k.cmp = c := by
      simp only [Bool.not_eq_false, List.any_eq_true, decide_eq_true_eq] at hc
      exact hc
    by_cases hnil : sts = []
    · rw [if_pos hnil] at h
      subst h
      refine ⟨?_, ?_, i3.cons _⟩
      · intro cmp loss sts hin
        obtain ⟨j1, j2⟩ := i1 cmp loss sts hin
        exact ⟨List.mem_cons_of_mem _ j1, j2⟩
      · intro cmp loss hin hmis hex
        rcases List.mem_cons.1 hin with he | hin
        · injection he with h1 h2
          subst h1; subst h2
          exact ⟨row, sts, hp, hs, fun hne => absurd hnil hne⟩
        · exact i2 cmp loss hin hmis hex
    · rw [if_neg hnil] at h
      subst h
      refine ⟨?_, ?_, by rw [List.map_cons]; exact i3.cons₂ _⟩
      · intro cmp loss sts' hin
        rcases List.mem_cons.1 hin with he | hin
        · simp only [Prod.mk.injEq] at he
          obtain ⟨rfl, rfl, rfl⟩ := he
          exact ⟨by simp, hm, hany, hnil, row, hp, hs⟩
        · obtain ⟨j1, j2⟩ := i1 cmp loss sts' hin
          exact ⟨List.mem_cons_of_mem _ j1, j2⟩
      · intro cmp loss hin hmis hex
        rcases List.mem_cons.1 hin with he | hin
        · injection he with h1 h2
          subst h1; subst h2
          exact ⟨row, sts, hp, hs, fun _ => by simp⟩
        · obtain ⟨row', sts', j1, j2, j3⟩ := i2 cmp loss hin hmis hex
          exact ⟨row', sts', j1, j2, fun hne => List.mem_cons_of_mem _ (j3 hne)⟩

theorem medians_ok {eco : Eco} {params : Params} {missing : List (Str × Str)} {cols : List DKey} {lossMap : List (Str × Str)} {dv : Str}
    {r : List (Str × Str × List (Str × DsParam))} (h : medians eco params missing cols lossMap dv = .ok r) :
    medianCmps eco params missing cols dv lossMap = .ok r ∧ (eco.acrossFloors = true ∨ r = []) := by
  unfold medians at h
  cases hm : medianCmps eco params missing cols dv lossMap with
  | error e => rw [hm] at h; exact absurd h (by simp)
  | ok r' =>
    rw [hm] at h
    cases r' with
    | nil => simp only [Except.ok.injEq] at h; subst h; exact ⟨rfl, Or.inr rfl⟩
    | cons c r' =>
      simp only at h
      split at h
      · injection h with h; subst h; rename_i hf; exact ⟨rfl, Or.inl hf⟩
      · exact absurd h (by simp)

/-- What `calculate` does when it succeeds with a result. -/
theorem calculate_ok {eco : Eco} {params : Params} {missing : List (Str × Str)} {cols : List DKey} {lossMap : List (Str × Str)} {dvs : List Str}
    {out : Result F} (h : calculate eco params missing cols lossMap dvs = .ok (some out)) :
    ∃ meds rs, List.Forall₂ (fun dv m => m.1 = dv ∧ medianCmps eco params missing cols dv lossMap = .ok m.2 ∧
        (eco.acrossFloors = true ∨ m.2 = [])) dvs meds ∧
      allLosses eco params missing cols meds = .ok rs ∧ rs ≠ [] ∧ out = rs.flatten := by
  unfold calculate at h
  split at h
  · exact absurd h (by simp)
  · cases hm : allMedians eco params missing cols lossMap dvs with
    | error e => rw [hm] at h; exact absurd h (by simp)
    | ok meds =>
      rw [hm] at h
      simp only at h
      cases hl : allLosses (F := F) eco params missing cols meds with
      | error e => rw [hl] at h; exact absurd h (by simp)
      | ok rs =>
        rw [hl] at h
        cases rs with
        | nil => exact absurd h (by simp)
        | cons a rs =>
          simp only [Except.ok.injEq, Option.some.injEq] at h
          refine ⟨meds, a :: rs, ?_, hl, by simp, h.symm⟩
          unfold allMedians at hm
          rw [mapE_ok_iff] at hm
          refine hm.imp ?_
          intro dv m hx
          cases hmd : medians eco params missing cols lossMap dv with
          | error e => rw [hmd] at hx; exact absurd hx (by simp)
          | ok r =>
            rw [hmd] at hx
            injection hx with hx
            subst hx
            obtain ⟨j1, j2⟩ := medians_ok hmd
            exact ⟨rfl, j1, j2⟩

/-- Like above, when the outcome is an error of a component's state, and otherwise. -/
theorem stateLosses_ok {eco : Eco} {params : Params} {missing : List (Str × Str)} {cols : List DKey} {dv cmp loss : Str} {st : Str × DsParam}
    {res : Result F} (h : stateLosses eco params missing cols dv cmp loss st = .ok res) :
    ∃ b, (∃ k ∈ cols, k.cmp = cmp ∧ k.ds = st.1) ∧
      (b = true → hasRV params missing cols dv cmp loss st.1 = true) ∧
      (b = false → ∀ k ∈ cols, k.cmp = cmp → hasRV params missing cols dv cmp loss k.ds = false) ∧
      res = (cols.filter fun k => decide (k.cmp = cmp ∧ k.ds = st.1)).map fun k =>
        (⟨dv, loss, cmp, st.1, k.loc, k.dir, k.uid⟩, lossCell eco cols b dv st.2 k) := by
  unfold stateLosses at h
  simp only at h
  by_cases hk : (cols.filter fun k => decide (k.cmp = cmp ∧ k.ds = st.1)) = []
  · rw [if_pos hk] at h; exact absurd h (by simp)
  · rw [if_neg hk] at h
    have hex : ∃ k ∈ cols, k.cmp = cmp ∧ k.ds = st.1 := by
      obtain ⟨k, hk⟩ := List.exists_mem_of_ne_nil _ hk
      rw [List.mem_filter, decide_eq_true_eq] at hk
      exact ⟨k, hk.1, hk.2⟩
    by_cases ha : (cols.any fun k => decide (k.cmp = cmp) && hasRV params missing cols dv cmp loss k.ds) = true
    · rw [if_pos ha] at h
      by_cases hr : hasRV params missing cols dv cmp loss st.1 = true
      · rw [if_pos hr] at h
        injection h with h
        exact ⟨true, hex, fun _ => hr, by simp, h.symm⟩
      · rw [if_neg hr] at h; exact absurd h (by simp)
    · rw [if_neg ha] at h
      injection h with h
      refine ⟨false, hex, by simp, fun _ k hk hc => ?_, h.symm⟩
      simp only [Bool.not_eq_true, List.any_eq_false, Bool.and_eq_true, decide_eq_true_eq, not_and] at ha
      simpa using ha k hk hc

theorem hasRV_family {params : Params} {missing : List (Str × Str)} {cols : List DKey} {dv cmp loss ds : Str} {row : Str → Option DsParam} {p : DsParam}
    (h1 : (loss, dv) ∉ missing) (h2 : ds ≠ str "0") (h3 : ∃ k ∈ cols, k.cmp = cmp ∧ k.ds = ds)
    (h4 : params.rows.get? (loss, dv) = some row) (h5 : row ds = some p) :
    hasRV params missing cols dv cmp loss ds = p.family.isSome := by
  unfold hasRV
  have hany : (cols.any fun k => decide (k.cmp = cmp ∧ k.ds = ds)) = true := by
    rw [List.any_eq_true]
    obtain ⟨k, hk, hk'⟩ := h3
    exact ⟨k, hk, by simpa using hk'⟩
  rw [hany, h4]
  simp [h1, h2, h5]

/-- Where an entry of the result comes from. -/
theorem out_mem {eco : Eco} {params : Params} {missing : List (Str × Str)} {cols : List DKey} {meds : List (Str × List (Str × Str × List (Str × DsParam)))}
    {rs : List (Result F)} (h : allLosses eco params missing cols meds = .ok rs) (e : OutKey × (Real F → F)) :
    e ∈ rs.flatten ↔ ∃ dv c, (dv, c) ∈ meds ∧ ∃ cmp loss sts, (cmp, loss, sts) ∈ c ∧ ∃ st ∈ sts, ∃ res,
      stateLosses eco params missing cols dv cmp loss st = .ok res ∧ e ∈ res := by
  unfold allLosses at h
  rw [mapE_ok_iff] at h
  rw [List.mem_flatten]
  constructor
  · rintro ⟨res, hres, he⟩
    obtain ⟨x, hx, hx'⟩ := forall₂_mem_right h hres
    rw [List.mem_flatMap] at hx
    obtain ⟨⟨dv, c⟩, hd, hx⟩ := hx
    rw [List.mem_flatMap] at hx
    obtain ⟨⟨cmp, loss, sts⟩, hc, hx⟩ := hx
    rw [List.mem_map] at hx
    obtain ⟨st, hst, rfl⟩ := hx
    exact ⟨dv, c, hd, cmp, loss, sts, hc, st, hst, res, hx', he⟩
  · rintro ⟨dv, c, hd, cmp, loss, sts, hc, st, hst, res, hx', he⟩
    obtain ⟨res', hres', hx''⟩ := forall₂_mem_left h (a := (dv, cmp, loss, st)) (by
      rw [List.mem_flatMap]
      refine ⟨(dv, c), hd, ?_⟩
      rw [List.mem_flatMap]
      exact ⟨(cmp, loss, sts), hc, List.mem_map.2 ⟨st, hst, rfl⟩⟩)
    simp only at hx''
    rw [hx'] at hx''
    injection hx'' with hx''
    subst hx''
    exact ⟨res, hres', he⟩

/-! ## C80 -/

/-- The losses as computed. -/
theorem formula (eco : Eco) (params : Params) (missing : List (Str × Str)) (cols : List DKey) (lossMap : List (Str × Str))
    (dvs : List Str) (out : Result F) (h : calculate eco params missing cols lossMap dvs = .ok (some out)) (e : OutKey × (Real F → F)) (he : e ∈ out) :
    ∃ dv ∈ dvs, ∃ k ∈ cols, ∃ loss p, Defined params missing lossMap dv loss k p ∧ e.1 = outKey dv loss k ∧
      ∀ r, e.2 r = expectedLoss eco cols dv p k r := by
  obtain ⟨meds, rs, h1, h2, _, rfl⟩ := calculate_ok h
  rw [out_mem h2] at he
  obtain ⟨dv, c, hd, cmp, loss, sts, hc, st, hst, res, hs, hin⟩ := he
  obtain ⟨dv', hdv, rfl, hm, hfl⟩ := forall₂_mem_right h1 hd
  simp only at hm hfl hdv
  obtain ⟨a1, a2, a3, a4, row, a5, a6⟩ := (medianCmps_spec hm).1 cmp loss sts hc
  obtain ⟨ds, p⟩ := st
  obtain ⟨b1, b2, b3, b4⟩ := ((medianStates_spec a6).1 ds p).1 hst
  have hrow : params.rows.get? (loss, dv) = some row := by
    rcases paramRow_spec a5 with h | h
    · exact h
    · rw [h] at b3; exact absurd b3 (by simp)
  obtain ⟨b, c1, c2, c3, rfl⟩ := stateLosses_ok hs
  rw [List.mem_map] at hin
  obtain ⟨k, hk, rfl⟩ := hin
  rw [List.mem_filter, decide_eq_true_eq] at hk
  obtain ⟨hk, hk1, hk2⟩ := hk
  simp only at hk2 c1 c2
  refine ⟨dv, hdv, k, hk, loss, p, ⟨by rw [hk1]; exact a1, a2, by rw [hk2]; exact b2, row, hrow, by rw [hk2]; exact b3⟩, ?_, ?_⟩
  · simp [outKey, hk1, hk2]
  · intro r
    refine lossCell_eq eco cols dv p k hk r b ?_
    have hf := hasRV_family (cmp := cmp) a2 b2 c1 hrow b3
    cases b with
    | true => rw [← hf, c2 rfl]
    | false =>
      have := c3 rfl k hk hk1
      rw [hk2, hf] at this
      exact this.symm

/-- C80: each loss is the damaged quantity times the unit consequence at the governing quantity times the
deviation. -/
theorem C80_formula_partial (eco : Eco) (params : Params) (missing : List (Str × Str)) (cols : List DKey) (lossMap : List (Str × Str))
    (dvs : List Str) (out : Result F) (h : calculate eco params missing cols lossMap dvs = .ok (some out)) (e : OutKey × (Real F → F)) (he : e ∈ out) :
    ∃ dv ∈ dvs, ∃ k ∈ cols, ∃ loss p, Defined params missing lossMap dv loss k p ∧ e.1 = outKey dv loss k ∧
      ∀ r, IsLoss eco cols dv p k r (e.2 r) := by
  obtain ⟨dv, h1, k, h2, loss, p, h3, h4, h5⟩ := formula eco params missing cols lossMap dvs out h e he
  exact ⟨dv, h1, k, h2, loss, p, h3, h4, fun r => by rw [h5]; exact expectedLoss_spec ..⟩

/-- C80: every damaged quantity with a defined consequence has its loss in the result. -/
theorem C80_complete_partial (eco : Eco) (params : Params) (hwf : ∀ key row, params.rows.get? key = some row → ∀ ds, row ds ≠ none → ds ∈ params.states)
    (missing : List (Str × Str)) (cols : List DKey) (lossMap : List (Str × Str))
    (dvs : List Str) (out : Result F) (h : calculate eco params missing cols lossMap dvs = .ok (some out))
    (dv : Str) (hdv : dv ∈ dvs) (k : DKey) (hk : k ∈ cols) (loss : Str) (p : DsParam) (hdef : Defined params missing lossMap dv loss k p) :
    ∃ f, (outKey dv loss k, f) ∈ out := by
  obtain ⟨meds, rs, h1, h2, hne, rfl⟩ := calculate_ok h
  obtain ⟨⟨dv', c⟩, hd, rfl, hm, hfl⟩ := forall₂_mem_left h1 hdv
  simp only at hm hfl hdv
  obtain ⟨d1, d2, d3, row, d4, d5⟩ := hdef
  obtain ⟨row', sts, e1, e2, e3⟩ := (medianCmps_spec hm).2.1 k.cmp loss d1 d2 ⟨k, hk, rfl⟩
  have hrow : row' = row := by
    unfold paramRow at e1
    rw [d4] at e1
    injection e1 with e1
    exact e1.symm
  subst hrow
  -- the groups are across floors
  have hfloors : eco.acrossFloors = true := by
    by_contra hf
    have hempty : ∀ m ∈ meds, m.2 = [] := by
      intro m hm
      obtain ⟨_, _, _, _, hor⟩ := forall₂_mem_right h1 hm
      rcases hor with h | h
      · exact absurd h hf
      · exact h
    unfold allLosses at h2
    have : (meds.flatMap fun d => d.2.flatMap fun c => c.2.2.map fun st => (d.1, c.1, c.2.1, st)) = [] := by
      rw [List.flatMap_eq_nil_iff]
      intro d hd
      rw [hempty d hd]; rfl
    rw [this] at h2
    simp only [mapE, Except.ok.injEq] at h2
    exact hne h2.symm
  have hst : (k.ds, p) ∈ sts := by
    rw [(medianStates_spec e2).1]
    refine ⟨hwf _ _ d4 _ (by rw [d5]; simp), d3, d5, ?_⟩
    unfold stateAvailable
    rw [if_pos hfloors]
    have : (cols.any fun k' => decide (k'.cmp = k.cmp ∧ k'.ds = k.ds)) = true := by
      rw [List.any_eq_true]; exact ⟨k, hk, by simp⟩
    rw [this]; simp
  have hcin := e3 (List.ne_nil_of_mem hst)
  obtain ⟨res, hres, hs⟩ : ∃ res ∈ rs, stateLosses eco params missing cols dv' k.cmp loss (k.ds, p) = .ok res := by
    have h2' := h2
    unfold allLosses at h2'
    rw [mapE_ok_iff] at h2'
    obtain ⟨res', hres', hx⟩ := forall₂_mem_left h2' (a := (dv', k.cmp, loss, (k.ds, p))) (by
      rw [List.mem_flatMap]
      refine ⟨(dv', c), hd, ?_⟩
      rw [List.mem_flatMap]
      exact ⟨(k.cmp, loss, sts), hcin, List.mem_map.2 ⟨_, hst, rfl⟩⟩)
    exact ⟨res', hres', hx⟩
  obtain ⟨b, _, _, _, hr⟩ := stateLosses_ok hs
  refine ⟨lossCell eco cols b dv' p k, ?_⟩
  rw [List.mem_flatten]
  refine ⟨res, hres, ?_⟩
  rw [hr, List.mem_map]
  refine ⟨k, ?_, rfl⟩
  rw [List.mem_filter]
  exact ⟨hk, by simp⟩

/-- C80: losses are not negative if quantities, medians and deviations are not. -/
theorem C80_nonneg (eco : Eco) (params : Params) (missing : List (Str × Str)) (cols : List DKey) (lossMap : List (Str × Str))
    (dvs : List Str) (out : Result F) (h : calculate eco params missing cols lossMap dvs = .ok (some out))
    (hpar : ∀ key row ds p, params.rows.get? key = some row → row ds = some p → match p.theta with
      | .const x => 0 ≤ x
      | .curve pts => pts ≠ [] ∧ XAsc pts ∧ ∀ q ∈ pts, 0 ≤ q.2)
    (r : Real F) (hrow : ∀ k q, r.row k = some q → 0 ≤ q) (hdev : ∀ dv k, 0 ≤ r.dev dv k)
    (e : OutKey × (Real F → F)) (he : e ∈ out) : 0 ≤ e.2 r := by
  obtain ⟨dv, _, k, _, loss, p, hd, _, hv⟩ := formula eco params missing cols lossMap dvs out h e he
  rw [hv]
  unfold expectedLoss
  cases hq : r.row k with
  | none => simp
  | some q =>
    simp only
    obtain ⟨_, _, _, row, hr, hp⟩ := hd
    have hth := hpar _ row _ p hr hp
    have hmed : 0 ≤ unitMedian p (governing eco cols r k) := by
      unfold unitMedian
      cases ht : p.theta with
      | const x =>
        rw [ht] at hth
        simp only
        split
        · exact hth
        · exact zero_le_one
      | curve pts =>
        rw [ht] at hth
        obtain ⟨a1, a2, a3⟩ := hth
        -- bounded by the largest ordinate
        have hsum : ∀ s ∈ pts, 0 ≤ s.2 ∧ s.2 ≤ (pts.map Prod.snd).sum := by
          intro s hs
          refine ⟨a3 s hs, ?_⟩
          refine List.single_le_sum ?_ _ (List.mem_map.2 ⟨s, hs, rfl⟩)
          intro x hx
          rw [List.mem_map] at hx
          obtain ⟨t, ht, rfl⟩ := hx
          exact a3 t ht
        exact (interp_range a1 a2 0 _ _ hsum).1
    refine mul_nonneg (Rat.cast_nonneg.2 (mul_nonneg (hrow k q hq) hmed)) ?_
    split
    · exact zero_le_one
    · exact hdev dv k

/-! ### Where the code disagrees with the property -/

/-- With `AcrossFloors` switched off the calculation never succeeds. -/
theorem C80_separate_floors_refused (eco : Eco) (hf : eco.acrossFloors = false) (params : Params) (missing : List (Str × Str))
    (cols : List DKey) (lossMap : List (Str × Str)) (dvs : List Str) (out : Result F) :
    calculate eco params missing cols lossMap dvs ≠ .ok (some out) := by
  intro h
  obtain ⟨meds, rs, h1, h2, hne, _⟩ := calculate_ok h
  have hempty : ∀ m ∈ meds, m.2 = [] := by
    intro m hm
    obtain ⟨_, _, _, _, hor⟩ := forall₂_mem_right h1 hm
    rcases hor with h | h
    · rw [hf] at h; exact absurd h (by simp)
    · exact h
  unfold allLosses at h2
  have : (meds.flatMap fun d => d.2.flatMap fun c => c.2.2.map fun st => (d.1, c.1, c.2.1, st)) = [] := by
    rw [List.flatMap_eq_nil_iff]
    intro d hd
    rw [hempty d hd]; rfl
  rw [this] at h2
  simp only [mapE, Except.ok.injEq] at h2
  exact hne h2.symm

/-- With `AcrossDamageStates` the calculation fails if some component with damage has a consequence for a
state that did not occur (and so has no column). -/
theorem C80_unrealized_state_refused (eco : Eco) (hst : eco.acrossStates = true) (params : Params)
    (missing : List (Str × Str)) (cols : List DKey) (lossMap : List (Str × Str)) (dvs : List Str) (out : Result F)
    (dv : Str) (hdv : dv ∈ dvs) (cmp loss ds : Str) (hmap : (cmp, loss) ∈ lossMap) (hmis : (loss, dv) ∉ missing)
    (hcmp : ∃ k ∈ cols, k.cmp = cmp) (row : Str → Option DsParam) (hrow : params.rows.get? (loss, dv) = some row)
    (p : DsParam) (hp : row ds = some p) (hds : ds ∈ params.states) (hds0 : ds ≠ str "0")
    (hno : ∀ k ∈ cols, k.cmp = cmp → k.ds ≠ ds) : calculate eco params missing cols lossMap dvs ≠ .ok (some out) := by
  intro h
  obtain ⟨meds, rs, h1, h2, hne, rfl⟩ := calculate_ok h
  obtain ⟨⟨dv', c⟩, hd, rfl, hm, hfl⟩ := forall₂_mem_left h1 hdv
  simp only at hm hfl hdv
  obtain ⟨row', sts, e1, e2, e3⟩ := (medianCmps_spec hm).2.1 cmp loss hmap hmis hcmp
  have hrow' : row' = row := by
    unfold paramRow at e1
    rw [hrow] at e1
    injection e1 with e1
    exact e1.symm
  subst hrow'
  have hin : (ds, p) ∈ sts := by
    rw [(medianStates_spec e2).1]
    refine ⟨hds, hds0, hp, ?_⟩
    unfold stateAvailable
    rw [hst]; simp
  have hcin := e3 (List.ne_nil_of_mem hin)
  unfold allLosses at h2
  rw [mapE_ok_iff] at h2
  obtain ⟨res', hres', hx⟩ := forall₂_mem_left h2 (a := (dv', cmp, loss, (ds, p))) (by
    rw [List.mem_flatMap]
    refine ⟨(dv', c), hd, ?_⟩
    rw [List.mem_flatMap]
    exact ⟨(cmp, loss, sts), hcin, List.mem_map.2 ⟨_, hin, rfl⟩⟩)
  obtain ⟨_, ⟨k, hk, hk1, hk2⟩, _⟩ := stateLosses_ok hx
  exact hno k hk hk1 hk2

/-! ### When the calculation succeeds -/

theorem medianStates_exists {eco : Eco} {cols : List DKey} {row : Str → Option DsParam} {cmp : Str} : ∀ {states : List Str},
    (∃ sts, medianStates eco cols row cmp states = .ok sts) ↔
      ∀ ds ∈ states, ds ≠ str "0" → ∀ p, row ds = some p → familyOk p.family = true := by
  intro states
  induction states with
  | nil => simp [medianStates]
  | cons d states ih =>
    simp only [medianStates]
    by_cases h0 : d = str "0"
    · rw [if_pos h0, ih]
      simp [h0]
    · rw [if_neg h0]
      cases hr : row d with
      | none => simp only; rw [ih]; simp [hr]
      | some p0 =>
        simp only
        by_cases hf : familyOk p0.family = false
        · rw [if_pos hf]
          simp [hr, h0, hf]
        · rw [if_neg hf]
          rw [Bool.not_eq_false] at hf
          have hcons : (∀ ds ∈ d :: states, ds ≠ str "0" → ∀ p, row ds = some p → familyOk p.family = true) ↔
              ∀ ds ∈ states, ds ≠ str "0" → ∀ p, row ds = some p → familyOk p.family = true := by
            simp [hr, hf]
          rw [hcons, ← ih]
          split
          · rfl
          · cases medianStates eco cols row cmp states <;> simp

theorem medianCmps_exists {eco : Eco} {params : Params} {missing : List (Str × Str)} {cols : List DKey} {dv : Str} :
    ∀ {m : List (Str × Str)}, (∀ cmp loss, (cmp, loss) ∈ m → (loss, dv) ∉ missing → (∃ k ∈ cols, k.cmp = cmp) →
      ∃ row sts, paramRow params (loss, dv) = .ok row ∧ medianStates eco cols row cmp params.states = .ok sts) →
    ∃ r, medianCmps eco params missing cols dv m = .ok r := by
  intro m
  induction m with
  | nil => intro _; exact ⟨[], rfl⟩
  | cons a m ih =>
    intro h
    obtain ⟨c, l⟩ := a
    obtain ⟨r, hr⟩ := ih fun cmp loss hin => h cmp loss (List.mem_cons_of_mem _ hin)
    simp only [medianCmps, hr]
    by_cases hm : (l, dv) ∈ missing
    · rw [if_pos hm]; exact ⟨r, rfl⟩
    rw [if_neg hm]
    by_cases hc : (cols.any fun k => decide (k.cmp = c)) = false
    · rw [if_pos hc]; exact ⟨r, rfl⟩
    rw [if_neg hc]
    have hany : ∃ k ∈ cols, k.cmp = c := by
      simp only [Bool.not_eq_false, List.any_eq_true, decide_eq_true_eq] at hc
      exact hc
    obtain ⟨row, sts, h1, h2⟩ := h c l (by simp) hm hany
    rw [h1]
    simp only
    rw [h2]
    exact ⟨_, rfl⟩

theorem familyOk_iff (f : Option Str) : familyOk f = true ↔
    f = none ∨ f = some (str "normal") ∨ f = some (str "lognormal") ∨ f = some (str "deterministic") := by
  cases f with
  | none => simp [familyOk]
  | some f => simp [familyOk]

/-- The consequence parameters fit the damage: every damaged component in the loss map whose consequence is
not listed as missing has parameters; the families are known; the states that occurred are either all random
or all without a family; and with `AcrossDamageStates` all states that have parameters occurred. -/
def Fits (eco : Eco) (params : Params) (missing : List (Str × Str)) (cols : List DKey) (lossMap : List (Str × Str)) (dvs : List Str) : Prop :=
  ∀ dv ∈ dvs, ∀ cmp loss, (cmp, loss) ∈ lossMap → (loss, dv) ∉ missing → (∃ k ∈ cols, k.cmp = cmp) →
    ∃ row, params.rows.get? (loss, dv) = some row ∧
      (∀ ds p, ds ≠ str "0" → row ds = some p →
        p.family = none ∨ p.family = some (str "normal") ∨ p.family = some (str "lognormal") ∨ p.family = some (str "deterministic")) ∧
      (∀ k ∈ cols, ∀ k' ∈ cols, k.cmp = cmp → k'.cmp = cmp → k.ds ≠ str "0" → k'.ds ≠ str "0" →
        ∀ p p', row k.ds = some p → row k'.ds = some p' → p.family = none → p'.family = none) ∧
      (eco.acrossStates = true → ∀ ds p, ds ≠ str "0" → row ds = some p → ∃ k ∈ cols, k.cmp = cmp ∧ k.ds = ds)

/-- C80: the calculation has a result exactly if the groups are across floors, the parameters fit, and some
damaged quantity has a consequence.  (`hwf`: the rows have values in columns of the table only.) -/
theorem C80_succeeds_iff (eco : Eco) (params : Params) (hwf : ∀ key row, params.rows.get? key = some row → ∀ ds, row ds ≠ none → ds ∈ params.states)
    (missing : List (Str × Str)) (cols : List DKey) (lossMap : List (Str × Str)) (dvs : List Str) :
    (∃ out : Result F, calculate eco params missing cols lossMap dvs = .ok (some out)) ↔
      eco.acrossFloors = true ∧ Fits eco params missing cols lossMap dvs ∧
        ∃ dv ∈ dvs, ∃ k ∈ cols, ∃ loss p, Defined params missing lossMap dv loss k p := by
  constructor
  · rintro ⟨out, h⟩
    obtain ⟨meds, rs, h1, h2, hne, hout⟩ := calculate_ok h
    have hex : ∃ dv ∈ dvs, ∃ k ∈ cols, ∃ loss p, Defined params missing lossMap dv loss k p := by
      obtain ⟨r0, hr0⟩ := List.exists_mem_of_ne_nil _ hne
      have hne0 : r0 ≠ [] := by
        have h2' := h2
        unfold allLosses at h2'
        rw [mapE_ok_iff] at h2'
        obtain ⟨x, _, hx⟩ := forall₂_mem_right h2' hr0
        obtain ⟨_, ⟨k, hk, hk1, hk2⟩, _, _, hr⟩ := stateLosses_ok hx
        rw [hr]
        apply List.ne_nil_of_mem
        exact List.mem_map.2 ⟨k, List.mem_filter.2 ⟨hk, by simp [hk1, hk2]⟩, rfl⟩
      obtain ⟨e, he⟩ := List.exists_mem_of_ne_nil _ hne0
      obtain ⟨dv, hdv, k, hk, loss, p, hd, _⟩ := formula eco params missing cols lossMap dvs out h e
        (by rw [hout]; exact List.mem_flatten.2 ⟨r0, hr0, he⟩)
      exact ⟨dv, hdv, k, hk, loss, p, hd⟩
    have hst0 : ∃ ds ∈ params.states, ds ≠ str "0" := by
      obtain ⟨dv, _, k, _, loss, p, _, _, h0, row, hr, hp⟩ := hex
      exact ⟨k.ds, hwf _ _ hr _ (by rw [hp]; simp), h0⟩
    have hfl : eco.acrossFloors = true := by
      by_contra hf
      exact C80_separate_floors_refused eco (by simpa using hf) params missing cols lossMap dvs out h
    refine ⟨hfl, ?_, hex⟩
    intro dv hdv cmp loss hmap hmis hcmp
    obtain ⟨⟨dv', c⟩, hd, rfl, hm, _⟩ := forall₂_mem_left h1 hdv
    simp only at hm hdv hmis
    obtain ⟨row, sts, e1, e2, e3⟩ := (medianCmps_spec hm).2.1 cmp loss hmap hmis hcmp
    have hrow : params.rows.get? (loss, dv') = some row := by
      unfold paramRow at e1
      cases hk : params.rows.get? (loss, dv') with
      | some r => rw [hk] at e1; injection e1 with e1; rw [e1]
      | none => rw [hk] at e1; simp only at e1; rw [if_pos hst0] at e1; exact absurd e1 (by simp)
    have hlosses : ∀ ds p, (ds, p) ∈ sts → ∃ res, stateLosses (F := F) eco params missing cols dv' cmp loss (ds, p) = .ok res := by
      intro ds p hin
      have hcin := e3 (List.ne_nil_of_mem hin)
      have h2' := h2
      unfold allLosses at h2'
      rw [mapE_ok_iff] at h2'
      obtain ⟨res', hres', hx⟩ := forall₂_mem_left h2' (a := (dv', cmp, loss, (ds, p))) (by
        rw [List.mem_flatMap]
        refine ⟨(dv', c), hd, ?_⟩
        rw [List.mem_flatMap]
        exact ⟨(cmp, loss, sts), hcin, List.mem_map.2 ⟨_, hin, rfl⟩⟩)
      exact ⟨res', hx⟩
    refine ⟨row, hrow, ?_, ?_, ?_⟩
    · intro ds p h0 hp
      rw [← familyOk_iff]
      exact medianStates_exists.1 ⟨sts, e2⟩ ds (hwf _ _ hrow _ (by rw [hp]; simp)) h0 p hp
    · intro k hk k' hk' hkc hkc' hk0 hk0' p p' hp hp' hf
      have hin : (k.ds, p) ∈ sts := by
        rw [(medianStates_spec e2).1]
        refine ⟨hwf _ _ hrow _ (by rw [hp]; simp), hk0, hp, ?_⟩
        unfold stateAvailable
        rw [if_pos hfl, Bool.or_eq_true, List.any_eq_true]
        exact Or.inr ⟨k, hk, by simp [hkc]⟩
      obtain ⟨res, hres⟩ := hlosses _ _ hin
      obtain ⟨b, c1, c2, c3, _⟩ := stateLosses_ok hres
      have f1 := hasRV_family (cmp := cmp) hmis hk0 ⟨k, hk, hkc, rfl⟩ hrow hp
      have f2 := hasRV_family (cmp := cmp) hmis hk0' ⟨k', hk', hkc', rfl⟩ hrow hp'
      cases b with
      | true =>
        have := c2 rfl
        simp only at this
        rw [f1, hf] at this
        exact absurd this (by simp)
      | false =>
        have := c3 rfl k' hk' hkc'
        rw [f2] at this
        simpa using this
    · intro hst ds p h0 hp
      by_contra hno
      push Not at hno
      exact C80_unrealized_state_refused eco hst params missing cols lossMap dvs out dv' hdv cmp loss ds hmap hmis hcmp row hrow p hp
        (hwf _ _ hrow _ (by rw [hp]; simp)) h0 hno h
  · rintro ⟨hfl, hfit, dv0, hdv0, k0, hk0, loss0, p0, d1, d2, d3, row0, d4, d5⟩
    have hmc : ∀ dv ∈ dvs, ∃ r, medianCmps eco params missing cols dv lossMap = .ok r := by
      intro dv hdv
      apply medianCmps_exists
      intro cmp loss hmap hmis hcmp
      obtain ⟨row, h1, h2, _⟩ := hfit dv hdv cmp loss hmap hmis hcmp
      obtain ⟨sts, hs⟩ := (medianStates_exists (eco := eco) (cols := cols) (row := row) (cmp := cmp) (states := params.states)).2
        (fun ds _ h0 p hp => (familyOk_iff _).2 (h2 ds p h0 hp))
      exact ⟨row, sts, by unfold paramRow; rw [h1], hs⟩
    have hmed : ∀ dv ∈ dvs, ∃ r, medians eco params missing cols lossMap dv = .ok r := by
      intro dv hdv
      obtain ⟨r, hr⟩ := hmc dv hdv
      unfold medians
      rw [hr]
      cases r with
      | nil => exact ⟨_, rfl⟩
      | cons a r => exact ⟨_, by simp only; rw [if_pos hfl]⟩
    obtain ⟨meds, hmeds⟩ : ∃ meds, allMedians eco params missing cols lossMap dvs = .ok meds := by
      apply mapE_ok_of_forall
      intro dv hdv
      obtain ⟨r, hr⟩ := hmed dv hdv
      exact ⟨(dv, r), by rw [hr]⟩
    have hF : List.Forall₂ (fun dv m => m.1 = dv ∧ medianCmps eco params missing cols dv lossMap = .ok m.2) dvs meds := by
      have hm := hmeds
      unfold allMedians at hm
      rw [mapE_ok_iff] at hm
      refine hm.imp ?_
      intro dv m hx
      cases hmd : medians eco params missing cols lossMap dv with
      | error e => rw [hmd] at hx; exact absurd hx (by simp)
      | ok r =>
        rw [hmd] at hx
        injection hx with hx
        subst hx
        exact ⟨rfl, (medians_ok hmd).1⟩
    obtain ⟨rs, hrs⟩ : ∃ rs, allLosses (F := F) eco params missing cols meds = .ok rs := by
      apply mapE_ok_of_forall
      intro x hx
      rw [List.mem_flatMap] at hx
      obtain ⟨⟨dv, c⟩, hd, hx⟩ := hx
      rw [List.mem_flatMap] at hx
      obtain ⟨⟨cmp, loss, sts⟩, hc, hx⟩ := hx
      rw [List.mem_map] at hx
      obtain ⟨⟨ds, p⟩, hst, rfl⟩ := hx
      obtain ⟨dv', hdv, rfl, hm⟩ := forall₂_mem_right hF hd
      simp only at hm hdv ⊢
      obtain ⟨a1, a2, a3, a4, row, a5, a6⟩ := (medianCmps_spec hm).1 cmp loss sts hc
      obtain ⟨b1, b2, b3, b4⟩ := ((medianStates_spec a6).1 ds p).1 hst
      have hrow : params.rows.get? (loss, dv) = some row := by
        rcases paramRow_spec a5 with h | h
        · exact h
        · rw [h] at b3; exact absurd b3 (by simp)
      obtain ⟨row', g1, _, g3, g4⟩ := hfit dv hdv cmp loss a1 a2 a3
      have hrr : row' = row := by rw [hrow] at g1; injection g1 with g1; exact g1.symm
      subst hrr
      have hcol : ∃ k ∈ cols, k.cmp = cmp ∧ k.ds = ds := by
        unfold stateAvailable at b4
        rw [if_pos hfl, Bool.or_eq_true, List.any_eq_true] at b4
        rcases b4 with h | ⟨k, hk, h⟩
        · exact g4 h ds p b2 b3
        · exact ⟨k, hk, by simpa using h⟩
      unfold stateLosses
      simp only
      have hks : (cols.filter fun k => decide (k.cmp = cmp ∧ k.ds = ds)) ≠ [] := by
        obtain ⟨k, hk, h⟩ := hcol
        exact List.ne_nil_of_mem (List.mem_filter.2 ⟨hk, by simpa using h⟩)
      rw [if_neg hks]
      split
      · rename_i hany
        rw [List.any_eq_true] at hany
        obtain ⟨k', hk', hk''⟩ := hany
        rw [Bool.and_eq_true, decide_eq_true_eq] at hk''
        have hrv : hasRV params missing cols dv cmp loss ds = true := by
          rw [hasRV_family a2 b2 hcol hrow b3]
          obtain ⟨k, hk, hkc, hkd⟩ := hcol
          have h2 := hk''.2
          have hd0 : k'.ds ≠ str "0" := by
            unfold hasRV at h2
            simp only [Bool.and_eq_true, decide_eq_true_eq] at h2
            exact h2.1.1.2
          cases hp' : row' k'.ds with
          | none =>
            unfold hasRV at h2
            rw [hrow] at h2
            simp [hp'] at h2
          | some p' =>
            rw [hasRV_family a2 hd0 ⟨k', hk', hk''.1, rfl⟩ hrow hp'] at h2
            by_contra hn
            have hn' : p.family = none := by simpa using hn
            have := g3 k hk k' hk' hkc hk''.1 (by rw [hkd]; exact b2) hd0 p p' (by rw [hkd]; exact b3) hp' hn'
            rw [this] at h2
            simp at h2
        rw [if_pos hrv]
        exact ⟨_, rfl⟩
      · exact ⟨_, rfl⟩
    have hne : rs ≠ [] := by
      intro hnil
      subst hnil
      obtain ⟨⟨dv', c⟩, hd, rfl, hm⟩ := forall₂_mem_left hF hdv0
      simp only at hm hdv0 d2 d4
      obtain ⟨row', sts, e1, e2, e3⟩ := (medianCmps_spec hm).2.1 k0.cmp loss0 d1 d2 ⟨k0, hk0, rfl⟩
      have hrow : row' = row0 := by
        unfold paramRow at e1
        rw [d4] at e1
        injection e1 with e1
        exact e1.symm
      subst hrow
      have hst : (k0.ds, p0) ∈ sts := by
        rw [(medianStates_spec e2).1]
        refine ⟨hwf _ _ d4 _ (by rw [d5]; simp), d3, d5, ?_⟩
        unfold stateAvailable
        rw [if_pos hfl, Bool.or_eq_true, List.any_eq_true]
        exact Or.inr ⟨k0, hk0, by simp⟩
      have hcin := e3 (List.ne_nil_of_mem hst)
      unfold allLosses at hrs
      rw [mapE_ok_iff] at hrs
      obtain ⟨res', hres', _⟩ := forall₂_mem_left hrs (a := (dv', k0.cmp, loss0, (k0.ds, p0))) (by
        rw [List.mem_flatMap]
        refine ⟨(dv', c), hd, ?_⟩
        rw [List.mem_flatMap]
        exact ⟨(k0.cmp, loss0, sts), hcin, List.mem_map.2 ⟨_, hst, rfl⟩⟩)
      simp at hres'
    refine ⟨rs.flatten, ?_⟩
    unfold calculate
    rw [if_neg (fun h => d3 (h.2 k0 hk0)), hmeds]
    simp only
    rw [hrs]
    cases rs with
    | nil => exact absurd rfl hne
    | cons a rs => rfl

/-- C80: there is no sample exactly if the damage sample has columns and none of them is for damage. -/
theorem C80_no_damage (eco : Eco) (params : Params) (missing : List (Str × Str)) (cols : List DKey) (lossMap : List (Str × Str)) (dvs : List Str) :
    calculate (F := F) eco params missing cols lossMap dvs = .ok none ↔ cols ≠ [] ∧ ∀ k ∈ cols, k.ds = str "0" := by
  unfold calculate
  split
  · rename_i h; exact iff_of_true rfl h
  · rename_i h
    simp only [h, iff_false]
    cases allMedians eco params missing cols lossMap dvs with
    | error e => simp
    | ok meds =>
      simp only
      cases allLosses (F := F) eco params missing cols meds with
      | error e => simp
      | ok rs => cases rs <;> simp

/-- C80: no label occurs twice. -/
theorem C80_distinct (eco : Eco) (params : Params) (hs : params.states.Nodup) (missing : List (Str × Str)) (cols : List DKey) (hc : cols.Nodup)
    (lossMap : List (Str × Str)) (hm : (lossMap.map (·.1)).Nodup) (dvs : List Str) (hdv : dvs.Nodup) (out : Result F)
    (h : calculate eco params missing cols lossMap dvs = .ok (some out)) : (out.map (·.1)).Nodup := by
  obtain ⟨meds, rs, h1, h2, hne, rfl⟩ := calculate_ok h
  clear hne
  unfold allLosses at h2
  rw [mapE_ok_iff] at h2
  -- each result has the labels of its group
  have hkeys : List.Forall₂ (fun (x : Str × Str × Str × (Str × DsParam)) (r : Result F) =>
      (r.map (·.1)).Nodup ∧ ∀ l ∈ r.map (·.1), (l.dv, l.loss, l.dmg, l.ds) = (x.1, x.2.2.1, x.2.1, x.2.2.2.1))
      (meds.flatMap fun d => d.2.flatMap fun c => c.2.2.map fun st => (d.1, c.1, c.2.1, st)) rs := by
    refine h2.imp ?_
    intro x r hx
    obtain ⟨b, _, _, _, rfl⟩ := stateLosses_ok hx
    rw [List.map_map]
    constructor
    · refine List.Nodup.map_on ?_ (hc.filter _)
      intro k hk k' hk' he
      rw [List.mem_filter, decide_eq_true_eq] at hk hk'
      simp only [Function.comp, OutKey.mk.injEq, true_and] at he
      obtain ⟨c1, c2, c3, c4, c5⟩ := k
      obtain ⟨c1', c2', c3', c4', c5'⟩ := k'
      simp only at hk hk' he
      simp [hk.2, hk'.2, he]
    · intro l hl
      rw [List.mem_map] at hl
      obtain ⟨k, _, rfl⟩ := hl
      rfl
  have hnd : ((meds.flatMap fun d => d.2.flatMap fun c => c.2.2.map fun st => (d.1, c.1, c.2.1, st)).map
      fun x => (x.1, x.2.2.1, x.2.1, x.2.2.2.1)).Nodup := by
    have hmeds : (meds.map (·.1)).Nodup := by
      have : dvs.map id = meds.map (·.1) := forall₂_map_eq h1 fun a b hab => hab.1.symm
      rw [← this, List.map_id]; exact hdv
    have hin : ∀ d ∈ meds, ((d.2.flatMap fun c => c.2.2.map fun st => (d.1, c.1, c.2.1, st)).map
        fun x : Str × Str × Str × (Str × DsParam) => (x.1, x.2.2.1, x.2.1, x.2.2.2.1)).Nodup := by
      intro d hd
      obtain ⟨dv', _, _, hmc, _⟩ := forall₂_mem_right h1 hd
      have hcn : (d.2.map (·.1)).Nodup := by
        have := ((medianCmps_spec hmc).2.2.map (·.1)).nodup hm
        rwa [List.map_map] at this
      have hcs : ∀ c ∈ d.2, (c.2.2.map (·.1)).Nodup := by
        intro c hcin
        obtain ⟨_, _, _, _, row, _, a6⟩ := (medianCmps_spec hmc).1 c.1 c.2.1 c.2.2 hcin
        exact (medianStates_spec a6).2.nodup hs
      generalize d.1 = dn
      revert hcn hcs
      generalize d.2 = cs
      clear * -
      intro hcn hcs
      induction cs with
      | nil => simp
      | cons c cs ih =>
        rw [List.map_cons, List.nodup_cons] at hcn
        rw [List.flatMap_cons, List.map_append, List.nodup_append]
        refine ⟨?_, ih hcn.2 fun x hx => hcs x (List.mem_cons_of_mem _ hx), ?_⟩
        · rw [List.map_map]
          have := hcs c (by simp)
          have h' := this.map (f := fun s => (dn, c.2.1, c.1, s)) (by intro a b hab; simpa using hab)
          rwa [List.map_map] at h'
        · intro a ha b hb he
          subst he
          rw [List.map_map, List.mem_map] at ha
          obtain ⟨st, _, rfl⟩ := ha
          rw [List.mem_map] at hb
          obtain ⟨x, hx, he⟩ := hb
          rw [List.mem_flatMap] at hx
          obtain ⟨c', hc', hx⟩ := hx
          rw [List.mem_map] at hx
          obtain ⟨st', _, rfl⟩ := hx
          simp only [Function.comp, Prod.mk.injEq] at he
          exact hcn.1 (he.2.2.1 ▸ List.mem_map.2 ⟨c', hc', rfl⟩)
    clear h1 h2 hkeys h
    induction meds with
    | nil => simp
    | cons d meds ih =>
      rw [List.map_cons, List.nodup_cons] at hmeds
      rw [List.flatMap_cons, List.map_append, List.nodup_append]
      refine ⟨hin d (by simp), ih hmeds.2 fun x hx => hin x (List.mem_cons_of_mem _ hx), ?_⟩
      intro a ha b hb he
      subst he
      have e1 : a.1 = d.1 := by
        rw [List.mem_map] at ha
        obtain ⟨x, hx, rfl⟩ := ha
        rw [List.mem_flatMap] at hx
        obtain ⟨c', hc', hx⟩ := hx
        rw [List.mem_map] at hx
        obtain ⟨st', _, rfl⟩ := hx
        rfl
      have e2 : a.1 ∈ meds.map (·.1) := by
        rw [List.mem_map] at hb
        obtain ⟨x, hx, rfl⟩ := hb
        rw [List.mem_flatMap] at hx
        obtain ⟨d', hd', hx⟩ := hx
        rw [List.mem_flatMap] at hx
        obtain ⟨c', hc', hx⟩ := hx
        rw [List.mem_map] at hx
        obtain ⟨st', _, rfl⟩ := hx
        exact List.mem_map.2 ⟨d', hd', rfl⟩
      exact hmeds.1 (e1 ▸ e2)
  clear h2 h1 h
  revert hnd
  revert hkeys
  generalize (meds.flatMap fun d => d.2.flatMap fun c => c.2.2.map fun st => (d.1, c.1, c.2.1, st)) = xs
  intro hkeys hnd
  induction hkeys with
  | nil => simp
  | @cons x r xs rs h1 h2 ih =>
    rw [List.map_cons, List.nodup_cons] at hnd
    rw [List.flatten_cons, List.map_append, List.nodup_append]
    refine ⟨h1.1, ih hnd.2, ?_⟩
    intro a ha b hb he
    subst he
    have e1 := h1.2 a ha
    rw [List.mem_map] at hb
    obtain ⟨e, he, rfl⟩ := hb
    rw [List.mem_flatten] at he
    obtain ⟨r', hr', he⟩ := he
    obtain ⟨x', hx', h3⟩ := forall₂_mem_right h2 hr'
    have e2 := h3.2 e.1 (List.mem_map.2 ⟨e, he, rfl⟩)
    exact hnd.1 (List.mem_map.2 ⟨x', hx', e2.symm.trans e1⟩)

/-! ### Examples -/

def col (cmp loc ds : String) : DKey := ⟨str cmp, str loc, str "1", str "0", str ds⟩
def exCols : List DKey := [col "A" "1" "0", col "A" "1" "1", col "A" "2" "1", col "A" "1" "2"]
def curve : Theta := .curve [(1, 10), (5, 6)]
def exParams : Params := ⟨[str "1", str "2", str "3"], [((str "A", str "Cost"),
  fun ds => if ds = str "1" then some ⟨curve, none⟩ else if ds = str "2" then some ⟨.const 100, none⟩ else none)]⟩
def exReal : Real ℚ := ⟨fun k => if k.ds = str "0" then some 4 else if k.ds = str "1" then (if k.loc = str "1" then some 1 else some 2) else some 3,
  fun _ _ => 2⟩
def values (r : Except PyErr (Option (Result ℚ))) (x : Real ℚ) : Option (List ((Str × Str) × ℚ)) :=
  r.toOption.bind fun o => o.map fun out => out.map fun e => ((e.1.ds, e.1.loc), e.2 x)

set_option synthInstance.maxSize 4000 in
/-- Three units in the first state on two floors: the unit cost is 8 on both. -/
example : values (calculate ⟨true, false⟩ exParams [] exCols [(str "A", str "A")] [str "Cost"]) exReal =
    some [((str "1", str "1"), 8), ((str "1", str "2"), 16), ((str "2", str "1"), 300)] := by decide +kernel

/-- Each realization has six units in all states: the unit cost is the last one. -/
example : values (calculate ⟨true, true⟩ exParams [] exCols [(str "A", str "A")] [str "Cost"]) exReal =
    some [((str "1", str "1"), 6), ((str "1", str "2"), 12), ((str "2", str "1"), 300)] := by decide +kernel

def errorOf {α : Type} (r : Except PyErr α) : Option PyErr := match r with | .error e => some e | .ok _ => none

example : errorOf (calculate (F := ℚ) ⟨false, false⟩ exParams [] exCols [(str "A", str "A")] [str "Cost"]) = some .valueError := by decide +kernel
example : errorOf (calculate (F := ℚ) ⟨true, true⟩ exParams [] (exCols.take 3) [(str "A", str "A")] [str "Cost"]) = some .keyError := by decide +kernel

def mixedParams : Params := ⟨[str "1", str "2"], [((str "A", str "Cost"),
  fun ds => if ds = str "1" then some ⟨.const 5, some (str "normal")⟩ else if ds = str "2" then some ⟨.const 100, none⟩ else none)]⟩

/-- A component that got into a state with a random consequence and into one with a consequence without a
family stops the calculation. -/
theorem C80_mixed_families_refused (eco : Eco) (params : Params)
    (hwf : ∀ key row, params.rows.get? key = some row → ∀ ds, row ds ≠ none → ds ∈ params.states)
    (missing : List (Str × Str)) (cols : List DKey) (lossMap : List (Str × Str)) (dvs : List Str) (out : Result F)
    (dv : Str) (hdv : dv ∈ dvs) (loss : Str) (k k' : DKey) (hk : k ∈ cols) (hk' : k' ∈ cols) (hcmp : k.cmp = k'.cmp) (p p' : DsParam)
    (h1 : Defined params missing lossMap dv loss k p) (h2 : Defined params missing lossMap dv loss k' p')
    (hf : p.family = none) (hf' : p'.family ≠ none) : calculate eco params missing cols lossMap dvs ≠ .ok (some out) := by
  intro h
  obtain ⟨_, hfit, _⟩ := (C80_succeeds_iff eco params hwf missing cols lossMap dvs).1 ⟨out, h⟩
  obtain ⟨a1, a2, a3, row, a4, a5⟩ := h1
  obtain ⟨b1, b2, b3, row', b4, b5⟩ := h2
  obtain ⟨row'', g1, _, g3, _⟩ := hfit dv hdv k.cmp loss a1 a2 ⟨k, hk, rfl⟩
  rw [a4] at b4 g1
  injection b4 with b4
  injection g1 with g1
  subst b4; subst g1
  exact hf' (g3 k hk k' hk' rfl hcmp.symm a3 b3 p p' a5 b5 hf)

example : errorOf (calculate (F := ℚ) ⟨true, false⟩ mixedParams [] exCols [(str "A", str "A")] [str "Cost"]) = some .keyError ∧
    values (calculate ⟨true, false⟩ mixedParams [] (exCols.take 3) [(str "A", str "A")] [str "Cost"]) exReal =
      some [((str "1", str "1"), 2), ((str "1", str "2"), 4)] := by constructor <;> decide +kernel

/-- A damaged component without parameters for a decision variable that is not listed as missing (because
a loss function gives it) stops the calculation. -/
theorem C80_loss_function_only_refused (eco : Eco) (params : Params)
    (hwf : ∀ key row, params.rows.get? key = some row → ∀ ds, row ds ≠ none → ds ∈ params.states)
    (missing : List (Str × Str)) (cols : List DKey) (lossMap : List (Str × Str)) (dvs : List Str) (out : Result F)
    (dv : Str) (hdv : dv ∈ dvs) (cmp loss : Str) (hmap : (cmp, loss) ∈ lossMap) (hcmp : ∃ k ∈ cols, k.cmp = cmp)
    (hmis : (loss, dv) ∉ missing) (hno : params.rows.get? (loss, dv) = none) :
    calculate eco params missing cols lossMap dvs ≠ .ok (some out) := by
  intro h
  obtain ⟨_, hfit, _⟩ := (C80_succeeds_iff eco params hwf missing cols lossMap dvs).1 ⟨out, h⟩
  obtain ⟨row, g1, _⟩ := hfit dv hdv cmp loss hmap hmis hcmp
  rw [hno] at g1
  exact absurd g1 (by simp)

example : errorOf (calculate (F := ℚ) ⟨true, false⟩ exParams [] exCols [(str "A", str "A")] [str "Cost", str "Time"]) = some .keyError := by
  decide +kernel

end

end Verif.LossDs
