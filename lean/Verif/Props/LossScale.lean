import Verif.Model.LossScale
import Verif.Lemmas.Lists
import Verif.Lemmas.LocDir
import Verif.Props.DmgTasks
import Mathlib.Algebra.BigOperators.Group.List.Basic
import Mathlib.Data.List.Nodup
import Mathlib.Tactic.Ring

/-!
# Property C58: consequence scaling
-/

namespace Verif.LossScale

open LossAgg (LKey Sample DsSample LfSample)

/-! ## Specification -/

/-- Does a `Location` or `Direction` cell cover a value?  An empty cell covers everything, `a--b` the
integers from `a` to `b`, anything else just itself. -/
def CellCovers (cell : Option Str) (x : Str) : Prop :=
  match cell with
  | none => True
  | some s =>
    (hasDash2 s = false ∧ x = s) ∨
    ∃ a b m n i, splitDash2 s = [a, b] ∧ hasDash2 s = true ∧ pyInt? a = some m ∧ pyInt? b = some n ∧
      m ≤ i ∧ i ≤ n ∧ x = intStr i

/-- Does a row of the specification apply to a loss? -/
def Covers (r : Row) (k : LKey) : Prop :=
  r.dv = some k.dv ∧ (r.dmg = none ∨ r.dmg = some k.dmg) ∧ CellCovers r.loc k.loc ∧ CellCovers r.dir k.dir

open Classical in
/-- The product of the factors of the rows that apply to a loss. -/
noncomputable def totalFactor (rows : List Row) (k : LKey) : ℚ :=
  ((rows.filter fun r => decide (Covers r k)).map fun r => r.factor.getD 0).prod

/-- A cell that can be understood. -/
def CellOk (cell : Option Str) : Prop :=
  ∀ s, cell = some s → hasDash2 s = true → ∃ a b, splitDash2 s = [a, b] ∧ (pyInt? a).isSome ∧ (pyInt? b).isSome

/-- Every row of `xs` is multiplied with the factor of its column. -/
def ScaledBy {κ : Type} (key : κ → LKey) (f : LKey → ℚ) (s s' : Sample κ) : Prop :=
  s'.cols = s.cols ∧ List.Forall₂ (fun row row' => ∀ k, row' k = row k * f (key k)) s.rows s'.rows

/-! ## Expanding -/

theorem expandRange_ok {cell : Option Str} {ls : List (Option Str)} (h : expandRange cell = .ok ls) (x : Str) :
    (CellCovers cell x → ∃ l, ls.filter (levelIs · x) = [l]) ∧ (¬ CellCovers cell x → ls.filter (levelIs · x) = []) := by
  cases cell with
  | none =>
    simp only [expandRange, Except.ok.injEq] at h
    subst h
    exact ⟨fun _ => ⟨none, rfl⟩, fun h => absurd trivial h⟩
  | some s =>
    simp only [expandRange] at h
    by_cases hd : hasDash2 s = true
    · rw [if_pos hd] at h
      match hs : splitDash2 s with
      | [] => rw [hs] at h; exact absurd h (by simp)
      | [_] => rw [hs] at h; exact absurd h (by simp)
      | _ :: _ :: _ :: _ => rw [hs] at h; exact absurd h (by simp)
      | [a, b] =>
        rw [hs] at h
        simp only at h
        cases ha : pyInt? a with
        | none => rw [ha] at h; exact absurd h (by simp)
        | some m =>
        cases hb : pyInt? b with
        | none => rw [ha, hb] at h; exact absurd h (by simp)
        | some n =>
        rw [ha, hb] at h
        simp only [Except.ok.injEq] at h
        have hinj : Function.Injective intStr := by
          intro i j hij
          have := pyInt?_intStr i
          rw [hij, pyInt?_intStr] at this
          injection this with this
          exact this.symm
        have hcov : CellCovers (some s) x ↔ ∃ i, i ∈ arange m (n + 1) ∧ x = intStr i := by
          unfold CellCovers
          constructor
          · rintro (⟨h1, _⟩ | ⟨a', b', m', n', i, e1, _, e2, e3, e4, e5, e6⟩)
            · rw [h1] at hd; exact absurd hd (by simp)
            · rw [hs] at e1
              simp only [List.cons.injEq, and_true] at e1
              obtain ⟨rfl, rfl⟩ := e1
              rw [ha] at e2; rw [hb] at e3
              injection e2 with e2; injection e3 with e3
              subst e2; subst e3
              exact ⟨i, mem_arange.2 ⟨e4, by omega⟩, e6⟩
          · rintro ⟨i, hi, hx⟩
            rw [mem_arange] at hi
            exact Or.inr ⟨a, b, m, n, i, hs, hd, ha, hb, hi.1, by omega, hx⟩
        have hfil : ls.filter (levelIs · x) = ((arange m (n + 1)).filter fun i => decide (x = intStr i)).map fun i => some (intStr i) := by
          rw [← h, List.filter_map]
          rfl
        rw [hfil, hcov]
        constructor
        · rintro ⟨i, hi, rfl⟩
          have hnd : (arange m (n + 1)).Nodup := (arange_sorted m (n + 1)).imp fun h => ne_of_lt h
          refine ⟨some (intStr i), ?_⟩
          have : (arange m (n + 1)).filter (fun j => decide (intStr i = intStr j)) = [i] := by
            have e : (arange m (n + 1)).filter (fun j => decide (intStr i = intStr j)) =
                (arange m (n + 1)).filter (fun j => decide (j = i)) := by
              apply List.filter_congr
              intro j _
              by_cases hj : j = i
              · subst hj; simp
              · have : intStr i ≠ intStr j := fun e => hj (hinj e).symm
                simp [hj, this]
            rw [e]
            have := hnd.filter (fun j => decide (j = i))
            have hm : ∀ j ∈ (arange m (n + 1)).filter (fun j => decide (j = i)), j = i := by
              intro j hj; simpa using (List.mem_filter.1 hj).2
            have hin : i ∈ (arange m (n + 1)).filter (fun j => decide (j = i)) := by
              rw [List.mem_filter]; exact ⟨hi, by simp⟩
            generalize (arange m (n + 1)).filter (fun j => decide (j = i)) = L at *
            match L with
            | [] => simp at hin
            | [y] => rw [hm y (by simp)]
            | y :: z :: L =>
              rw [List.nodup_cons] at this
              exact absurd (by rw [hm y (by simp), hm z (by simp)]; simp) this.1
          rw [this]; rfl
        · intro hn
          rw [List.map_eq_nil_iff, List.filter_eq_nil_iff]
          intro i hi he
          exact hn ⟨i, hi, by simpa using he⟩
    · rw [if_neg hd] at h
      simp only [Except.ok.injEq] at h
      subst h
      have hf : hasDash2 s = false := by simpa using hd
      have hcov : CellCovers (some s) x ↔ x = s := by
        unfold CellCovers
        constructor
        · rintro (⟨_, h⟩ | ⟨_, _, _, _, _, _, e, _⟩)
          · exact h
          · rw [hf] at e; exact absurd e (by simp)
        · intro h; exact Or.inl ⟨hf, h⟩
      rw [hcov]
      constructor
      · rintro rfl; exact ⟨some x, by simp [levelIs]⟩
      · intro hn; simp [levelIs, hn]

theorem expandRange_error_iff (cell : Option Str) :
    (∃ e, expandRange cell = .error e) ↔ ¬ CellOk cell := by
  cases cell with
  | none => simp [expandRange, CellOk]
  | some s =>
    simp only [expandRange, CellOk]
    by_cases hd : hasDash2 s = true
    · rw [if_pos hd]
      match hs : splitDash2 s with
      | [] => simp [hd, hs]
      | [_] => simp [hd, hs]
      | _ :: _ :: _ :: _ => simp [hd, hs]
      | [a, b] =>
        simp only
        cases ha : pyInt? a with
        | none => simp [hd, hs, ha]
        | some m =>
          cases hb : pyInt? b with
          | none => simp [hd, hs, ha, hb]
          | some n => simp [hd, hs, ha, hb]
    · rw [if_neg hd]
      simp [hd]

theorem expandRange_error {cell : Option Str} {e : PyErr} (h : expandRange cell = .error e) : e = .valueError := by
  unfold expandRange at h
  repeat' split at h
  all_goals first | (injection h with h; exact h.symm) | exact absurd h (by simp)

theorem expandRow_error {r : Row} {e : PyErr} (h : expandRow r = .error e) : e = .valueError := by
  unfold expandRow at h
  cases hl : expandRange r.loc with
  | error e' => rw [hl] at h; injection h with h; rw [← h]; exact expandRange_error hl
  | ok ls =>
    rw [hl] at h
    simp only at h
    cases hd : expandRange r.dir with
    | error e' => rw [hd] at h; injection h with h; rw [← h]; exact expandRange_error hd
    | ok ds => rw [hd] at h; exact absurd h (by simp)

theorem expandRow_error_iff (r : Row) : (∃ e, expandRow r = .error e) ↔ ¬ (CellOk r.loc ∧ CellOk r.dir) := by
  have h1 := expandRange_error_iff r.loc
  have h2 := expandRange_error_iff r.dir
  unfold expandRow
  cases hl : expandRange r.loc with
  | error e =>
    have := h1.1 ⟨e, hl⟩
    simp [this]
  | ok ls =>
    have hok : CellOk r.loc := by
      by_contra hc
      obtain ⟨e, he⟩ := h1.2 hc
      rw [hl] at he; exact absurd he (by simp)
    simp only
    cases hd : expandRange r.dir with
    | error e =>
      have := h2.1 ⟨e, hd⟩
      simp [this]
    | ok ds =>
      have hok2 : CellOk r.dir := by
        by_contra hc
        obtain ⟨e, he⟩ := h2.2 hc
        rw [hd] at he; exact absurd he (by simp)
      simp [hok, hok2]

/-- Product of the factors of the steps that change a column. -/
def stepsFactor (steps : List Step) (k : LKey) : ℚ := ((steps.filter (mask · k)).map (·.factor)).prod

open Classical in
theorem expandRow_factor {r : Row} {steps : List Step} (h : expandRow r = .ok steps) (hdv : r.dv ≠ none) (k : LKey) :
    stepsFactor steps k = if Covers r k then r.factor.getD 0 else 1 := by
  unfold expandRow at h
  cases hl : expandRange r.loc with
  | error e' => rw [hl] at h; exact absurd h (by simp)
  | ok ls =>
  rw [hl] at h
  simp only at h
  cases hd : expandRange r.dir with
  | error e' => rw [hd] at h; exact absurd h (by simp)
  | ok ds =>
  rw [hd] at h
  simp only [Except.ok.injEq] at h
  obtain ⟨dv, hdv'⟩ := Option.ne_none_iff_exists'.1 hdv
  have hdmg : (levelIs r.dmg k.dmg = true) ↔ (r.dmg = none ∨ r.dmg = some k.dmg) := by
    cases r.dmg with
    | none => simp [levelIs]
    | some s => simp [levelIs, eq_comm]
  have hfil : steps.filter (mask · k) = (ls.filter (levelIs · k.loc)).flatMap fun l =>
      if dv = k.dv ∧ levelIs r.dmg k.dmg = true then
        (ds.filter (levelIs · k.dir)).map fun d => ⟨dv, r.dmg, l, d, r.factor.getD 0⟩ else [] := by
    rw [← h, hdv']
    simp only [Option.getD_some]
    clear h hl hd
    induction ls with
    | nil => rfl
    | cons l ls ih =>
      rw [List.flatMap_cons, List.filter_append, ih]
      have e : (ds.map fun d => (⟨dv, r.dmg, l, d, r.factor.getD 0⟩ : Step)).filter (mask · k) =
          if levelIs l k.loc = true then (if dv = k.dv ∧ levelIs r.dmg k.dmg = true then
            (ds.filter (levelIs · k.dir)).map fun d => ⟨dv, r.dmg, l, d, r.factor.getD 0⟩ else []) else [] := by
        rw [List.filter_map]
        by_cases h1 : levelIs l k.loc = true
        · rw [if_pos h1]
          by_cases h2 : dv = k.dv ∧ levelIs r.dmg k.dmg = true
          · rw [if_pos h2]
            congr 1
            apply List.filter_congr
            intro d _
            simp [mask, h1, h2.2, h2.1]
          · rw [if_neg h2, List.map_eq_nil_iff, List.filter_eq_nil_iff]
            intro d _ hm
            simp only [Function.comp, mask, Bool.and_eq_true, decide_eq_true_eq] at hm
            exact h2 ⟨hm.1.1.1.symm, hm.1.1.2⟩
        · rw [if_neg h1, List.map_eq_nil_iff, List.filter_eq_nil_iff]
          intro d _ hm
          simp only [Function.comp, mask, Bool.and_eq_true, decide_eq_true_eq] at hm
          exact h1 hm.1.2
      rw [e]
      by_cases h1 : levelIs l k.loc = true
      · rw [if_pos h1, List.filter_cons_of_pos (by simpa using h1), List.flatMap_cons]
      · rw [if_neg h1, List.filter_cons_of_neg (by simpa using h1)]; rfl
  unfold stepsFactor
  rw [hfil]
  obtain ⟨l1, l2⟩ := expandRange_ok hl k.loc
  obtain ⟨d1, d2⟩ := expandRange_ok hd k.dir
  unfold Covers
  rw [hdv', ← hdmg]
  by_cases hcl : CellCovers r.loc k.loc
  · obtain ⟨l, hl'⟩ := l1 hcl
    rw [hl', List.flatMap_cons, List.flatMap_nil, List.append_nil]
    by_cases hcd : CellCovers r.dir k.dir
    · obtain ⟨d, hd'⟩ := d1 hcd
      rw [hd']
      by_cases hx : dv = k.dv ∧ levelIs r.dmg k.dmg = true
      · rw [if_pos hx, if_pos ⟨by rw [hx.1], hx.2, hcl, hcd⟩]; simp
      · rw [if_neg hx, if_neg]
        · rfl
        · rintro ⟨e1, e2, _⟩; injection e1 with e1; exact hx ⟨e1, e2⟩
    · rw [d2 hcd, if_neg (c := some dv = some k.dv ∧ _) (fun h => hcd h.2.2.2)]
      split <;> rfl
  · rw [l2 hcl, if_neg (fun h => hcl h.2.2.1)]
    rfl

/-! ## Applying the steps -/

theorem scaledBy_trans {κ : Type} {key : κ → LKey} {f g : LKey → ℚ} {s s' s'' : Sample κ}
    (h1 : ScaledBy key f s s') (h2 : ScaledBy key g s' s'') : ScaledBy key (fun k => f k * g k) s s'' := by
  refine ⟨h2.1.trans h1.1, ?_⟩
  refine (DmgTasks.forall₂_trans h1.2 h2.2).imp ?_
  rintro a c ⟨b, hab, hbc⟩ k
  rw [hbc, hab]; ring

theorem multiply_scaled {κ : Type} (key : κ → LKey) (t : Step) (s : Sample κ) :
    ScaledBy key (fun k => stepsFactor [t] k) s (multiply key t s) := by
  refine ⟨rfl, ?_⟩
  unfold multiply
  simp only
  rw [List.forall₂_map_right_iff, List.forall₂_same]
  intro row _ k
  show (if mask t (key k) then row k * t.factor else row k) = _
  by_cases h : mask t (key k) = true
  · rw [if_pos h]; simp [stepsFactor, h]
  · rw [if_neg h]; simp [stepsFactor, h]

theorem stepsFactor_cons (t : Step) (l : List Step) (k : LKey) : stepsFactor (t :: l) k = stepsFactor [t] k * stepsFactor l k := by
  unfold stepsFactor
  rw [← List.prod_append, ← List.map_append, ← List.filter_append]
  rfl

theorem stepsFactor_append (l l' : List Step) (k : LKey) : stepsFactor (l ++ l') k = stepsFactor l k * stepsFactor l' k := by
  unfold stepsFactor
  rw [List.filter_append, List.map_append, List.prod_append]

theorem scaledBy_refl {κ : Type} (key : κ → LKey) (s : Sample κ) : ScaledBy key (fun _ => 1) s s :=
  ⟨rfl, by rw [List.forall₂_same]; intro row _ k; ring⟩

theorem fold_scaled : ∀ (l : List Step) (m : Samples),
    ((l.foldl (fun m t => applyStep t m) m).1.isSome = m.1.isSome) ∧
    ((l.foldl (fun m t => applyStep t m) m).2.isSome = m.2.isSome) ∧
    (∀ s s', m.1 = some s → (l.foldl (fun m t => applyStep t m) m).1 = some s' → ScaledBy Prod.fst (stepsFactor l) s s') ∧
    (∀ s s', m.2 = some s → (l.foldl (fun m t => applyStep t m) m).2 = some s' → ScaledBy id (stepsFactor l) s s') := by
  intro l
  induction l with
  | nil =>
    intro m
    refine ⟨rfl, rfl, ?_, ?_⟩
    · intro s s' h h'
      rw [List.foldl_nil, h] at h'
      injection h' with h'
      subst h'
      exact scaledBy_refl Prod.fst s
    · intro s s' h h'
      rw [List.foldl_nil, h] at h'
      injection h' with h'
      subst h'
      exact scaledBy_refl id s
  | cons t l ih =>
    intro m
    rw [List.foldl_cons]
    obtain ⟨i1, i2, i3, i4⟩ := ih (applyStep t m)
    have hf : stepsFactor (t :: l) = fun k => stepsFactor [t] k * stepsFactor l k := by
      funext k; exact stepsFactor_cons t l k
    refine ⟨?_, ?_, ?_, ?_⟩
    · rw [i1]; simp [applyStep]
    · rw [i2]; simp [applyStep]
    · intro s s' h h'
      rw [hf]
      exact scaledBy_trans (multiply_scaled Prod.fst t s) (i3 _ s' (by simp [applyStep, h]) h')
    · intro s s' h h'
      rw [hf]
      exact scaledBy_trans (multiply_scaled id t s) (i4 _ s' (by simp [applyStep, h]) h')

/-! ## C58 -/

/-- The conditions for a specification to be accepted. -/
def Acceptable (spec : Table) : Prop :=
  spec.hasDv = true ∧ spec.hasFactor = true ∧ spec.rows ≠ [] ∧
    ∀ r ∈ spec.rows, r.dv ≠ none ∧ r.factor ≠ none ∧ CellOk r.loc ∧ CellOk r.dir

theorem steps_factor {rows : List Row} {steps : List (List Step)} (h : mapE expandRow rows = .ok steps)
    (hdv : ∀ r ∈ rows, r.dv ≠ none) (k : LKey) : stepsFactor steps.flatten k = totalFactor rows k := by
  classical
  rw [mapE_ok_iff] at h
  induction h with
  | nil => rfl
  | cons h1 _ ih =>
    rename_i r st rows steps _
    rw [List.flatten_cons, stepsFactor_append, ih fun r hr => hdv r (List.mem_cons_of_mem _ hr),
      expandRow_factor h1 (hdv r (by simp))]
    unfold totalFactor
    by_cases hc : Covers r k
    · rw [if_pos hc, List.filter_cons_of_pos (by simpa using hc), List.map_cons, List.prod_cons]
    · rw [if_neg hc, List.filter_cons_of_neg (by simpa using hc), one_mul]

theorem scaling_cases (spec : Table) (m : Samples) :
    (¬ Acceptable spec ∧ consequenceScaling spec m = (m, some .valueError)) ∨
    (Acceptable spec ∧ ∃ steps, mapE expandRow spec.rows = .ok steps ∧
      consequenceScaling spec m = (steps.flatten.foldl (fun m t => applyStep t m) m, none)) := by
  unfold consequenceScaling
  by_cases h1 : spec.hasDv = false ∨ ∃ r ∈ spec.rows, r.dv = none
  · left
    rw [if_pos h1]
    refine ⟨?_, rfl⟩
    rintro ⟨a1, _, _, a4⟩
    rcases h1 with h | ⟨r, hr, h⟩
    · rw [h] at a1; exact absurd a1 (by simp)
    · exact (a4 r hr).1 h
  rw [if_neg h1]
  push Not at h1
  by_cases h2 : spec.hasFactor = false ∨ ∃ r ∈ spec.rows, r.factor = none
  · left
    rw [if_pos h2]
    refine ⟨?_, rfl⟩
    rintro ⟨_, a2, _, a4⟩
    rcases h2 with h | ⟨r, hr, h⟩
    · rw [h] at a2; exact absurd a2 (by simp)
    · exact (a4 r hr).2.1 h
  rw [if_neg h2]
  push Not at h2
  cases hm : mapE expandRow spec.rows with
  | error e =>
    left
    obtain ⟨r, hr, he⟩ := mapE_error hm
    refine ⟨?_, by rw [expandRow_error he]⟩
    rintro ⟨_, _, _, a4⟩
    exact (expandRow_error_iff r).1 ⟨e, he⟩ (a4 r hr).2.2
  | ok steps =>
    cases steps with
    | nil =>
      left
      refine ⟨?_, rfl⟩
      rintro ⟨_, _, a3, _⟩
      have := mapE_length hm
      exact a3 (List.length_eq_zero_iff.1 (by simpa using this.symm))
    | cons st sts =>
      right
      refine ⟨⟨by simpa using h1.1, by simpa using h2.1, ?_, ?_⟩, st :: sts, rfl, rfl⟩
      · intro h0
        rw [h0] at hm
        simp [mapE] at hm
      · intro r hr
        refine ⟨h1.2 r hr, h2.2 r hr, ?_⟩
        by_contra hc
        obtain ⟨e, he⟩ := (expandRow_error_iff r).2 hc
        rw [mapE_ok_iff] at hm
        obtain ⟨st', _, h'⟩ := forall₂_mem_left hm hr
        rw [he] at h'; exact absurd h' (by simp)

/-- C58: an accepted specification multiplies each loss with the product of the factors of the rows that
apply to it — in the sample of the damage state model and in that of the loss function model — and
changes nothing else. -/
theorem C58_product (spec : Table) (m m' : Samples) (h : consequenceScaling spec m = (m', none)) :
    (m'.1.isSome = m.1.isSome ∧ m'.2.isSome = m.2.isSome) ∧
    (∀ s s', m.1 = some s → m'.1 = some s' → ScaledBy Prod.fst (totalFactor spec.rows) s s') ∧
    (∀ s s', m.2 = some s → m'.2 = some s' → ScaledBy id (totalFactor spec.rows) s s') := by
  rcases scaling_cases spec m with ⟨_, h2⟩ | ⟨h1, steps, h2, h3⟩
  · rw [h2] at h
    simp at h
  · rw [h3] at h
    simp only [Prod.mk.injEq, and_true] at h
    obtain ⟨f1, f2, f3, f4⟩ := fold_scaled steps.flatten m
    have e : stepsFactor steps.flatten = totalFactor spec.rows := by
      funext k; exact steps_factor h2 (fun r hr => (h1.2.2.2 r hr).1) k
    rw [h, e] at f3 f4
    rw [h] at f1 f2
    exact ⟨⟨f1, f2⟩, f3, f4⟩

/-- C58: what is accepted; everything else is refused with a `ValueError` before any loss is changed. -/
theorem C58_refused_unchanged (spec : Table) (m : Samples) :
    ((consequenceScaling spec m).2 = none ↔ Acceptable spec) ∧
    ((consequenceScaling spec m).2 ≠ none → consequenceScaling spec m = (m, some .valueError)) := by
  rcases scaling_cases spec m with ⟨h1, h2⟩ | ⟨h1, steps, h2, h3⟩
  · rw [h2]; simp [h1]
  · rw [h3]; simp [h1]

theorem scaledBy_unique {κ : Type} {key : κ → LKey} {f : LKey → ℚ} {s s1 s2 : Sample κ}
    (h1 : ScaledBy key f s s1) (h2 : ScaledBy key f s s2) : s1 = s2 := by
  obtain ⟨c1, r1⟩ := s1
  obtain ⟨c2, r2⟩ := s2
  obtain ⟨e1, f1⟩ := h1
  obtain ⟨e2, f2⟩ := h2
  simp only at e1 e2 f1 f2
  have hr : r1 = r2 := by
    obtain ⟨c, r⟩ := s
    simp only at f1 f2
    clear e1 e2
    induction f1 generalizing r2 with
    | nil => cases f2; rfl
    | cons h _ ih =>
      cases f2 with
      | cons h' f2 =>
        rw [ih _ f2]
        congr 1
        funext k
        rw [h, h']
  rw [e1, e2, hr]

/-- C58: the order of the rows does not matter. -/
theorem C58_order_irrelevant (spec spec' : Table) (hp : spec.rows.Perm spec'.rows) (hd : spec.hasDv = spec'.hasDv)
    (hf : spec.hasFactor = spec'.hasFactor) (m : Samples) : consequenceScaling spec m = consequenceScaling spec' m := by
  classical
  have hacc : Acceptable spec ↔ Acceptable spec' := by
    unfold Acceptable
    rw [hd, hf]
    have hnil : spec.rows ≠ [] ↔ spec'.rows ≠ [] := by
      constructor
      · intro h h'; rw [h'] at hp; exact h hp.eq_nil
      · intro h h'; rw [h'] at hp; exact h hp.symm.eq_nil
    rw [hnil]
    simp only [hp.mem_iff]
  have htot : totalFactor spec.rows = totalFactor spec'.rows := by
    funext k
    unfold totalFactor
    exact ((hp.filter _).map _).prod_eq
  rcases scaling_cases spec m with ⟨h1, h2⟩ | ⟨h1, steps, h2, h3⟩
  · rcases scaling_cases spec' m with ⟨_, h2'⟩ | ⟨h1', _⟩
    · rw [h2, h2']
    · exact absurd (hacc.2 h1') h1
  · rcases scaling_cases spec' m with ⟨h1', _⟩ | ⟨h1', steps', h2', h3'⟩
    · exact absurd (hacc.1 h1) h1'
    · obtain ⟨⟨a1, a2⟩, a3, a4⟩ := C58_product spec m _ h3
      obtain ⟨⟨b1, b2⟩, b3, b4⟩ := C58_product spec' m _ h3'
      rw [h3, h3']
      rw [← htot] at b3 b4
      generalize steps.flatten.foldl (fun m t => applyStep t m) m = x at *
      generalize steps'.flatten.foldl (fun m t => applyStep t m) m = y at *
      obtain ⟨x1, x2⟩ := x
      obtain ⟨y1, y2⟩ := y
      simp only at a1 a2 a3 a4 b1 b2 b3 b4
      have e1 : x1 = y1 := by
        cases hm : m.1 with
        | none => rw [hm] at a1 b1; cases x1 <;> cases y1 <;> simp at a1 b1 ⊢
        | some s =>
          rw [hm] at a1 b1
          cases x1 with
          | none => simp at a1
          | some x1 => cases y1 with
            | none => simp at b1
            | some y1 => rw [scaledBy_unique (a3 s x1 hm rfl) (b3 s y1 hm rfl)]
      have e2 : x2 = y2 := by
        cases hm : m.2 with
        | none => rw [hm] at a2 b2; cases x2 <;> cases y2 <;> simp at a2 b2 ⊢
        | some s =>
          rw [hm] at a2 b2
          cases x2 with
          | none => simp at a2
          | some x2 => cases y2 with
            | none => simp at b2
            | some y2 => rw [scaledBy_unique (a4 s x2 hm rfl) (b4 s y2 hm rfl)]
      rw [e1, e2]

theorem hasDash2_iff (s : Str) : hasDash2 s = true ↔ ∃ a b, s = a ++ str "--" ++ b := by
  constructor
  · intro h
    induction s with
    | nil => simp [hasDash2] at h
    | cons x xs ih =>
      by_cases hx : ∃ ys, x = '-' ∧ xs = '-' :: ys
      · obtain ⟨ys, rfl, rfl⟩ := hx
        exact ⟨[], ys, rfl⟩
      · rw [hasDash2_cons (fun ys hy => hx ⟨ys, hy⟩)] at h
        obtain ⟨a, b, e⟩ := ih h
        exact ⟨x :: a, b, by rw [e]; rfl⟩
  · rintro ⟨a, b, rfl⟩
    rw [List.append_assoc]
    exact hasDash2_append a b

/-- C58, how `Location` and `Direction` cells are read: the text of two integers with `--` between them covers
the integers from the first to the second, any text without `--` just itself, and an empty cell everything. -/
theorem C58_cells (x : Str) :
    (∀ m n : Int, CellCovers (some (intStr m ++ str "--" ++ intStr n)) x ↔ ∃ i, m ≤ i ∧ i ≤ n ∧ x = intStr i) ∧
    (∀ s, (¬ ∃ a b, s = a ++ str "--" ++ b) → (CellCovers (some s) x ↔ x = s)) ∧
    CellCovers none x := by
  refine ⟨?_, ?_, trivial⟩
  · intro m n
    have e : intStr m ++ str "--" ++ intStr n = intStr m ++ '-' :: '-' :: intStr n := by
      rw [List.append_assoc]; rfl
    have hs : splitDash2 (intStr m ++ str "--" ++ intStr n) = [intStr m, intStr n] := by
      rw [e]; exact splitDash2_two (intStr_hasDash2 m) (intStr_getLast m) (intStr_hasDash2 n)
    have hd : hasDash2 (intStr m ++ str "--" ++ intStr n) = true := by rw [e]; exact hasDash2_append _ _
    simp only [CellCovers, hd, hs]
    constructor
    · rintro (⟨h, _⟩ | ⟨a, b, m', n', i, h1, _, h2, h3, h4, h5, h6⟩)
      · cases h
      · cases h1
        rw [pyInt?_intStr] at h2 h3
        cases h2; cases h3
        exact ⟨i, h4, h5, h6⟩
    · rintro ⟨i, h4, h5, h6⟩
      exact .inr ⟨_, _, m, n, i, rfl, trivial, pyInt?_intStr m, pyInt?_intStr n, h4, h5, h6⟩
  · intro s hs
    rw [← hasDash2_iff, Bool.not_eq_true] at hs
    simp [CellCovers, hs]

/-- A range that is written backwards covers nothing: the row is accepted and has no effect. -/
theorem C58_backward_range_ignored (r : Row) (a b : Str) (m n : Int) (s : Str) (hs : r.loc = some s)
    (hd : hasDash2 s = true) (hsp : splitDash2 s = [a, b]) (ha : pyInt? a = some m) (hb : pyInt? b = some n) (hlt : n < m)
    (k : LKey) : CellOk r.loc ∧ ¬ Covers r k := by
  constructor
  · intro s' hs' _
    rw [hs] at hs'
    injection hs' with hs'
    subst hs'
    exact ⟨a, b, hsp, by simp [ha], by simp [hb]⟩
  · rintro ⟨_, _, hc, _⟩
    rw [hs] at hc
    rcases hc with ⟨h, _⟩ | ⟨a', b', m', n', i, e1, _, e2, e3, e4, e5, _⟩
    · rw [hd] at h; exact absurd h (by simp)
    · rw [hsp] at e1
      simp only [List.cons.injEq, and_true] at e1
      obtain ⟨rfl, rfl⟩ := e1
      rw [ha] at e2; rw [hb] at e3
      injection e2 with e2; injection e3 with e3
      omega

/-! ### Examples -/

def exSpec : Table := ⟨true, true,
  [⟨some (str "Cost"), none, none, none, some 2⟩,
   ⟨some (str "Cost"), some (str "A"), some (str "1--3"), some (str "1--2"), some 3⟩,
   ⟨some (str "Time"), none, none, none, some 7⟩]⟩
def exLf : LfSample := ⟨[], [fun k => if k.dmg = str "A" then 10 else 1]⟩
def kA (loc : String) : LKey := ⟨str "Cost", str "A", str "A", str loc, str "2", str "0"⟩
def kB : LKey := ⟨str "Cost", str "B", str "B", str "2", str "2", str "0"⟩

example : (consequenceScaling exSpec (none, some exLf)).1.2.map (fun s => s.rows.map fun row => [row (kA "2"), row (kA "4"), row kB])
    = some [[60, 20, 2]] := by decide +kernel
example : (consequenceScaling exSpec (none, some exLf)).2 = none := by decide +kernel
example : (consequenceScaling ⟨true, true, [⟨some (str "Cost"), none, some (str "1--x"), none, some 2⟩]⟩ (none, none)).2 =
    some .valueError := by decide +kernel
example : hasDash2 (str "3--1") = true ∧ splitDash2 (str "3--1") = [str "3", str "1"] ∧ pyInt? (str "3") = some 3 ∧
    pyInt? (str "1") = some 1 := by decide +kernel

end Verif.LossScale
