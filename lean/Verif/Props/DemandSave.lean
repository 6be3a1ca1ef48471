import Verif.Model.DemandSave
import Verif.Props.ParamUnits
import Verif.Props.FileIO
import Verif.Lemmas.PySort
import Verif.Lemmas.Lists

/-!
# C96: a demand model that is saved and loaded has the same distributions
-/

namespace Verif.DemandSave

open DmgParams (Cell)
open ParamUnits (Group finite parseTheta limitOf rescale familyOf UnitFactor renderTheta)
open FileIO (Label labelLe rowsOf)
open Verif.UQ (Entry)

/-! ## Specification -/

/-- The columns of a distribution with numbers. -/
def dist (family : Option Cell) (t0 t1 lower upper : Option ℚ) : Group :=
  ⟨family, t0.map .num, t1.map .num, none, lower.map .num, upper.map .num⟩

/-- The distributions that demand models have: data, two parameters, or a fixed value. -/
inductive Ordinary : Group → Prop
  | data (g : Group) (h : g.family = some (.text (str "empirical"))) : Ordinary g
  | two (name : Str) (h : name ∈ [str "normal", str "normal_std", str "normal_cov", str "lognormal", str "uniform"])
      (t0 t1 lower upper : Option ℚ) : Ordinary (dist (some (.text name)) t0 t1 lower upper)
  | fixed (family : Option Cell) (h : family = none ∨ family = some (.text (str "deterministic"))) (t0 lower upper : Option ℚ) :
      Ordinary (dist family t0 none lower upper)

/-- Labels of demands: type, location and direction, without dashes. -/
def Plain (l : Label) : Prop := l.length = 3 ∧ ∀ x ∈ l, '-' ∉ x

/-! ## Lemmas -/

theorem insertSorted_map {α β : Type} {le : α → α → Bool} {le' : β → β → Bool} {f : α → β} (h : ∀ a b, le' (f a) (f b) = le a b)
    (a : α) (l : List α) : insertSorted le' (f a) (l.map f) = (insertSorted le a l).map f := by
  induction l with
  | nil => rfl
  | cons b l ih =>
    simp only [List.map_cons, insertSorted, h]
    split
    · rfl
    · rw [ih]; rfl

theorem pySort_map {α β : Type} {le : α → α → Bool} {le' : β → β → Bool} {f : α → β} (h : ∀ a b, le' (f a) (f b) = le a b)
    (l : List α) : pySort le' (l.map f) = (pySort le l).map f := by
  induction l with
  | nil => rfl
  | cons b l ih => simp only [List.map_cons, pySort, ih, insertSorted_map h]

/-- The second parameter after scaling. -/
def second (c : ℚ) (t1 : Option ℚ) : UQ.Mode → Option ℚ
  | .scaleBoth => t1.map (· * c)
  | .scaleKeep => t1
  | .scaleOnly => none

theorem parse_num (t : Option ℚ) : parseTheta (t.map Cell.num) = .ok ((match t with | none => Entry.nan | some q => .num q), none) := by
  cases t <;> rfl

theorem limit_num (t : Option ℚ) : limitOf (t.map Cell.num) = .ok t := by
  cases t <;> rfl

/-- The conversion of a distribution with numbers. -/
theorem convert_dist {table : Dict Str ℚ} {inverse : Bool} {U : Str} {u c : ℚ} (hU : UnitFactor table U u)
    (hc : directed inverse u = .ok c) {family : Option Cell} (hf : family ≠ some (.text (str "empirical")))
    {m : UQ.Mode} (hm : UQ.scaleMode (familyOf family) = .ok m) (t0 t1 lo hi : Option ℚ) :
    convertMarg table inverse U (dist family t0 t1 lo hi) =
      .ok (dist family (t0.map (· * c)) (second c t1 m)
        (lo.map (· * c)) (hi.map (· * c))) := by
  unfold convertMarg
  unfold UnitFactor at hU
  simp only [hU, finite]
  rw [if_neg (by exact hf)]
  simp only [dist, parse_num, limit_num, hc]
  unfold rescale
  simp only [ParamUnits.Factors.conversion, if_true, parseTheta]
  unfold UQ.scaleDistribution
  rw [hm]
  cases m <;> cases t0 <;> cases t1 <;>
    simp [UQ.scaleTheta, UQ.Entry.scale, renderTheta, second, ParamUnits.Factors.scaleArgs, UQ.scaleLimit]

theorem cancel {u : ℚ} (hu : u ≠ 0) (t : Option ℚ) : (t.map (· * (1 / u))).map (· * u) = t := by
  cases t with
  | none => rfl
  | some q => simp [hu]

/-- An ordinary distribution in user units and back. -/
theorem there_and_back {table : Dict Str ℚ} {U : Str} {u : ℚ} (hU : UnitFactor table U u) (hu : u ≠ 0) {g : Group} (hg : Ordinary g) :
    ∃ g', convertMarg table true U g = .ok g' ∧ convertMarg table false U g' = .ok g := by
  have hi : directed true u = .ok (1 / u) := by simp [directed, hu]
  have hd : directed false u = .ok u := by simp [directed]
  cases hg with
  | data g h =>
    refine ⟨g, ?_, ?_⟩ <;>
    · unfold convertMarg
      unfold UnitFactor at hU
      simp only [hU, finite]
      rw [if_pos h]
  | two name h t0 t1 lo hi' =>
    have hne : (some (Cell.text name)) ≠ some (.text (str "empirical")) := by
      simp only [List.mem_cons, List.not_mem_nil, or_false] at h
      rcases h with rfl | rfl | rfl | rfl | rfl <;> decide
    have hm : ∃ m, UQ.scaleMode (familyOf (some (.text name))) = .ok m ∧ m ≠ .scaleOnly := by
      simp only [List.mem_cons, List.not_mem_nil, or_false] at h
      rcases h with rfl | rfl | rfl | rfl | rfl
      · exact ⟨.scaleKeep, rfl, by simp⟩
      · exact ⟨.scaleBoth, rfl, by simp⟩
      · exact ⟨.scaleKeep, rfl, by simp⟩
      · exact ⟨.scaleKeep, rfl, by simp⟩
      · exact ⟨.scaleBoth, rfl, by simp⟩
    obtain ⟨m, hm, hm'⟩ := hm
    refine ⟨_, convert_dist hU hi hne hm t0 t1 lo hi', ?_⟩
    rw [convert_dist hU hd hne hm]
    cases m with
    | scaleOnly => exact absurd rfl hm'
    | scaleBoth => simp only [second, cancel hu]
    | scaleKeep => simp only [second, cancel hu]
  | fixed family h t0 lo hi' =>
    have hne : family ≠ some (.text (str "empirical")) := by
      rcases h with rfl | rfl <;> decide
    have hm : UQ.scaleMode (familyOf family) = .ok .scaleOnly := by
      rcases h with rfl | rfl <;> rfl
    refine ⟨_, convert_dist hU hi hne hm t0 none lo hi', ?_⟩
    rw [convert_dist hU hd hne hm]
    simp only [second, cancel hu]

/-- One row on its way: its label, its distribution, that in the file, and its unit. -/
structure Way where
  label : Label
  g : Group
  g' : Group
  unit : Str

theorem ways {table : Dict Str ℚ} : ∀ {params : List (Label × Group)} {units : List (Label × Str)},
    params.map (·.1) = units.map (·.1) →
    (∀ x ∈ params.zip units, ∃ g', convertMarg table true x.2.2 x.1.2 = .ok g' ∧ convertMarg table false x.2.2 g' = .ok x.1.2) →
    ∃ ws : List Way, ws.map (fun w => (w.label, w.g)) = params ∧ ws.map (fun w => (w.label, w.unit)) = units ∧
      ∀ w ∈ ws, convertMarg table true w.unit w.g = .ok w.g' ∧ convertMarg table false w.unit w.g' = .ok w.g := by
  intro params
  induction params with
  | nil =>
    intro units h _
    cases units with
    | nil => exact ⟨[], rfl, rfl, by simp⟩
    | cons u us => simp at h
  | cons p ps ih =>
    intro units h hall
    cases units with
    | nil => simp at h
    | cons u us =>
      simp only [List.map_cons, List.cons.injEq] at h
      obtain ⟨ws, h1, h2, h3⟩ := ih h.2 (fun x hx => hall x (by simp [hx]))
      obtain ⟨g', hg'⟩ := hall (p, u) (by simp)
      refine ⟨⟨p.1, p.2, g', u.2⟩ :: ws, ?_, ?_, ?_⟩
      · simp [h1]
      · simp [h2, h.1]
      · intro w hw
        rcases List.mem_cons.1 hw with rfl | hw
        · exact hg'
        · exact h3 w hw

theorem sameRows_self (l : List Label) : sameRows l l = none := by simp [sameRows]

theorem convertTable_ways {table : Dict Str ℚ} {inverse : Bool} (a b : Way → Group) (ws : List Way)
    (h : ∀ w ∈ ws, convertMarg table inverse w.unit (a w) = .ok (b w)) :
    convertTable table inverse (ws.map fun w => (w.label, a w)) (ws.map fun w => (w.label, w.unit)) =
      .ok (ws.map fun w => (w.label, b w)) := by
  unfold convertTable
  rw [List.map_map, List.map_map]
  have e : ((fun x : Label × Group => x.1) ∘ fun w : Way => (w.label, a w)) = (fun x : Label × Str => x.1) ∘ fun w : Way => (w.label, w.unit) := rfl
  rw [e, sameRows_self]
  simp only
  rw [List.zip_map', mapE_ok_iff]
  clear e
  induction ws with
  | nil => exact .nil
  | cons w ws ih =>
    refine .cons ?_ (ih fun x hx => h x (List.mem_cons_of_mem _ hx))
    simp only
    rw [h w (by simp)]

/-- C96: a demand model with the usual distributions, in known units, can be saved; loaded again it has the same
distributions for the same demands and the same units (sorted by label).  Numbers in the file are assumed to
be restored exactly. -/
theorem C96_round_trip_partial (table : Dict Str ℚ) (params : List (Label × Group)) (units : List (Label × Str)) (hne : params ≠ [])
    (hlab : params.map (·.1) = units.map (·.1)) (hpl : ∀ p ∈ params, Plain p.1) (hord : ∀ p ∈ params, Ordinary p.2)
    (hun : ∀ u ∈ units, ∃ f, UnitFactor table u.2 f ∧ f ≠ 0) :
    ∃ t ps us, saveMarginals table params units = .ok t ∧ loadMarginals table t = .ok (ps, us) ∧ ps.Perm params ∧ us.Perm units := by
  obtain ⟨ws, rfl, rfl, hws⟩ := ways (table := table) hlab (by
    intro x hx
    obtain ⟨f, hf, hf0⟩ := hun x.2 (List.of_mem_zip hx).2
    exact there_and_back hf hf0 (hord x.1 (List.of_mem_zip hx).1))
  have hws0 : ws ≠ [] := by rintro rfl; exact hne rfl
  have hsave : saveMarginals table (ws.map fun w => (w.label, w.g)) (ws.map fun w => (w.label, w.unit)) =
      .ok ⟨true, ws.map fun w => (joinChar '-' w.label, w.g', some w.unit)⟩ := by
    unfold saveMarginals
    rw [convertTable_ways Way.g Way.g' ws (fun w hw => (hws w hw).1)]
    simp only [Except.ok.injEq, MargFile.mk.injEq, true_and]
    rw [List.zipWith_map, List.zipWith_self]
  obtain ⟨idx, hidx, hrows⟩ := FileIO.toMulti_join 3 (ws.map Way.label) (by omega) (by simpa using hws0)
    (by
      intro r hr
      obtain ⟨w, hw, rfl⟩ := List.mem_map.1 hr
      exact (hpl (w.label, w.g) (List.mem_map.2 ⟨w, hw, rfl⟩)).1)
    (by
      intro r hr
      obtain ⟨w, hw, rfl⟩ := List.mem_map.1 hr
      exact (hpl (w.label, w.g) (List.mem_map.2 ⟨w, hw, rfl⟩)).2)
  refine ⟨_, (pySort (fun a b => labelLe a.label b.label) ws).map fun w => (w.label, w.g),
    (pySort (fun a b => labelLe a.label b.label) ws).map fun w => (w.label, w.unit), hsave, ?_, ?_, ?_⟩
  · unfold loadMarginals
    rw [if_neg (by simp)]
    have e1 : (ws.map fun w => (joinChar '-' w.label, w.g', some w.unit)).map (fun x : Str × Group × Option Str => x.1) =
        (ws.map Way.label).map (joinChar '-') := by simp
    simp only [e1, hidx, hrows]
    rw [if_neg]
    · have e2 : (ws.map Way.label).zip ((ws.map fun w => (joinChar '-' w.label, w.g', some w.unit)).map (fun x : Str × Group × Option Str => x.2.1)) =
          ws.map fun w => (w.label, w.g') := by
        rw [List.map_map, List.zip_map']; rfl
      have e3 : ((ws.map Way.label).zip ((ws.map fun w => (joinChar '-' w.label, w.g', some w.unit)).map (fun x : Str × Group × Option Str => x.2.2))).filterMap
          (fun r => r.2.map fun u => (r.1, u)) = ws.map fun w => (w.label, w.unit) := by
        rw [List.map_map, List.zip_map', List.filterMap_map]
        rw [← List.filterMap_eq_map]
        rfl
      rw [e2, e3, pySort_map (le := fun a b : Way => labelLe a.label b.label) (by intro a b; rfl),
        pySort_map (le := fun a b : Way => labelLe a.label b.label) (by intro a b; rfl),
        convertTable_ways Way.g' Way.g _ (fun w hw => (hws w (mem_pySort.1 hw)).2)]
    · rw [Bool.not_eq_true, List.any_eq_false]
      intro l hl
      obtain ⟨w, hw, rfl⟩ := List.mem_map.1 hl
      simp [(hpl (w.label, w.g) (List.mem_map.2 ⟨w, hw, rfl⟩)).1]
  · exact (pySort_perm _ ws).map _
  · exact (pySort_perm _ ws).map _

/-- The rows of a file that was saved. -/
theorem save_rows {table : Dict Str ℚ} {params : List (Label × Group)} {units : List (Label × Str)} {t : MargFile}
    (h : saveMarginals table params units = .ok t) :
    params.map (·.1) = units.map (·.1) ∧ t.hasUnits = true ∧
    List.Forall₂ (fun (x : (Label × Group) × (Label × Str)) (r : Str × Group × Option Str) =>
      r.1 = joinChar '-' x.1.1 ∧ r.2.2 = some x.2.2 ∧ convertMarg table true x.2.2 x.1.2 = .ok r.2.1) (params.zip units) t.rows := by
  unfold saveMarginals convertTable sameRows at h
  split at h
  · simp at h
  · rename_i ps hps
    split at hps
    · simp at hps
    · rename_i hs
      have hlen : params.map (·.1) = units.map (·.1) := by
        split at hs
        · simp at hs
        · split at hs
          · simp at hs
          · rename_i h2; exact not_not.1 h2
      simp only [Except.ok.injEq] at h
      subst h
      refine ⟨hlen, rfl, ?_⟩
      rw [mapE_ok_iff] at hps
      clear hs
      induction params generalizing units ps with
      | nil => cases units <;> simp_all
      | cons p params ih =>
        cases units with
        | nil => simp at hlen
        | cons u units =>
          cases hps with
          | cons h1 h2 =>
            simp only [List.map_cons, List.cons.injEq] at hlen
            refine .cons ?_ (ih _ h2 hlen.2)
            split at h1
            · simp at h1
            · rename_i g hg
              simp only [Except.ok.injEq] at h1
              subst h1
              exact ⟨rfl, rfl, hg⟩

/-- C96: the file has the distributions in the units of the user: each number times the factor of the unit is
the number of the model. -/
theorem C96_file_in_user_units {table : Dict Str ℚ} {params : List (Label × Group)} {units : List (Label × Str)} {t : MargFile}
    (h : saveMarginals table params units = .ok t) {i : Nat} {l : Label} {name : Str}
    (hname : name ∈ [str "normal", str "normal_std", str "normal_cov", str "lognormal", str "uniform"]) {t0 t1 lo hi : Option ℚ}
    (hp : params[i]? = some (l, dist (some (.text name)) t0 t1 lo hi)) {U : Str} {u : ℚ} (hU : units[i]? = some (l, U))
    (hu : UnitFactor table U u) :
    u ≠ 0 ∧ ∃ s0 s1 a b, t.rows[i]? = some (joinChar '-' l, dist (some (.text name)) s0 s1 a b, some U) ∧
      s0.map (· * u) = t0 ∧ (if name = str "normal_std" ∨ name = str "uniform" then s1.map (· * u) = t1 else s1 = t1) ∧
      a.map (· * u) = lo ∧ b.map (· * u) = hi := by
  obtain ⟨_, _, hr⟩ := save_rows h
  have hz : (params.zip units)[i]? = some ((l, dist (some (.text name)) t0 t1 lo hi), (l, U)) := by
    rw [List.getElem?_zip_eq_some]
    exact ⟨hp, hU⟩
  obtain ⟨r, hri, e1, e2, e3⟩ : ∃ r, t.rows[i]? = some r ∧ r.1 = joinChar '-' l ∧ r.2.2 = some U ∧
      convertMarg table true U (dist (some (.text name)) t0 t1 lo hi) = .ok r.2.1 := by
    clear h hp hU
    generalize params.zip units = z at hr hz
    generalize t.rows = rows at hr
    induction hr generalizing i with
    | nil => simp at hz
    | cons h1 _ ih =>
      cases i with
      | zero =>
        simp only [List.getElem?_cons_zero, Option.some.injEq] at hz
        subst hz
        exact ⟨_, rfl, h1⟩
      | succ i =>
        simp only [List.getElem?_cons_succ] at hz ⊢
        exact ih hz
  have hu0 : u ≠ 0 := by
    rintro rfl
    unfold convertMarg at e3
    unfold UnitFactor at hu
    simp only [hu, finite] at e3
    rw [if_neg] at e3
    · simp only [dist, parse_num, limit_num, directed, show parseTheta none = .ok (Entry.nan, none) from rfl, if_true] at e3
      exact absurd e3 (by simp)
    · simp only [List.mem_cons, List.not_mem_nil, or_false] at hname
      rcases hname with rfl | rfl | rfl | rfl | rfl <;> (show some (Cell.text _) ≠ some (Cell.text _)) <;> decide
  have hinv : directed true u = .ok (1 / u) := by simp [directed, hu0]
  have hne : (some (Cell.text name)) ≠ some (.text (str "empirical")) := by
    simp only [List.mem_cons, List.not_mem_nil, or_false] at hname
    rcases hname with rfl | rfl | rfl | rfl | rfl <;> decide
  refine ⟨hu0, ?_⟩
  simp only [List.mem_cons, List.not_mem_nil, or_false] at hname
  have fin : ∀ m : UQ.Mode, m ≠ .scaleOnly → UQ.scaleMode (familyOf (some (.text name))) = .ok m →
      (m = .scaleBoth ↔ name = str "normal_std" ∨ name = str "uniform") →
      ∃ s0 s1 a b, t.rows[i]? = some (joinChar '-' l, dist (some (.text name)) s0 s1 a b, some U) ∧
      s0.map (· * u) = t0 ∧ (if name = str "normal_std" ∨ name = str "uniform" then s1.map (· * u) = t1 else s1 = t1) ∧
      a.map (· * u) = lo ∧ b.map (· * u) = hi := by
    intro m hm0 hm hiff
    rw [convert_dist hu hinv hne hm] at e3
    simp only [Except.ok.injEq] at e3
    refine ⟨_, second (1 / u) t1 m, _, _, ?_, cancel hu0 t0, ?_, cancel hu0 lo, cancel hu0 hi⟩
    · rw [hri, e3, ← e1, ← e2]
    · cases m with
      | scaleOnly => exact absurd rfl hm0
      | scaleBoth => rw [if_pos (hiff.1 rfl)]; exact cancel hu0 t1
      | scaleKeep => rw [if_neg (by rw [← hiff]; simp)]; rfl
  rcases hname with rfl | rfl | rfl | rfl | rfl
  · exact fin .scaleKeep (by simp) rfl (by simp; decide)
  · exact fin .scaleBoth (by simp) rfl (by simp)
  · exact fin .scaleKeep (by simp) rfl (by simp; decide)
  · exact fin .scaleKeep (by simp) rfl (by simp; decide)
  · exact fin .scaleBoth (by simp) rfl (by simp)

/-- C96: units for other demands, or in another order, are refused and nothing is saved; so a model whose demands
were cloned, or whose sample was extended, after it was calibrated cannot be saved. -/
theorem C96_other_demands_refused (table : Dict Str ℚ) (params : List (Label × Group)) (units : List (Label × Str))
    (h : params.map (·.1) ≠ units.map (·.1)) :
    saveMarginals table params units = .error .valueError ∨ saveMarginals table params units = .error .assertionError := by
  unfold saveMarginals convertTable sameRows
  by_cases hl : (params.map (·.1)).length ≠ (units.map (·.1)).length
  · left; simp only [hl, ne_eq, not_false_eq_true, if_true]
  · right; simp only [hl, h, ne_eq, not_false_eq_true, if_true, if_false]

/-- C96: a file without units is refused. -/
theorem C96_units_required (table : Dict Str ℚ) (rows : List (Str × Group × Option Str)) :
    loadMarginals table ⟨false, rows⟩ = .error .assertionError := by
  simp [loadMarginals]

/-- C96: a file in which some demand has no unit is refused. -/
theorem C96_each_unit_required (table : Dict Str ℚ) (rows : List (Label × Group × Option Str)) (hpl : ∀ r ∈ rows, Plain r.1)
    (h : ∃ r ∈ rows, r.2.2 = none) :
    loadMarginals table ⟨true, rows.map fun r => (joinChar '-' r.1, r.2)⟩ = .error .valueError := by
  obtain ⟨r0, hr0, hr0n⟩ := h
  obtain ⟨idx, hidx, hrows⟩ := FileIO.toMulti_join 3 (rows.map (·.1)) (by omega) (by rintro e; simp_all)
    (by
      intro r hr
      obtain ⟨w, hw, rfl⟩ := List.mem_map.1 hr
      exact (hpl w hw).1)
    (by
      intro r hr
      obtain ⟨w, hw, rfl⟩ := List.mem_map.1 hr
      exact (hpl w hw).2)
  unfold loadMarginals
  rw [if_neg (by simp)]
  have e1 : (rows.map fun r => (joinChar '-' r.1, r.2)).map (fun x : Str × Group × Option Str => x.1) =
      (rows.map (·.1)).map (joinChar '-') := by simp
  simp only [e1, hidx, hrows]
  split
  · rfl
  · unfold convertTable sameRows
    rw [if_pos]
    rw [List.length_map, List.length_map, (pySort_perm _ _).length_eq, (pySort_perm _ _).length_eq, List.map_map, List.map_map,
      List.zip_map', List.zip_map', List.filterMap_map, List.length_map]
    apply ne_of_gt
    rw [List.length_filterMap_eq_countP]
    rw [List.countP_lt_length_iff]
    exact ⟨r0, hr0, by simp [hr0n]⟩

/-- C96: an unknown family is refused. -/
theorem C96_unknown_family_refused {table : Dict Str ℚ} {params : List (Label × Group)} {units : List (Label × Str)} {t : MargFile}
    (h : saveMarginals table params units = .ok t) {p : Label × Group} (hp : p ∈ params) :
    p.2.family = some (.text (str "empirical")) ∨ ∃ m, UQ.scaleMode (familyOf p.2.family) = .ok m := by
  obtain ⟨hl, _, hr⟩ := save_rows h
  have hlen : params.length = units.length := by simpa using congrArg List.length hl
  obtain ⟨u, hu⟩ : ∃ u, (p, u) ∈ params.zip units := by
    have := List.map_fst_zip (l₁ := params) (l₂ := units) (by omega)
    rw [← this] at hp
    obtain ⟨x, hx, rfl⟩ := List.mem_map.1 hp
    exact ⟨x.2, hx⟩
  obtain ⟨r, _, _, _, hr⟩ := forall₂_mem_left hr hu
  by_cases he : p.2.family = some (.text (str "empirical"))
  · exact .inl he
  · right
    unfold convertMarg at hr
    split at hr
    · simp at hr
    · simp only [he, if_false] at hr
      split at hr <;> try simp at hr
      split at hr <;> try simp at hr
      split at hr
      · simp at hr
      · unfold rescale at hr
        unfold UQ.scaleDistribution at hr
        cases hm : UQ.scaleMode (familyOf p.2.family) with
        | ok m => exact ⟨m, rfl⟩
        | error e =>
          exfalso
          simp only [hm] at hr
          split at hr <;> simp at hr

/-! ## Concrete cases -/

def mm : Dict Str ℚ := [(str "m", 1), (str "inch", 254/10000), (str "g", 980665/100000), (str "unitless", 1)]

def acc : Label := [str "PFA", str "1", str "1"]
def drift : Label := [str "PID", str "1", str "1"]

def model : List (Label × Group) :=
  [(drift, dist (some (.text (str "normal_cov"))) (some (1/100)) (some (2/5)) none (some (1/10))),
   (acc, dist (some (.text (str "lognormal"))) (some (980665/200000)) (some (3/10)) none none)]

def modelUnits : List (Label × Str) := [(drift, str "unitless"), (acc, str "g")]

example : ∃ t ps us, saveMarginals mm model modelUnits = .ok t ∧ loadMarginals mm t = .ok (ps, us) ∧ ps.Perm model ∧ us.Perm modelUnits := by
  refine C96_round_trip_partial mm model modelUnits (by simp [model]) rfl ?_ ?_ ?_
  · intro p hp
    simp only [model, List.mem_cons, List.not_mem_nil, or_false] at hp
    rcases hp with rfl | rfl <;> exact ⟨rfl, by decide⟩
  · intro p hp
    simp only [model, List.mem_cons, List.not_mem_nil, or_false] at hp
    rcases hp with rfl | rfl
    · exact .two _ (by decide) _ _ _ _
    · exact .two _ (by decide) _ _ _ _
  · intro p hp
    simp only [modelUnits, List.mem_cons, List.not_mem_nil, or_false] at hp
    rcases hp with rfl | rfl
    · exact ⟨1, by unfold UnitFactor; decide +kernel, by norm_num⟩
    · exact ⟨980665/100000, by unfold UnitFactor; decide +kernel, by norm_num⟩

/-- The acceleration is saved as 0.5 g. -/
example : saveMarginals mm model modelUnits = .ok ⟨true,
    [(str "PID-1-1", dist (some (.text (str "normal_cov"))) (some (1/100)) (some (2/5)) none (some (1/10)), some (str "unitless")),
     (str "PFA-1-1", dist (some (.text (str "lognormal"))) (some (1/2)) (some (3/10)) none none, some (str "g"))]⟩ := by
  have h : ∀ {x y : Except PyErr MargFile}, (x.map fun t => (t.hasUnits, t.rows)) = y.map (fun t => (t.hasUnits, t.rows)) → x = y := by
    intro x y h
    cases x <;> cases y <;> simp_all [Except.map]
    rename_i a b
    cases a; cases b; simp_all
  apply h
  decide +kernel

/-- A residual drift was added to the sample after the calibration. -/
example : saveMarginals mm model (modelUnits ++ [([str "RID", str "1", str "1"], str "unitless")]) = .error .valueError := by
  rfl

/-- The demand was cloned to another location. -/
example : saveMarginals mm [(drift, dist none (some 1) none none none)] [([str "PID", str "2", str "1"], str "unitless")] = .error .assertionError := by
  rfl

example : loadMarginals mm ⟨true, [(str "PID-1-1", dist none (some 1) none none none, none)]⟩ = .error .valueError :=
  C96_each_unit_required mm [(drift, dist none (some 1) none none none, none)] (by
    intro r hr
    simp only [List.mem_cons, List.not_mem_nil, or_false] at hr
    subst hr
    exact ⟨rfl, by decide⟩) ⟨_, List.mem_singleton_self _, rfl⟩

end Verif.DemandSave
