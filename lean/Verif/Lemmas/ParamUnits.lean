import Verif.Model.ParamUnits
import Verif.Lemmas.FmtG
import Verif.Lemmas.Lists
import Verif.Props.LossParams
import Verif.Props.UQScale

/-! # Units of damage and consequence parameters: what the conversion does to a cell -/

namespace Verif.ParamUnits

open DmgParams (Cell Row)
open Verif.UQ (Entry Family scaleDistribution)
open LossParams (Key LossMap Source hasTop)

/-- The text `y1,y2,..|x1,x2,..` with literals of these numbers. -/
def Spells (s : Str) (ys xs : List ℚ) : Prop :=
  ys ≠ [] ∧ xs ≠ [] ∧ ∃ ly lx : List Str,
    s = joinChar ',' ly ++ '|' :: joinChar ',' lx ∧
    List.Forall₂ (fun l y => pyFloat? l = some (.fin y)) ly ys ∧
    List.Forall₂ (fun l x => pyFloat? l = some (.fin x)) lx xs

theorem lit_no_char {l : Str} {y : ℚ} (h : pyFloat? l = some (.fin y)) {c : Char} (hc : NotFloatChar c) : c ∉ l := by
  intro hm
  rw [pyFloat?_none_of_char hm hc] at h
  simp at h

theorem join_no_char {ls : List Str} {c d : Char} (h : ∀ l ∈ ls, c ∉ l) (hd : c ≠ d) : c ∉ joinChar d ls := by
  induction ls with
  | nil => simp [joinChar]
  | cons w ls ih =>
    cases ls with
    | nil => simpa [joinChar] using h w (by simp)
    | cons w' ls =>
      simp only [joinChar, List.mem_append, List.mem_cons, not_or]
      exact ⟨h w (by simp), hd, ih (fun l hl => h l (List.mem_cons_of_mem _ hl))⟩

theorem lits_no_char {ls : List Str} {ys : List ℚ} (h : List.Forall₂ (fun l y => pyFloat? l = some (.fin y)) ls ys)
    {c : Char} (hc : NotFloatChar c) : ∀ l ∈ ls, c ∉ l := by
  intro l hl
  obtain ⟨y, _, hy⟩ := forall₂_mem_left h hl
  exact lit_no_char hy hc

theorem array_lits {ls : List Str} {ys : List ℚ} (h : List.Forall₂ (fun l y => pyFloat? l = some (.fin y)) ls ys) :
    mapE arrayEntry ls = .ok ys := by
  rw [mapE_ok_iff]
  refine List.Forall₂.imp ?_ h
  intro l y hl
  unfold arrayEntry
  rw [hl]

theorem lits_ne_nil {ls : List Str} {ys : List ℚ} (h : List.Forall₂ (fun l y => pyFloat? l = some (.fin y)) ls ys)
    (hy : ys ≠ []) : ls ≠ [] := by
  rintro rfl
  cases h
  exact hy rfl

theorem parseTheta_spells {s : Str} {ys xs : List ℚ} (h : Spells s ys xs) :
    parseTheta (some (.text s)) = .ok (.vec ys, some xs) := by
  obtain ⟨hy, hx, ly, lx, rfl, h1, h2⟩ := h
  simp only [parseTheta]
  rw [pyFloat?_none_of_char (c := '|') (by simp) (by decide)]
  simp only
  unfold parseCurve
  have e : splitChar '|' (joinChar ',' ly ++ '|' :: joinChar ',' lx) = [joinChar ',' ly, joinChar ',' lx] := by
    rw [splitChar_append_sep _ _ _ (join_no_char (lits_no_char h1 (by decide)) (by decide)),
      splitChar_no_sep _ _ (join_no_char (lits_no_char h2 (by decide)) (by decide))]
  rw [e]
  simp only
  rw [split_join ',' ly (lits_ne_nil h1 hy) (lits_no_char h1 (by decide)),
    split_join ',' lx (lits_ne_nil h2 hx) (lits_no_char h2 (by decide)), array_lits h1, array_lits h2]

theorem fmtG_lits (ys : List ℚ) : List.Forall₂ (fun l y => pyFloat? l = some (.fin y)) (ys.map fmtG) (ys.map round6) := by
  induction ys with
  | nil => exact .nil
  | cons y ys ih => exact .cons (pyFloat?_fmtG y) ih

theorem curveText_spells {ys xs : List ℚ} (hy : ys ≠ []) (hx : xs ≠ []) :
    Spells (curveText ys xs) (ys.map round6) (xs.map round6) :=
  ⟨by simpa using hy, by simpa using hx, ys.map fmtG, xs.map fmtG, rfl, fmtG_lits ys, fmtG_lits xs⟩

/-- The text determines the curve. -/
theorem spells_unique {s : Str} {ys xs ys' xs' : List ℚ} (h : Spells s ys xs) (h' : Spells s ys' xs') : ys = ys' ∧ xs = xs' := by
  have := (parseTheta_spells h).symm.trans (parseTheta_spells h')
  simpa using this

/-- Stretching a curve in both directions. -/
theorem interpFrom_stretch {a : ℚ} (ha : 0 < a) (c : ℚ) (pts : List (ℚ × ℚ)) (x : ℚ) :
    interpFrom (pts.map fun p => (p.1 * a, p.2 * c)) (x * a) = interpFrom pts x * c := by
  induction pts with
  | nil => simp [interpFrom]
  | cons p pts ih =>
    cases pts with
    | nil => simp [interpFrom]
    | cons r pts =>
      obtain ⟨x0, y0⟩ := p
      obtain ⟨x1, y1⟩ := r
      simp only [List.map_cons, interpFrom] at ih ⊢
      by_cases h : x < x1
      · rw [if_pos h, if_pos (mul_lt_mul_of_pos_right h ha)]
        rw [show x1 * a - x0 * a = (x1 - x0) * a by ring, show x * a - x0 * a = (x - x0) * a by ring,
          show y1 * c - y0 * c = (y1 - y0) * c by ring]
        by_cases hd : x1 - x0 = 0
        · rw [hd]; simp
        · field_simp
      · rw [if_neg h, if_neg (by rw [not_lt] at h ⊢; exact mul_le_mul_of_nonneg_right h ha.le)]
        exact ih

theorem interp_stretch {a : ℚ} (ha : 0 < a) (c : ℚ) (xs ys : List ℚ) (x : ℚ) :
    interp ((xs.map (· * a)).zip (ys.map (· * c))) (x * a) = interp (xs.zip ys) x * c := by
  have e : (xs.map (· * a)).zip (ys.map (· * c)) = (xs.zip ys).map fun p => (p.1 * a, p.2 * c) := by
    rw [List.zip_map]; rfl
  rw [e]
  cases h : xs.zip ys with
  | nil => simp [interp]
  | cons p pts =>
    obtain ⟨x0, y0⟩ := p
    have := interpFrom_stretch ha c ((x0, y0) :: pts) x
    simp only [List.map_cons] at this
    simp only [List.map_cons, interp]
    by_cases hx : x < x0
    · rw [if_pos hx, if_pos (mul_lt_mul_of_pos_right hx ha)]
    · rw [if_neg hx, if_neg (by rw [not_lt] at hx ⊢; exact mul_le_mul_of_nonneg_right hx ha.le)]
      exact this

/-! ## One row -/

theorem setGroup_col (row : Row) (col c : Str) (g : Group) : setGroup row col g (col, c) =
    if c = str "Theta_0" then g.t0 else if c = str "Theta_1" then g.t1 else if c = str "Theta_2" then g.t2
    else if c = str "TruncateLower" then g.lower else if c = str "TruncateUpper" then g.upper else row (col, c) := by
  unfold setGroup
  simp only [Prod.mk.injEq, true_and]

theorem setGroup_other (row : Row) (col : Str) (g : Group) (c : Str × Str) (h : c.1 ≠ col) : setGroup row col g c = row c := by
  unfold setGroup
  have : ∀ x : Str, c ≠ (col, x) := fun x e => h (by rw [e])
  simp [this]

/-- What the loop over the columns does. -/
theorem convertCols_spec {table : Dict Str ℚ} {unitCol : Str × Str} {argCol : Option (Str × Str)} {divide : Bool} :
    ∀ {cols : List Str} {row row' : Row}, cols.Nodup → unitCol.1 ∉ cols → (∀ a ∈ argCol, a.1 ∉ cols) →
    convertCols table unitCol argCol divide cols row = .ok row' →
    (row unitCol = none → row' = row) ∧
    (∀ c : Str × Str, c.1 ∉ cols → row' c = row c) ∧
    (∀ u, row unitCol = some u → ∀ col ∈ cols, ∃ g,
      convertGroup table u (argCol.map row) divide (groupOf row col) = .ok g ∧ ∀ x, row' (col, x) = setGroup row col g (col, x)) := by
  intro cols
  induction cols with
  | nil =>
    intro row row' _ _ _ h
    simp only [convertCols, Except.ok.injEq] at h
    subst h
    exact ⟨fun _ => rfl, fun _ _ => rfl, fun _ _ col hc => by simp at hc⟩
  | cons col cols ih =>
    intro row row' hnd hu ha h
    simp only [convertCols] at h
    cases hr : convertAt table unitCol argCol divide col row with
    | error e => rw [hr] at h; simp at h
    | ok row1 =>
      rw [hr] at h
      simp only at h
      rw [List.nodup_cons] at hnd
      simp only [List.mem_cons, not_or] at hu
      have ha' : ∀ a ∈ argCol, a.1 ≠ col ∧ a.1 ∉ cols := fun a h' => by
        have := ha a h'
        simp only [List.mem_cons, not_or] at this
        exact this
      obtain ⟨i1, i2, i3⟩ := ih hnd.2 hu.2 (fun a h' => (ha' a h').2) h
      unfold convertAt at hr
      cases hru : row unitCol with
      | none =>
        rw [hru] at hr
        simp only [Except.ok.injEq] at hr
        subst hr
        refine ⟨fun _ => i1 hru, ?_, fun u h' => by simp at h'⟩
        intro c _
        rw [i1 hru]
      | some u =>
        rw [hru] at hr
        simp only at hr
        cases hg : convertGroup table u (argCol.map row) divide (groupOf row col) with
        | error e => rw [hg] at hr; simp at hr
        | ok g =>
          rw [hg] at hr
          simp only [Except.ok.injEq] at hr
          subst hr
          have hsame : ∀ c : Str × Str, c.1 ≠ col → setGroup row col g c = row c := fun c hc => setGroup_other row col g c hc
          refine ⟨fun h' => by simp at h', ?_, ?_⟩
          · intro c hc
            simp only [List.mem_cons, not_or] at hc
            rw [i2 c hc.2, hsame c hc.1]
          · intro u' hu' col' hc'
            rw [Option.some.injEq] at hu'
            subst hu'
            rcases List.mem_cons.1 hc' with rfl | hc'
            · exact ⟨g, hg, fun x => i2 _ hnd.1⟩
            · have hne : col' ≠ col := fun e => hnd.1 (e ▸ hc')
              obtain ⟨g', hg', hx⟩ := i3 u (by rw [hsame _ hu.1, hru]) col' hc'
              have e1 : argCol.map (setGroup row col g) = argCol.map row := by
                cases argCol with
                | none => rfl
                | some a => simp only [Option.map_some, hsame a (ha' a rfl).1]
              have e2 : groupOf (setGroup row col g) col' = groupOf row col' := by
                unfold groupOf
                simp only [hsame (col', _) hne]
              rw [e1, e2] at hg'
              refine ⟨g', hg', fun x => ?_⟩
              rw [hx x, setGroup_col, setGroup_col, hsame (col', x) hne]

/-- The parameters after a successful conversion. -/
theorem convertGroup_ok {table : Dict Str ℚ} {unit : Cell} {arg : Option (Option Cell)} {divide : Bool} {g g' : Group}
    (h : convertGroup table unit arg divide g = .ok g') (he : g.family ≠ some (.text (str "empirical"))) :
    ∃ u a c p0 p1 p2 lo hi, factorOf table unit = .ok u ∧ argFactor table arg = .ok a ∧
      Factors.conversion ⟨u, a, divide⟩ = .ok c ∧ parseTheta g.t0 = .ok p0 ∧ parseTheta g.t1 = .ok p1 ∧
      parseTheta g.t2 = .ok p2 ∧ limitOf g.lower = .ok lo ∧ limitOf g.upper = .ok hi ∧
      rescale ⟨u, a, divide⟩ g p0 p1 p2 lo hi = .ok g' := by
  unfold convertGroup at h
  cases hu : factorOf table unit with
  | error e => rw [hu] at h; simp at h
  | ok u =>
    rw [hu] at h
    simp only [if_neg he] at h
    cases h0 : parseTheta g.t0 with
    | error e => rw [h0] at h; simp at h
    | ok p0 =>
      cases h1 : parseTheta g.t1 with
      | error e => rw [h0, h1] at h; simp at h
      | ok p1 =>
        cases h2 : parseTheta g.t2 with
        | error e => rw [h0, h1, h2] at h; simp at h
        | ok p2 =>
          rw [h0, h1, h2] at h
          simp only at h
          cases ha : argFactor table arg with
          | error e => rw [ha] at h; simp at h
          | ok a =>
            rw [ha] at h
            simp only at h
            cases hl : limitOf g.lower with
            | error e => rw [hl] at h; simp at h
            | ok lo =>
              cases hh : limitOf g.upper with
              | error e => rw [hl, hh] at h; simp at h
              | ok hi =>
                rw [hl, hh] at h
                simp only at h
                have h' := h
                unfold rescale at h'
                cases hc : Factors.conversion ⟨u, a, divide⟩ with
                | error e => rw [hc] at h'; simp at h'
                | ok c => exact ⟨u, a, c, p0, p1, p2, lo, hi, rfl, rfl, hc, rfl, rfl, rfl, rfl, rfl, h⟩

theorem scaleTheta_three {c : ℚ} {m : UQ.Mode} {e0 e1 e2 : Entry ℚ} {t : List (Entry ℚ)}
    (h : UQ.scaleTheta c m [e0, e1, e2] = .ok t) : ∃ e1', t = [e0.scale c, e1', .nan] ∧
      (m = .scaleBoth → e1' = e1.scale c) ∧ (m = .scaleKeep → e1' = e1) ∧ (m = .scaleOnly → e1' = .nan) := by
  cases m with
  | scaleBoth =>
    simp only [UQ.scaleTheta, Except.ok.injEq] at h
    exact ⟨_, h.symm, fun _ => rfl, fun h' => by simp at h', fun h' => by simp at h'⟩
  | scaleKeep =>
    simp only [UQ.scaleTheta, Except.ok.injEq] at h
    exact ⟨_, h.symm, fun h' => by simp at h', fun _ => rfl, fun h' => by simp at h'⟩
  | scaleOnly =>
    simp only [UQ.scaleTheta, Except.ok.injEq] at h
    exact ⟨_, h.symm, fun h' => by simp at h', fun h' => by simp at h', fun _ => rfl⟩

theorem rescale_ok {f : Factors} {g g' : Group} {p0 p1 p2 : Entry ℚ × Option (List ℚ)} {lo hi : Option ℚ} {c : ℚ}
    (hc : f.conversion = .ok c) (h : rescale f g p0 p1 p2 lo hi = .ok g') :
    ∃ m e1, UQ.scaleMode (familyOf g.family) = .ok m ∧
      scaleDistribution c (familyOf g.family) [p0.1, p1.1, p2.1] (some (lo, hi)) =
        .ok ([p0.1.scale c, e1, .nan], some (UQ.scaleLimit c lo, UQ.scaleLimit c hi)) ∧
      (m = .scaleBoth → e1 = p1.1.scale c) ∧ (m = .scaleKeep → e1 = p1.1) ∧ (m = .scaleOnly → e1 = .nan) ∧
      renderTheta (p0.1.scale c) (f.scaleArgs p0.2) = .ok g'.t0 ∧ renderTheta e1 (f.scaleArgs p1.2) = .ok g'.t1 ∧
      g'.t2 = none ∧
      g'.lower = (lo.map (· * c)).map .num ∧ g'.upper = (hi.map (· * c)).map .num ∧ g'.family = g.family := by
  unfold rescale at h
  rw [hc] at h
  simp only at h
  have hs : ∀ r, scaleDistribution c (familyOf g.family) [p0.1, p1.1, p2.1] (some (lo, hi)) = .ok r →
      ∃ m e1, UQ.scaleMode (familyOf g.family) = .ok m ∧
        r = ([p0.1.scale c, e1, .nan], some (UQ.scaleLimit c lo, UQ.scaleLimit c hi)) ∧
        (m = .scaleBoth → e1 = p1.1.scale c) ∧ (m = .scaleKeep → e1 = p1.1) ∧ (m = .scaleOnly → e1 = .nan) := by
    intro r hr
    unfold scaleDistribution at hr
    cases hm : UQ.scaleMode (familyOf g.family) with
    | error e => rw [hm] at hr; simp at hr
    | ok m =>
      rw [hm] at hr
      simp only at hr
      cases ht : UQ.scaleTheta c m [p0.1, p1.1, p2.1] with
      | error e => rw [ht] at hr; simp at hr
      | ok t =>
        rw [ht] at hr
        simp only [Option.map_some, Except.ok.injEq] at hr
        obtain ⟨e1, rfl, i1, i2, i3⟩ := scaleTheta_three ht
        exact ⟨m, e1, rfl, hr.symm, i1, i2, i3⟩
  cases hr : scaleDistribution c (familyOf g.family) [p0.1, p1.1, p2.1] (some (lo, hi)) with
  | error e => rw [hr] at h; simp at h
  | ok r =>
    obtain ⟨m, e1, hm, rfl, i1, i2, i3⟩ := hs r hr
    rw [hr] at h
    simp only at h
    cases h0 : renderTheta (p0.1.scale c) (f.scaleArgs p0.2) with
    | error e => rw [h0] at h; simp at h
    | ok t0 =>
      cases h1 : renderTheta e1 (f.scaleArgs p1.2) with
      | error e => rw [h0, h1] at h; simp at h
      | ok t1 =>
        cases h2 : renderTheta .nan (f.scaleArgs p2.2) with
        | error e => rw [h0, h1, h2] at h; simp at h
        | ok t2 =>
          rw [h0, h1, h2] at h
          simp only [Except.ok.injEq] at h
          subst h
          refine ⟨m, e1, hm, rfl, i1, i2, i3, rfl, h1, ?_, rfl, rfl, rfl⟩
          cases ha : f.scaleArgs p2.2 with
          | none => rw [ha] at h2; simp only [renderTheta, Except.ok.injEq] at h2; exact h2.symm
          | some l => rw [ha] at h2; simp [renderTheta] at h2

end Verif.ParamUnits
