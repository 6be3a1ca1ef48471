import Verif.Model.LoadTable
import Verif.Props.FileIO
import Verif.Lemmas.PySort
import Verif.Lemmas.PyStr
import Mathlib.Data.List.Range
import Mathlib.Data.List.Perm.Basic
import Mathlib.Tactic.Linarith

/-! # C113: tables mean the same wherever they come from -/

namespace Verif.LoadTable

open DmgParams (Cell)
open FileIO (Label labelLe rowsOf)

/-! ## Specification -/

namespace Spec

/-- The texts that stand for a missing value. -/
def missing : List Str :=
  [str "", str "#N/A", str "#N/A N/A", str "#NA", str "-1.#IND", str "-1.#QNAN", str "-NaN", str "-nan", str "1.#IND", str "1.#QNAN",
   str "<NA>", str "N/A", str "NA", str "NULL", str "NaN", str "None", str "n/a", str "nan", str "null"]

/-- What a cell says: nothing (`some none`), a number, or something that is not a number (`none`). -/
def value (parse : Str → Option ℚ) : Option Cell → Option (Option ℚ)
  | none => some none
  | some (.num q) => some (some q)
  | some (.text s) => if s ∈ missing then some none else (parse s).map some

/-- A cell that is left as it is, unless it stands for a missing value. -/
def kept : Option Cell → Option Cell
  | some (.text s) => if s ∈ missing then none else some (.text s)
  | x => x

/-- The factor of a unit: one without a table of units, without a unit, and for a unit that is not in the table. -/
def factor (factors : Option (Dict Str ℚ)) (unit : Option Cell) : ℚ :=
  match factors, unit with
  | some table, some (.text u) => match table.get? u with
    | some f => f
    | none => 1
  | _, _ => 1

/-- A column after loading: numbers, each times the factor of its cell, if all cells are numbers or missing. -/
def column (parse : Str → Option ℚ) (fs : List ℚ) (cells : List (Option Cell)) : List (Option Cell) :=
  if ∀ x ∈ cells, (value parse x).isSome then
    List.zipWith (fun f x => ((value parse x).getD none).map fun q => Cell.num (q * f)) fs cells
  else cells.map kept

/-- The levels of a label, with empty levels up to `m`. -/
def label (m : Nat) (s : Str) : Label := splitChar '-' s ++ List.replicate (m - (splitChar '-' s).length) []

/-- `m` is the largest number of levels. -/
def IsDepth (m : Nat) (labels : List Str) : Prop :=
  (∀ s ∈ labels, (splitChar '-' s).length ≤ m) ∧ ∃ s ∈ labels, (splitChar '-' s).length = m

/-- The loaded table has the given rows and columns, in the order of their labels, or with the rows in the given order and numbered. -/
def Arranged (reindex : Bool) (index : List Str) (cols : List (Str × List (Option Cell))) (out : Loaded) : Prop :=
  ∃ m order, IsDepth m (cols.map Prod.fst) ∧ order.Perm (List.range index.length) ∧
    out.cols.Pairwise (fun a b => labelLe a.1 b.1 = true) ∧
    out.cols.Perm (cols.map fun c => (label m c.1, order.filterMap (c.2[·]?))) ∧
    (reindex = true → order = List.range index.length ∧ out.index = none) ∧
    (reindex = false → ∃ m' rows, IsDepth m' index ∧ out.index = some rows ∧
      rows = order.filterMap ((index.map (label m'))[·]?) ∧ rows.Pairwise (fun a b => labelLe a b = true))

/-- The units returned are those given, in the order of their labels. -/
def UnitsOf (us : List (Str × Option Cell)) (out : Option (List (Label × Cell))) : Prop :=
  ∃ m l, IsDepth m (us.map Prod.fst) ∧ out = some l ∧ l.Pairwise (fun a b => labelLe a.1 b.1 = true) ∧
    l.Perm (us.filterMap fun u => (kept u.2).map fun v => (label m u.1, v))

/-- The cells of a table in a file. -/
def cells (t : TextTable) : Table := ⟨t.index, t.cols.map fun c => (c.1, c.2.map fun s => some (Cell.text s))⟩

/-- All columns have a cell in each row. -/
def Rect (t : Table) : Prop := ∀ c ∈ t.cols, c.2.length = t.index.length

/-- `i` is the first of the labels that reads `units`, in any case of the letters. -/
def UnitsAt (labels : List Str) (i : Nat) : Prop :=
  (∃ k, labels[i]? = some k ∧ k.map Char.toLower = str "units") ∧
    ∀ j < i, ∀ k, labels[j]? = some k → k.map Char.toLower ≠ str "units"

end Spec

/-! ## Lemmas -/

theorem na_sub : naVals ⊆ Spec.missing := by decide +kernel

theorem sub_na : Spec.missing ⊆ naVals := by decide +kernel

theorem mem_na (s : Str) : naVals.contains s = true ↔ s ∈ Spec.missing := by
  rw [List.contains_iff_mem]
  exact ⟨fun h => na_sub h, fun h => sub_na h⟩

theorem na_kept (x : Option Cell) : (if checkNa x then none else x) = Spec.kept x := by
  match x with
  | none => rfl
  | some (.num q) => rfl
  | some (.text s) =>
    by_cases h : s ∈ Spec.missing
    · rw [if_pos (show checkNa (some (Cell.text s)) = true from (mem_na s).2 h), Spec.kept, if_pos h]
    · rw [if_neg (fun h' : checkNa (some (Cell.text s)) = true => h ((mem_na s).1 h')), Spec.kept, if_neg h]

theorem parseNa_eq (t : Table) : parseNa t = ⟨t.index, t.cols.map fun c => (c.1, c.2.map Spec.kept)⟩ := by
  simp only [parseNa, na_kept]

/-- The numbers of a column. -/
def nums (parse : Str → Option ℚ) (l : List (Option Cell)) : List (Option Cell) :=
  l.map fun x => ((Spec.value parse x).getD none).map Cell.num

theorem toNumeric_kept (parse : Str → Option ℚ) : ∀ l : List (Option Cell),
    toNumeric parse (l.map Spec.kept) =
      if ∀ x ∈ l, (Spec.value parse x).isSome then some (nums parse l) else none
  | [] => by simp [toNumeric, nums]
  | x :: l => by
    have ih := toNumeric_kept parse l
    have good : ∀ v : Option ℚ, Spec.value parse x = some v →
        (if ∀ y ∈ x :: l, (Spec.value parse y).isSome then some (nums parse (x :: l)) else none) =
          (if ∀ y ∈ l, (Spec.value parse y).isSome then some (nums parse l) else none).map (v.map Cell.num :: ·) := by
      intro v hv
      simp only [List.forall_mem_cons, hv, Option.isSome_some, true_and]
      split
      · simp only [nums, List.map_cons, hv, Option.getD_some, Option.map_some]
      · rfl
    rw [List.map_cons]
    match x, good with
    | none, good => rw [good none rfl, ← ih]; rfl
    | some (.num q), good => rw [good (some q) rfl, ← ih]; rfl
    | some (.text s), good =>
      by_cases h : s ∈ Spec.missing
      · rw [good none (by simp [Spec.value, h]), ← ih]
        simp only [Spec.kept, if_pos h]; rfl
      · simp only [Spec.kept, if_neg h, toNumeric]
        cases hp : parse s with
        | none => simp [Spec.value, h, hp]
        | some q =>
          rw [good (some q) (by simp [Spec.value, h, hp]), ← ih]; rfl

theorem convert_kept (parse : Str → Option ℚ) (l : List (Option Cell)) :
    toNumericIfPossible parse (l.map Spec.kept) =
      if ∀ x ∈ l, (Spec.value parse x).isSome then nums parse l else l.map Spec.kept := by
  rw [toNumericIfPossible, toNumeric_kept]
  split <;> rfl

theorem isNumeric_nums (parse : Str → Option ℚ) (l : List (Option Cell)) : isNumeric (nums parse l) = true := by
  simp only [isNumeric, nums, List.all_map, List.all_eq_true, Function.comp]
  intro x _
  cases (Spec.value parse x).getD none <;> rfl

theorem isNumeric_kept (parse : Str → Option ℚ) (l : List (Option Cell)) (h : ¬ ∀ x ∈ l, (Spec.value parse x).isSome) :
    isNumeric (l.map Spec.kept) = false := by
  by_contra hc
  refine h (fun x hx => ?_)
  have hc' : isNumeric (l.map Spec.kept) = true := by simpa using hc
  have := (List.all_eq_true.1 hc') (Spec.kept x) (List.mem_map.2 ⟨x, hx, rfl⟩)
  match x with
  | none => rfl
  | some (.num q) => rfl
  | some (.text s) =>
    by_cases hm : s ∈ Spec.missing
    · simp [Spec.value, hm]
    · simp [Spec.kept, hm] at this

theorem factor_eq (table : Dict Str ℚ) (x : Option Cell) : unitFactor table x = Spec.factor (some table) x := by
  match x with
  | none => rfl
  | some (.num q) => rfl
  | some (.text s) =>
    simp only [unitFactor, Spec.factor]
    cases table.get? s <;> rfl

/-- The column with all factors one. -/
theorem column_one (parse : Str → Option ℚ) (l : List (Option Cell)) (fs : List ℚ) (hlen : fs.length = l.length)
    (h1 : ∀ f ∈ fs, f = 1) : toNumericIfPossible parse (l.map Spec.kept) = Spec.column parse fs l := by
  rw [convert_kept, Spec.column]
  split
  · clear * - hlen h1
    induction l generalizing fs with
    | nil => simp [nums]
    | cons x l ih =>
      match fs, hlen with
      | f :: fs, hlen =>
        have hf : f = 1 := h1 f (by simp)
        subst hf
        have := ih fs (by simpa using hlen) (fun f hf => h1 f (List.mem_cons_of_mem _ hf))
        simp only [nums] at this
        simp only [nums, List.map_cons, List.zipWith_cons_cons, mul_one, this]
  · rfl

theorem scaleCells (parse : Str → Option ℚ) (fs : List ℚ) (l : List (Option Cell)) :
    mapE (fun x : ℚ × Option Cell => scaleCell x.1 x.2) (fs.zip (nums parse l)) =
      .ok (List.zipWith (fun f x => ((Spec.value parse x).getD none).map fun q => Cell.num (q * f)) fs l) := by
  induction l generalizing fs with
  | nil => simp [nums, mapE]
  | cons x l ih =>
    match fs with
    | [] => simp [mapE]
    | f :: fs =>
      have := ih fs
      simp only [nums] at this
      simp only [nums, List.map_cons, List.zip_cons_cons, mapE, this, List.zipWith_cons_cons]
      cases (Spec.value parse x).getD none <;> rfl

theorem scaleRows_eq (parse : Str → Option ℚ) (fs : List ℚ) (s : Str) (l : List (Option Cell)) :
    scaleRows fs (s, toNumericIfPossible parse (l.map Spec.kept)) = .ok (s, Spec.column parse fs l) := by
  rw [convert_kept, Spec.column]
  split
  · rw [scaleRows]
    simp only [isNumeric_nums, if_true, scaleCells]
  · rename_i h
    rw [scaleRows]
    simp only [isNumeric_kept parse l h, Bool.false_eq_true, if_false]

theorem mapE_const (f : ℚ) (l : List (Option Cell)) :
    mapE (scaleCell f) l = mapE (fun x : ℚ × Option Cell => scaleCell x.1 x.2) ((List.replicate l.length f).zip l) := by
  induction l with
  | nil => rfl
  | cons x l ih => simp only [List.length_cons, List.replicate_succ, List.zip_cons_cons, mapE, ih]

theorem scaleCol_eq (parse : Str → Option ℚ) (f : ℚ) (s : Str) (l : List (Option Cell)) (h : ∀ x ∈ l, (Spec.value parse x).isSome) :
    scaleCol f (s, toNumericIfPossible parse (l.map Spec.kept)) =
      .ok (s, Spec.column parse (List.replicate l.length f) l) := by
  rw [convert_kept, Spec.column, if_pos h, if_pos h, scaleCol]
  simp only [mapE_const]
  have : (nums parse l).length = l.length := by simp [nums]
  rw [this, scaleCells]

theorem mapE_scale_text (f : ℚ) (s : Str) : ∀ l : List (Option Cell), some (Cell.text s) ∈ l → mapE (scaleCell f) l = .error .typeError
  | [], h => by simp at h
  | x :: l, h => by
    match x with
    | some (.text s') => simp [mapE, scaleCell]
    | none =>
      have := mapE_scale_text f s l (by simpa using h)
      simp [mapE, scaleCell, this]
    | some (.num q) =>
      have := mapE_scale_text f s l (by simpa using h)
      simp [mapE, scaleCell, this]

theorem scaleCol_text (parse : Str → Option ℚ) (f : ℚ) (s : Str) (l : List (Option Cell))
    (h : ¬ ∀ x ∈ l, (Spec.value parse x).isSome) :
    scaleCol f (s, toNumericIfPossible parse (l.map Spec.kept)) = .error .typeError := by
  rw [convert_kept, if_neg h, scaleCol]
  push Not at h
  obtain ⟨x, hx, hv⟩ := h
  have : ∃ w, Spec.kept x = some (.text w) := by
    match x with
    | none => simp [Spec.value] at hv
    | some (.num q) => simp [Spec.value] at hv
    | some (.text w) =>
      by_cases hm : w ∈ Spec.missing
      · simp [Spec.value, hm] at hv
      · exact ⟨w, by simp [Spec.kept, hm]⟩
  obtain ⟨w, hw⟩ := this
  rw [mapE_scale_text f w _ (List.mem_map.2 ⟨x, hx, hw⟩)]

theorem unitsKey_some (labels : List Str) (i : Nat) (h : Spec.UnitsAt labels i) : unitsKey labels = some i := by
  obtain ⟨⟨k, hk, hl⟩, hf⟩ := h
  rw [unitsKey, List.findIdx?_eq_some_iff_getElem]
  obtain ⟨hi, he⟩ := List.getElem?_eq_some_iff.1 hk
  refine ⟨hi, by simp [he, CommandLine.lower, hl], fun j hj => ?_⟩
  have := hf j hj labels[j] (List.getElem?_eq_getElem _)
  simpa [CommandLine.lower] using this

theorem unitsKey_none (labels : List Str) (h : ∀ k ∈ labels, k.map Char.toLower ≠ str "units") : unitsKey labels = none := by
  rw [unitsKey, List.findIdx?_eq_none_iff]
  intro k hk
  simpa [CommandLine.lower] using h k hk

theorem isDepth_maxLen (labels : List Str) (hne : labels ≠ []) : Spec.IsDepth (Labels.maxLen (labels.map (splitChar '-'))) labels := by
  refine ⟨fun s hs => Labels.maxLen_ge _ _ (List.mem_map.2 ⟨s, hs, rfl⟩), ?_⟩
  have key : ∀ ps : List (List Str), ps ≠ [] → ∃ p ∈ ps, p.length = Labels.maxLen ps := by
    intro ps
    induction ps with
    | nil => simp
    | cons p ps ih =>
      intro _
      by_cases hps : ps = []
      · exact ⟨p, by simp, by simp [hps, Labels.maxLen]⟩
      · obtain ⟨p', hp', he⟩ := ih hps
        have hm : Labels.maxLen (p :: ps) = max p.length (Labels.maxLen ps) := rfl
        rcases Nat.le_total p.length (Labels.maxLen ps) with h | h
        · exact ⟨p', List.mem_cons_of_mem _ hp', by rw [hm, he]; omega⟩
        · exact ⟨p, by simp, by rw [hm]; omega⟩
  obtain ⟨p, hp, he⟩ := key (labels.map (splitChar '-')) (by simpa using hne)
  obtain ⟨s, hs, rfl⟩ := List.mem_map.1 hp
  exact ⟨s, hs, he⟩

theorem levels_eq (labels : List Str) (hne : labels ≠ []) :
    ∃ m, Spec.IsDepth m labels ∧ levels labels = .ok (labels.map (Spec.label m)) := by
  refine ⟨_, isDepth_maxLen labels hne, ?_⟩
  have hd := isDepth_maxLen labels hne
  rw [levels, Labels.toMulti]
  simp only [hne, if_false]
  split
  · rename_i h
    split at h
    · cases h
    · cases h
  · rename_i idx h
    split at h
    · cases h
      simp only [rowsOf, List.map_map]
      rfl
    · rename_i hm
      cases h
      simp only [rowsOf]
      congr 1
      refine List.map_congr_left (fun s hs => ?_)
      have h1 := hd.1 s hs
      have hl : (splitChar '-' s).length = 1 := by
        have := List.length_pos_of_ne_nil (splitChar_ne_nil '-' s)
        omega
      have hs1 : splitChar '-' s = [s] := by
        obtain ⟨w, hw⟩ := List.length_eq_one_iff.1 hl
        have := join_split '-' s
        rw [hw] at this
        rw [hw, ← this]
        rfl
      have : Labels.maxLen (labels.map (splitChar '-')) - (splitChar '-' s).length = 0 := by omega
      rw [Spec.label, this, hs1]
      rfl

theorem levels_nil : levels [] = .error .valueError := rfl

theorem zip_map_snd {α β γ : Type} (f : α → γ) (l : List (α × β)) :
    ((l.map Prod.fst).map f).zip (l.map Prod.snd) = l.map fun c => (f c.1, c.2) := by
  induction l with
  | nil => rfl
  | cons x l ih => simp [List.zip_cons_cons] at ih ⊢; exact ih

theorem unitsOut_eq (us : List (Str × Option Cell)) (hne : us ≠ []) :
    ∃ out, unitsOut (some (us.map fun u => (u.1, Spec.kept u.2))) = .ok out ∧ Spec.UnitsOf us out := by
  obtain ⟨m, hm, he⟩ := levels_eq (us.map Prod.fst) (by simpa using hne)
  have h1 : (us.map fun u => (u.1, Spec.kept u.2)).map Prod.fst = us.map Prod.fst := by simp [Function.comp]
  refine ⟨_, by simp only [unitsOut, h1, he]; rfl, m, _, hm, rfl, ?_, ?_⟩
  · exact pySort_sorted (fun a b => FileIO.labelLe_total a.1 b.1) (fun a b c => FileIO.labelLe_trans a.1 b.1 c.1) _
  · refine (pySort_perm _ _).trans ?_
    have h2 : (us.map fun u => (u.1, Spec.kept u.2)).map Prod.snd = (us.map fun u => (u.1, Spec.kept u.2)).map Prod.snd := rfl
    have h3 := zip_map_snd (Spec.label m) (us.map fun u => (u.1, Spec.kept u.2))
    rw [h1] at h3
    rw [h3, List.map_map, List.filterMap_map]
    exact List.Perm.refl _

theorem rowOrder_perm (rows : List Label) : (rowOrder rows).Perm (List.range rows.length) := by
  rw [rowOrder]
  have := (pySort_perm (fun a b : Label × Nat => labelLe a.1 b.1) (rows.zip (List.range rows.length))).map Prod.snd
  rw [List.map_snd_zip (by simp)] at this
  exact this

theorem reorder_rows (rows : List Label) :
    reorder (rowOrder rows) rows = (pySort (fun a b : Label × Nat => labelLe a.1 b.1) (rows.zip (List.range rows.length))).map Prod.fst := by
  have hm : ∀ p ∈ pySort (fun a b : Label × Nat => labelLe a.1 b.1) (rows.zip (List.range rows.length)), rows[p.2]? = some p.1 := by
    intro p hp
    rw [mem_pySort] at hp
    obtain ⟨i, hi, he⟩ := List.mem_iff_getElem.1 hp
    rw [List.getElem_zip] at he
    simp only [List.getElem_range] at he
    subst he
    have : i < rows.length := by simp at hi; exact hi
    simp [this]
  rw [reorder, rowOrder]
  generalize pySort (fun a b : Label × Nat => labelLe a.1 b.1) (rows.zip (List.range rows.length)) = l at hm
  induction l with
  | nil => rfl
  | cons p l ih =>
    rw [List.map_cons, List.filterMap_cons, hm p (by simp), List.map_cons, ih (fun q hq => hm q (List.mem_cons_of_mem _ hq))]

theorem filterMap_range {α : Type} (l : List α) : (List.range l.length).filterMap (l[·]?) = l := by
  induction l with
  | nil => rfl
  | cons x l ih =>
    rw [List.length_cons, List.range_succ_eq_map, List.filterMap_cons, List.filterMap_map]
    simp only [List.getElem?_cons_zero, Function.comp_def, List.getElem?_cons_succ]
    rw [ih]

theorem arrange_eq (reindex : Bool) (us : Option (List (Str × Option Cell))) (index : List Str)
    (cols : List (Str × List (Option Cell))) (hne : cols ≠ []) (hr : reindex = true ∨ index ≠ [])
    (hlen : ∀ c ∈ cols, c.2.length = index.length) (uo : Option (List (Label × Cell))) (hu : unitsOut us = .ok uo) :
    ∃ out, arrange reindex (us, ⟨index, cols⟩) = .ok out ∧ Spec.Arranged reindex index cols out ∧ out.units = uo := by
  obtain ⟨m, hm, he⟩ := levels_eq (cols.map Prod.fst) (by simpa using hne)
  have hz := zip_map_snd (Spec.label m) cols
  have hsorted := pySort_sorted (fun a b : Label × List (Option Cell) => FileIO.labelLe_total a.1 b.1)
    (fun a b c => FileIO.labelLe_trans a.1 b.1 c.1) (cols.map fun c => (Spec.label m c.1, c.2))
  have hperm := pySort_perm (fun a b : Label × List (Option Cell) => labelLe a.1 b.1) (cols.map fun c => (Spec.label m c.1, c.2))
  simp only [arrange, he, hz]
  cases reindex with
  | true =>
    simp only [if_true, hu]
    refine ⟨_, rfl, ⟨m, _, hm, List.Perm.refl _, hsorted, ?_, fun _ => ⟨rfl, rfl⟩, fun h => by cases h⟩, rfl⟩
    refine hperm.trans ?_
    have : (cols.map fun c => (Spec.label m c.1, (List.range index.length).filterMap (c.2[·]?))) =
        cols.map fun c => (Spec.label m c.1, c.2) := by
      refine List.map_congr_left (fun c hc => ?_)
      rw [← hlen c hc, filterMap_range]
    rw [this]
  | false =>
    have hi : index ≠ [] := by simpa using hr
    obtain ⟨m', hm', he'⟩ := levels_eq index hi
    simp only [Bool.false_eq_true, if_false, he', hu]
    refine ⟨_, rfl, ⟨m, rowOrder (index.map (Spec.label m')), hm, ?_, ?_, ?_, (fun h => by cases h),
      fun _ => ⟨m', _, hm', rfl, rfl, ?_⟩⟩, rfl⟩
    · simpa using rowOrder_perm (index.map (Spec.label m'))
    · rw [List.pairwise_map]
      exact hsorted
    · have := hperm.map fun c => (c.1, reorder (rowOrder (index.map (Spec.label m'))) c.2)
      rw [List.map_map] at this
      exact this
    · have h := reorder_rows (index.map (Spec.label m'))
      rw [h, List.pairwise_map]
      exact pySort_sorted (fun a b : Label × Nat => FileIO.labelLe_total a.1 b.1)
        (fun a b c => FileIO.labelLe_trans a.1 b.1 c.1) _

theorem mapE_map_all {α β γ : Type} (f : β → Except PyErr γ) (g : α → β) (h : α → γ) (l : List α) (hg : ∀ a ∈ l, f (g a) = .ok (h a)) :
    mapE f (l.map g) = .ok (l.map h) := by
  induction l with
  | nil => rfl
  | cons a l ih => simp only [List.map_cons, mapE, hg a (by simp), ih (fun b hb => hg b (List.mem_cons_of_mem _ hb))]

theorem mapE_typeError {α β : Type} (f : α → Except PyErr β) (l : List α) (h : ∃ a ∈ l, f a = .error .typeError)
    (h' : ∀ a ∈ l, ∀ e, f a = .error e → e = .typeError) : mapE f l = .error .typeError := by
  induction l with
  | nil => simp at h
  | cons a l ih =>
    cases hf : f a with
    | error e => rw [h' a (by simp) e hf] at hf; simp [mapE, hf]
    | ok b =>
      have : ∃ a ∈ l, f a = .error .typeError := by
        obtain ⟨c, hc, hce⟩ := h
        rcases List.mem_cons.1 hc with rfl | hc
        · rw [hf] at hce; cases hce
        · exact ⟨c, hc, hce⟩
      simp [mapE, hf, ih this (fun b hb => h' b (List.mem_cons_of_mem _ hb))]

theorem eraseIdx_map' {α β : Type} (f : α → β) (l : List α) (i : Nat) : (l.map f).eraseIdx i = (l.eraseIdx i).map f := by
  induction l generalizing i with
  | nil => rfl
  | cons x l ih =>
    cases i with
    | zero => rfl
    | succ i => simp [ih]

theorem zip_map_left' {α β : Type} (f : β → β) (l : List α) (k : List β) : l.zip (k.map f) = (l.zip k).map fun x => (x.1, f x.2) := by
  induction l generalizing k with
  | nil => rfl
  | cons x l ih =>
    match k with
    | [] => rfl
    | y :: k => simp [ih]

theorem zip_map_map_self {α β γ : Type} (f : α → β) (g : α → γ) (l : List α) : (l.map f).zip (l.map g) = l.map fun x => (f x, g x) := by
  induction l with
  | nil => rfl
  | cons x l ih => simp [ih]

/-- A text that is not a number, or that stands for a missing value. -/
def NotNum (parse : Str → Option ℚ) (x : Option Cell) : Prop := ∃ s, x = some (.text s) ∧ (s ∈ Spec.missing ∨ parse s = none)

theorem toNumeric_nums (parse : Str → Option ℚ) (l : List (Option Cell)) : toNumeric parse (nums parse l) = some (nums parse l) := by
  induction l with
  | nil => rfl
  | cons x l ih =>
    rw [nums, List.map_cons]
    rw [nums] at ih
    cases (Spec.value parse x).getD none <;> simp [toNumeric, ih]

theorem convert_erase (parse : Str → Option ℚ) (l : List (Option Cell)) (i : Nat) :
    toNumericIfPossible parse ((toNumericIfPossible parse (l.map Spec.kept)).eraseIdx i) =
      toNumericIfPossible parse ((l.eraseIdx i).map Spec.kept) := by
  rw [convert_kept, convert_kept]
  by_cases h : ∀ x ∈ l, (Spec.value parse x).isSome
  · have h' : ∀ x ∈ l.eraseIdx i, (Spec.value parse x).isSome := fun x hx => h x (List.mem_of_mem_eraseIdx hx)
    rw [if_pos h, if_pos h', nums, eraseIdx_map', toNumericIfPossible]
    have := toNumeric_nums parse (l.eraseIdx i)
    rw [nums] at this
    rw [this]
    rfl
  · rw [if_neg h, eraseIdx_map', convert_kept]

theorem convert_idem (parse : Str → Option ℚ) (l : List (Option Cell)) :
    toNumericIfPossible parse (toNumericIfPossible parse (l.map Spec.kept)) = toNumericIfPossible parse (l.map Spec.kept) := by
  have := convert_erase parse l l.length
  have hl : (toNumericIfPossible parse (l.map Spec.kept)).length ≤ l.length := by
    rw [convert_kept]
    split <;> simp [nums]
  rwa [List.eraseIdx_of_length_le hl, List.eraseIdx_of_length_le (Nat.le_refl _)] at this

theorem convert_notNum (parse : Str → Option ℚ) (l : List (Option Cell)) (hl : ∀ x ∈ l, NotNum parse x) :
    toNumericIfPossible parse (l.map Spec.kept) = l.map Spec.kept := by
  rw [convert_kept]
  split
  · rename_i h
    refine List.map_congr_left (fun x hx => ?_)
    obtain ⟨s, rfl, hs⟩ := hl x hx
    have := h _ hx
    rcases hs with hs | hs
    · simp [Spec.value, Spec.kept, hs]
    · by_cases hm : s ∈ Spec.missing
      · simp [Spec.value, Spec.kept, hm]
      · simp [Spec.value, hm, hs] at this
  · rfl

theorem convert_get (parse : Str → Option ℚ) (l : List (Option Cell)) (i : Nat) (hl : ∀ x, l[i]? = some x → NotNum parse x) :
    ((toNumericIfPossible parse (l.map Spec.kept))[i]?).getD none = ((l.map Spec.kept)[i]?).getD none := by
  rw [convert_kept]
  split
  · rename_i h
    rw [nums, List.getElem?_map, List.getElem?_map]
    cases hx : l[i]? with
    | none => rfl
    | some x =>
      obtain ⟨s, rfl, hs⟩ := hl x hx
      have := h _ (List.mem_of_getElem? hx)
      rcases hs with hs | hs
      · simp [Spec.value, Spec.kept, hs]
      · by_cases hm : s ∈ Spec.missing
        · simp [Spec.value, Spec.kept, hm]
        · simp [Spec.value, hm, hs] at this
  · rfl

theorem takeUnits_convert (parse : Str → Option ℚ) (byRow : Bool) (factors : Option (Dict Str ℚ)) (t : Table)
    (hrow : byRow = true → ∀ i c, unitsKey (t.cols.map Prod.fst) = some i → t.cols[i]? = some c → ∀ x ∈ c.2, NotNum parse x)
    (hcol : byRow = false → ∀ i, unitsKey t.index = some i → ∀ c ∈ t.cols, ∀ x, c.2[i]? = some x → NotNum parse x) :
    takeUnits parse byRow factors (convertDtypes parse (parseNa t)) = takeUnits parse byRow factors (parseNa t) := by
  rw [parseNa_eq]
  cases byRow with
  | true =>
    simp only [takeUnits, if_true, List.map_map, Function.comp_def, convertDtypes, eraseIdx_map', convert_idem]
    cases hk : unitsKey (t.cols.map fun x => x.1) with
    | none => rfl
    | some i =>
      simp only [List.getElem?_map]
      cases hc : t.cols[i]? with
      | none => rfl
      | some c => simp only [Option.map_some, Option.getD_some, convert_notNum parse _ (hrow rfl i c hk hc)]
  | false =>
    simp only [takeUnits, Bool.false_eq_true, if_false, List.map_map, Function.comp_def, convertDtypes, convert_idem]
    cases hk : unitsKey t.index with
    | none => rfl
    | some i =>
      have h1 : (t.cols.map fun x => (x.1, ((toNumericIfPossible parse (x.2.map Spec.kept))[i]?).getD none)) =
          t.cols.map fun x => (x.1, ((x.2.map Spec.kept)[i]?).getD none) :=
        List.map_congr_left (fun c hc => by rw [convert_get parse c.2 i (hcol rfl i hk c hc)])
      simp only [h1, convert_erase, eraseIdx_map']

theorem readCsv_eq (parse : Str → Option ℚ) (t : TextTable) : readCsv parse t = convertDtypes parse (parseNa (Spec.cells t)) := by
  rw [readCsv, parseNa_eq]
  congr 1
  simp only [Spec.cells, List.map_map, Function.comp_def, Table.mk.injEq, true_and]
  refine List.map_congr_left (fun c _ => ?_)
  congr 1
  refine List.map_congr_left (fun s _ => ?_)
  exact na_kept (some (.text s))

/-! ## Properties -/

/-- Variables in rows: the units are in the column `Units` (first of that name, any case).  Every column whose cells are numbers or missing
is numeric, each number multiplied by the factor of the unit of its row; other columns are kept.  The labels are split at dashes and
sorted, and the units are returned. -/
theorem C113_by_row (parse : Str → Option ℚ) (reindex : Bool) (factors : Option (Dict Str ℚ)) (t : Table) (hr : Spec.Rect t)
    (hi : t.index ≠ []) (i : Nat) (hu : Spec.UnitsAt (t.cols.map Prod.fst) i) (ucol : Str × List (Option Cell))
    (hcol : t.cols[i]? = some ucol) (hne : t.cols.eraseIdx i ≠ []) :
    ∃ out, loadData parse true reindex factors (.frame t) = .ok out ∧
      Spec.Arranged reindex t.index ((t.cols.eraseIdx i).map fun c =>
        (c.1, Spec.column parse (ucol.2.map fun u => Spec.factor factors (Spec.kept u)) c.2)) out ∧
      Spec.UnitsOf (t.index.zip ucol.2) out.units := by
  have hul : ucol.2.length = t.index.length := hr ucol (List.mem_of_getElem? hcol)
  obtain ⟨uo, huo, hus⟩ := unitsOut_eq (t.index.zip ucol.2) (by
    intro h
    have := congrArg List.length h
    rw [List.length_zip, hul] at this
    simp at this
    exact hi this)
  have hk : unitsKey (t.cols.map fun x => x.1) = some i := unitsKey_some _ i hu
  have hz : t.index.zip (ucol.2.map Spec.kept) = (t.index.zip ucol.2).map fun u => (u.1, Spec.kept u.2) := zip_map_left' _ _ _
  have htake : takeUnits parse true factors (parseNa t) = .ok (some ((t.index.zip ucol.2).map fun u => (u.1, Spec.kept u.2)),
      ⟨t.index, (t.cols.eraseIdx i).map fun c =>
        (c.1, Spec.column parse (ucol.2.map fun u => Spec.factor factors (Spec.kept u)) c.2)⟩) := by
    rw [parseNa_eq]
    simp only [takeUnits, if_true, List.map_map, Function.comp_def, hk, List.getElem?_map, hcol, Option.map_some, Option.getD_some, hz,
      convertDtypes, eraseIdx_map']
    cases factors with
    | none =>
      simp only
      congr 3
      refine List.map_congr_left (fun c hc => ?_)
      have hc' := hr c (List.mem_of_mem_eraseIdx hc)
      have := column_one parse c.2 (ucol.2.map fun u => Spec.factor none (Spec.kept u)) (by simp [hul, hc']) (by simp [Spec.factor])
      rw [this]
    | some table =>
      simp only
      have : mapE (scaleRows (ucol.2.map fun x => unitFactor table (Spec.kept x)))
          ((t.cols.eraseIdx i).map fun x => (x.1, toNumericIfPossible parse (x.2.map Spec.kept))) =
          .ok ((t.cols.eraseIdx i).map fun c =>
            (c.1, Spec.column parse (ucol.2.map fun u => Spec.factor (some table) (Spec.kept u)) c.2)) := by
        refine mapE_map_all _ _ _ _ (fun c _ => ?_)
        simp only [scaleRows_eq, factor_eq]
      rw [this]
  obtain ⟨out, ho, ha, hou⟩ := arrange_eq reindex _ t.index ((t.cols.eraseIdx i).map fun c =>
        (c.1, Spec.column parse (ucol.2.map fun u => Spec.factor factors (Spec.kept u)) c.2)) (by simpa using hne) (Or.inr hi)
      (by
        intro c hc
        obtain ⟨c', hc', rfl⟩ := List.mem_map.1 hc
        have hl := hr c' (List.mem_of_mem_eraseIdx hc')
        simp only [Spec.column]
        split <;> simp [hl, hul]) uo huo
  refine ⟨out, ?_, ha, hou ▸ hus⟩
  simp only [loadData, readSource, htake, ho]

/-- Variables in columns: the units are in the row `Units`.  If there is a table of units, all columns have to be numeric; each is
multiplied by the factor of its unit.  Without a table of units, other columns are kept. -/
theorem C113_by_column_partial (parse : Str → Option ℚ) (reindex : Bool) (factors : Option (Dict Str ℚ)) (t : Table) (hr : Spec.Rect t)
    (i : Nat) (hu : Spec.UnitsAt t.index i) (hne : t.cols ≠ []) (hi : reindex = true ∨ t.index.eraseIdx i ≠ [])
    (hnum : factors = none ∨ ∀ c ∈ t.cols, ∀ x ∈ c.2.eraseIdx i, (Spec.value parse x).isSome) :
    ∃ out, loadData parse false reindex factors (.frame t) = .ok out ∧
      Spec.Arranged reindex (t.index.eraseIdx i) (t.cols.map fun c =>
        (c.1, Spec.column parse (List.replicate (c.2.eraseIdx i).length (Spec.factor factors (Spec.kept ((c.2[i]?).getD none))))
          (c.2.eraseIdx i))) out ∧
      Spec.UnitsOf (t.cols.map fun c => (c.1, (c.2[i]?).getD none)) out.units := by
  obtain ⟨uo, huo, hus⟩ := unitsOut_eq (t.cols.map fun c => (c.1, (c.2[i]?).getD none)) (by simpa using hne)
  have hk : unitsKey t.index = some i := unitsKey_some _ i hu
  have hg : ∀ c : Str × List (Option Cell), ((c.2.map Spec.kept)[i]?).getD none = Spec.kept ((c.2[i]?).getD none) := by
    intro c
    rw [List.getElem?_map]
    cases c.2[i]? <;> rfl
  have htake : takeUnits parse false factors (parseNa t) = .ok (some ((t.cols.map fun c => (c.1, (c.2[i]?).getD none)).map
      fun u => (u.1, Spec.kept u.2)), ⟨t.index.eraseIdx i, t.cols.map fun c =>
        (c.1, Spec.column parse (List.replicate (c.2.eraseIdx i).length (Spec.factor factors (Spec.kept ((c.2[i]?).getD none))))
          (c.2.eraseIdx i))⟩) := by
    rw [parseNa_eq]
    simp only [takeUnits, Bool.false_eq_true, if_false, List.map_map, Function.comp_def, hk, convertDtypes, eraseIdx_map', hg]
    cases factors with
    | none =>
      simp only
      congr 3
      refine List.map_congr_left (fun c hc => ?_)
      have := column_one parse (c.2.eraseIdx i) (List.replicate (c.2.eraseIdx i).length
        (Spec.factor none (Spec.kept ((c.2[i]?).getD none)))) (by simp) (by simp [Spec.factor])
      rw [this]
    | some table =>
      simp only
      have hn : ∀ c ∈ t.cols, ∀ x ∈ c.2.eraseIdx i, (Spec.value parse x).isSome := hnum.resolve_left (by simp)
      rw [zip_map_map_self]
      rw [mapE_map_all _ _ (fun c => (c.1, Spec.column parse (List.replicate (c.2.eraseIdx i).length
        (Spec.factor (some table) (Spec.kept ((c.2[i]?).getD none)))) (c.2.eraseIdx i))) _ (fun c hc => ?_)]
      simp only [scaleCol_eq parse _ _ _ (hn c hc), factor_eq]
  obtain ⟨out, ho, ha, hou⟩ := arrange_eq reindex _ (t.index.eraseIdx i) (t.cols.map fun c =>
        (c.1, Spec.column parse (List.replicate (c.2.eraseIdx i).length (Spec.factor factors (Spec.kept ((c.2[i]?).getD none))))
          (c.2.eraseIdx i))) (by simpa using hne) hi
      (by
        intro c hc
        obtain ⟨c', hc', rfl⟩ := List.mem_map.1 hc
        have hl := hr c' hc'
        have : (c'.2.eraseIdx i).length = (t.index.eraseIdx i).length := by simp [List.length_eraseIdx, hl]
        simp only [Spec.column]
        split <;> simp [this]) uo huo
  refine ⟨out, ?_, ha, hou ▸ hus⟩
  simp only [loadData, readSource, htake, ho]

/-- What is missing in `C113_by_column_partial`: with a table of units, a table with variables in columns and a column of text is refused. -/
theorem C113_text_column_refused (parse : Str → Option ℚ) (reindex : Bool) (table : Dict Str ℚ) (t : Table) (i : Nat)
    (hu : Spec.UnitsAt t.index i) (h : ∃ c ∈ t.cols, ∃ x ∈ c.2.eraseIdx i, Spec.value parse x = none) :
    loadData parse false reindex (some table) (.frame t) = .error .typeError := by
  have hk : unitsKey t.index = some i := unitsKey_some _ i hu
  simp only [loadData, readSource, parseNa_eq, takeUnits, Bool.false_eq_true, if_false, List.map_map, Function.comp_def, hk, convertDtypes,
    eraseIdx_map', zip_map_map_self]
  rw [mapE_typeError]
  · obtain ⟨c, hc, x, hx, hv⟩ := h
    refine ⟨_, List.mem_map.2 ⟨c, hc, rfl⟩, ?_⟩
    simp only
    exact scaleCol_text parse _ _ _ (fun h' => by simpa [hv] using h' x hx)
  · intro a ha e he
    obtain ⟨c, hc, rfl⟩ := List.mem_map.1 ha
    by_cases hn : ∀ x ∈ c.2.eraseIdx i, (Spec.value parse x).isSome
    · simp only [scaleCol_eq parse _ _ _ hn] at he
      cases he
    · simp only [scaleCol_text parse _ _ _ hn] at he
      cases he
      rfl

/-- Without units, the numbers are kept as they are. -/
theorem C113_no_units (parse : Str → Option ℚ) (byRow reindex : Bool) (factors : Option (Dict Str ℚ)) (t : Table) (hr : Spec.Rect t)
    (hu : ∀ k ∈ (if byRow then t.cols.map Prod.fst else t.index), k.map Char.toLower ≠ str "units") (hne : t.cols ≠ [])
    (hi : reindex = true ∨ t.index ≠ []) :
    ∃ out, loadData parse byRow reindex factors (.frame t) = .ok out ∧
      Spec.Arranged reindex t.index (t.cols.map fun c => (c.1, Spec.column parse (List.replicate c.2.length 1) c.2)) out ∧
      out.units = none := by
  have hcols : ∀ c ∈ t.cols, toNumericIfPossible parse (c.2.map Spec.kept) = Spec.column parse (List.replicate c.2.length 1) c.2 :=
    fun c _ => column_one parse c.2 _ (by simp) (by simp)
  have htake : takeUnits parse byRow factors (parseNa t) =
      .ok (none, ⟨t.index, t.cols.map fun c => (c.1, Spec.column parse (List.replicate c.2.length 1) c.2)⟩) := by
    rw [parseNa_eq]
    have hm : (t.cols.map fun c => (c.1, toNumericIfPossible parse (c.2.map Spec.kept))) =
        t.cols.map fun c => (c.1, Spec.column parse (List.replicate c.2.length 1) c.2) :=
      List.map_congr_left (fun c hc => by rw [hcols c hc])
    cases byRow with
    | true =>
      have hk : unitsKey (t.cols.map fun x => x.1) = none := unitsKey_none _ (by simpa using hu)
      simp only [takeUnits, if_true, List.map_map, Function.comp_def, hk, convertDtypes, hm]
    | false =>
      have hk : unitsKey t.index = none := unitsKey_none _ (by simpa using hu)
      simp only [takeUnits, Bool.false_eq_true, if_false, List.map_map, Function.comp_def, hk, convertDtypes, hm]
  obtain ⟨out, ho, ha, hou⟩ := arrange_eq reindex none t.index
    (t.cols.map fun c => (c.1, Spec.column parse (List.replicate c.2.length 1) c.2)) (by simpa using hne) hi
    (by
      intro c hc
      obtain ⟨c', hc', rfl⟩ := List.mem_map.1 hc
      have hl := hr c' hc'
      simp only [Spec.column]
      split <;> simp [hl]) none rfl
  refine ⟨out, ?_, ha, hou⟩
  simp only [loadData, readSource, htake, ho]

/-- A table in a CSV file means the same as a data frame with the same texts, provided that the names of the units are not numbers. -/
theorem C113_file (parse : Str → Option ℚ) (byRow reindex : Bool) (factors : Option (Dict Str ℚ)) (t : TextTable)
    (hrow : byRow = true → ∀ i c, Spec.UnitsAt (t.cols.map Prod.fst) i → t.cols[i]? = some c →
      ∀ s ∈ c.2, s ∈ Spec.missing ∨ parse s = none)
    (hcol : byRow = false → ∀ i, Spec.UnitsAt t.index i → ∀ c ∈ t.cols, ∀ s, c.2[i]? = some s → s ∈ Spec.missing ∨ parse s = none) :
    loadData parse byRow reindex factors (.file (str ".csv") (some t)) = loadData parse byRow reindex factors (.frame (Spec.cells t)) := by
  have hat : ∀ labels i, unitsKey labels = some i → Spec.UnitsAt labels i := by
    intro labels i h
    rw [unitsKey, List.findIdx?_eq_some_iff_getElem] at h
    obtain ⟨hi, he, hf⟩ := h
    refine ⟨⟨labels[i], List.getElem?_eq_getElem hi, by simpa [CommandLine.lower] using he⟩, fun j hj k hk => ?_⟩
    obtain ⟨hj', hk'⟩ := List.getElem?_eq_some_iff.1 hk
    subst hk'
    simpa [CommandLine.lower] using hf j hj
  simp only [loadData, readSource, if_true, readCsv_eq]
  rw [takeUnits_convert]
  · intro hb i c hk hc x hx
    simp only [Spec.cells, List.getElem?_map, Option.map_eq_some_iff] at hc
    obtain ⟨c', hc', rfl⟩ := hc
    obtain ⟨s, hs, rfl⟩ := List.mem_map.1 hx
    refine ⟨s, rfl, hrow hb i c' (hat _ _ ?_) hc' s hs⟩
    simpa [Spec.cells, Function.comp_def] using hk
  · intro hb i hk c hc x hx
    obtain ⟨c', hc', rfl⟩ := List.mem_map.1 hc
    simp only [List.getElem?_map, Option.map_eq_some_iff] at hx
    obtain ⟨s, hs, rfl⟩ := hx
    exact ⟨s, rfl, hcol hb i (hat _ _ hk) c' hc' s hs⟩

/-- If the unit of a column of numbers is the number one in a CSV file, the unit is not recognized, although it is in a data frame. -/
theorem C113_numeric_unit (parse : Str → Option ℚ) (table : Dict Str ℚ) (u x : Str) (f q v : ℚ) (hu : parse u = some v)
    (hx : parse x = some q) (hum : u ∉ Spec.missing) (hxm : x ∉ Spec.missing) (hf : table.get? u = some f) :
    loadData parse false true (some table) (.file (str ".csv") (some ⟨[str "Units", str "0"], [(str "PGA", [u, x])]⟩)) =
        .ok ⟨none, [([str "PGA"], [some (.num q)])], some [([str "PGA"], .num v)]⟩ ∧
      loadData parse false true (some table) (.frame ⟨[str "Units", str "0"], [(str "PGA", [some (.text u), some (.text x)])]⟩) =
        .ok ⟨none, [([str "PGA"], [some (.num (q * f))])], some [([str "PGA"], .text u)]⟩ := by
  have hk : unitsKey [str "Units", str "0"] = some 0 := by decide +kernel
  have hl : levels [str "PGA"] = .ok [[str "PGA"]] := by decide +kernel
  have hun : u ∉ naVals := fun h => hum (na_sub h)
  have hxn : x ∉ naVals := fun h => hxm (na_sub h)
  constructor
  · simp [loadData, readSource, readCsv, hun, hxn, convertDtypes, toNumericIfPossible, toNumeric, hu, hx, takeUnits, hk, unitFactor, scaleCol,
      mapE, scaleCell, arrange, hl, unitsOut, pySort, insertSorted]
  · simp [loadData, readSource, parseNa, checkNa, hun, hxn, convertDtypes, toNumericIfPossible, toNumeric, hx, takeUnits, hk, unitFactor,
      scaleCol, mapE, scaleCell, arrange, hl, unitsOut, pySort, insertSorted, hf]

/-- Other sources are refused: files that are not CSV files, files that do not exist, and objects of other types. -/
theorem C113_refused (parse : Str → Option ℚ) (byRow reindex : Bool) (factors : Option (Dict Str ℚ)) (suffix : Str) (t : TextTable) :
    loadData parse byRow reindex factors (.file suffix none) = .error .fileNotFoundError ∧
      (suffix ≠ str ".csv" → loadData parse byRow reindex factors (.file suffix (some t)) = .error .valueError) ∧
      loadData parse byRow reindex factors .other = .error .typeError := by
  refine ⟨rfl, fun h => ?_, rfl⟩
  simp [loadData, readSource, h]

/-- Tables without data are refused: no columns other than the units, and, unless the rows are numbered, no rows other than the units. -/
theorem C113_empty_refused (parse : Str → Option ℚ) (reindex : Bool) (t : Table) :
    (∀ byRow, t.cols = [] → loadData parse byRow reindex none (.frame t) = .error .valueError) ∧
      (∀ c, t.cols = [c] → c.1.map Char.toLower = str "units" → loadData parse true reindex none (.frame t) = .error .valueError) ∧
      (∀ byRow, t.index = [] → loadData parse byRow false none (.frame t) = .error .valueError) := by
  have hE : ∀ x : Option (List (Str × Option Cell)) × Table, x.2.cols = [] → arrange reindex x = .error .valueError := by
    intro x hx
    simp only [arrange, hx, List.map_nil, levels_nil]
  have hE' : ∀ x : Option (List (Str × Option Cell)) × Table, x.2.index = [] → arrange false x = .error .valueError := by
    intro x hx
    simp only [arrange, hx, levels_nil, Bool.false_eq_true, if_false]
    by_cases hc : x.2.cols.map Prod.fst = []
    · simp only [hc, levels_nil]
    · obtain ⟨m, _, he⟩ := levels_eq _ hc
      simp only [he]
  have key : ∀ byRow, ∃ x, takeUnits parse byRow none (parseNa t) = .ok x ∧ (t.cols = [] → x.2.cols = []) ∧
      (t.index = [] → x.2.index = []) ∧
      (byRow = true → ∀ c, t.cols = [c] → c.1.map Char.toLower = str "units" → x.2.cols = []) := by
    intro byRow
    rw [parseNa_eq]
    cases byRow with
    | true =>
      simp only [takeUnits, if_true, List.map_map, Function.comp_def, convertDtypes, eraseIdx_map']
      cases hk : unitsKey (t.cols.map fun x => x.1) with
      | none =>
        refine ⟨_, rfl, by simp, by simp, fun _ c hc hu => ?_⟩
        have := unitsKey_some [c.1] 0 ⟨⟨c.1, rfl, hu⟩, by simp⟩
        rw [hc] at hk
        simp only [List.map_cons, List.map_nil, this] at hk
        cases hk
      | some i =>
        refine ⟨_, rfl, fun h => by simp [h], by simp, fun _ c hc hu => ?_⟩
        have := unitsKey_some [c.1] 0 ⟨⟨c.1, rfl, hu⟩, by simp⟩
        rw [hc] at hk
        simp only [List.map_cons, List.map_nil, this, Option.some.injEq] at hk
        subst hk
        simp [hc]
    | false =>
      simp only [takeUnits, Bool.false_eq_true, if_false, List.map_map, Function.comp_def, convertDtypes, eraseIdx_map']
      cases hk : unitsKey t.index with
      | none => exact ⟨_, rfl, by simp, by simp, by simp⟩
      | some i => exact ⟨_, rfl, by simp, fun h => by simp [h], by simp⟩
  refine ⟨fun byRow h => ?_, fun c hc hu => ?_, fun byRow h => ?_⟩
  · obtain ⟨x, hx, h1, _, _⟩ := key byRow
    simp only [loadData, readSource, hx, hE x (h1 h)]
  · obtain ⟨x, hx, _, _, h3⟩ := key true
    simp only [loadData, readSource, hx, hE x (h3 rfl c hc hu)]
  · obtain ⟨x, hx, _, h2, _⟩ := key byRow
    simp only [loadData, readSource, hx, hE' x (h2 h)]

/-! ## Examples -/

namespace Example

/-- Decimal digits only. -/
def parse (s : Str) : Option ℚ := if s = [] then none else (digitsVal 0 s).map fun n => (n : ℚ)

def factors : Dict Str ℚ := [(str "ft", 3 / 10), (str "m", 1)]

/-- Fragilities in rows. -/
def rows : Table :=
  ⟨[str "B.10-1", str "A.10-1"],
   [(str "LS1-Family", [some (.text (str "normal")), some (.text (str "N/A"))]),
    (str "UNITS", [some (.text (str "ft")), some (.text (str ""))]),
    (str "LS1-Theta_0", [some (.text (str "10")), some (.num 2)])]⟩

/-- Demands in columns. -/
def demands : TextTable :=
  ⟨[str "Units", str "0", str "1"],
   [(str "PID-1-1", [str "ft", str "10", str "NaN"]), (str "PFA-0-1", [str "", str "4", str "5"])]⟩

end Example

open Example in
/-- `C113_by_row`: the hypotheses hold, and the row with unit `ft` is converted. -/
example : Spec.Rect rows ∧ rows.index ≠ [] ∧ Spec.UnitsAt (rows.cols.map Prod.fst) 1 ∧ rows.cols.eraseIdx 1 ≠ [] ∧
    loadData parse true false (some factors) (.frame rows) =
      .ok ⟨some [[str "A.10", str "1"], [str "B.10", str "1"]],
        [([str "LS1", str "Family"], [none, some (.text (str "normal"))]),
         ([str "LS1", str "Theta_0"], [some (.num 2), some (.num 3)])],
        some [([str "B.10", str "1"], .text (str "ft"))]⟩ := by
  refine ⟨?_, by decide +kernel, ⟨⟨str "UNITS", by decide +kernel, by decide +kernel⟩, ?_⟩, by decide +kernel, by decide +kernel⟩
  · unfold Spec.Rect; decide +kernel
  · intro j hj k hk
    obtain rfl : j = 0 := by omega
    have : k = str "LS1-Family" := by
      have h : (rows.cols.map Prod.fst)[0]? = some (str "LS1-Family") := by decide +kernel
      rw [h] at hk; exact (Option.some.inj hk).symm
    subst this
    decide +kernel

open Example in
/-- `C113_by_column_partial`, `C113_file`: demands in a file and in a data frame. -/
example : Spec.Rect (Spec.cells demands) ∧ Spec.UnitsAt demands.index 0 ∧
    (∀ c ∈ (Spec.cells demands).cols, ∀ x ∈ c.2.eraseIdx 0, (Spec.value parse x).isSome) ∧
    (∀ c ∈ demands.cols, ∀ s, c.2[0]? = some s → s ∈ Spec.missing ∨ parse s = none) ∧
    loadData parse false true (some factors) (.file (str ".csv") (some demands)) =
      .ok ⟨none, [([str "PFA", str "0", str "1"], [some (.num 4), some (.num 5)]),
        ([str "PID", str "1", str "1"], [some (.num 3), none])], some [([str "PID", str "1", str "1"], .text (str "ft"))]⟩ := by
  refine ⟨?_, ⟨⟨str "Units", by decide +kernel, by decide +kernel⟩, by simp⟩, by decide +kernel, ?_, by decide +kernel⟩
  · unfold Spec.Rect; decide +kernel
  · have h : ∀ c ∈ demands.cols, ∀ s ∈ c.2[0]?, s ∈ Spec.missing ∨ parse s = none := by decide +kernel
    exact fun c hc s hs => h c hc s hs

open Example in
/-- `C113_text_column_refused`: a column of notes in a table of demands. -/
example : ∃ c ∈ (Table.mk [str "units", str "0"] [(str "PID-1-1", [some (.text (str "ft")), some (.num 1)]),
      (str "notes", [none, some (.text (str "estimated"))])]).cols,
    ∃ x ∈ c.2.eraseIdx 0, Spec.value parse x = none :=
  ⟨(str "notes", [none, some (.text (str "estimated"))]), by decide +kernel, some (.text (str "estimated")), by decide +kernel, by decide +kernel⟩

open Example in
/-- `C113_no_units` -/
example : (∀ k ∈ [str "PID-1-1", str "unit"], k.map Char.toLower ≠ str "units") ∧
    loadData parse true false (some factors) (.frame ⟨[str "b", str "a"], [(str "unit", [some (.text (str "ft")), none]), (str "PID-1-1", [some (.num 1), some (.text (str "null"))])]⟩) =
      .ok ⟨some [[str "a"], [str "b"]], [([str "PID", str "1", str "1"], [none, some (.num 1)]), ([str "unit", [], []], [none, some (.text (str "ft"))])], none⟩ := by
  decide +kernel

open Example in
/-- `C113_numeric_unit` -/
example : parse (str "1") = some 1 ∧ parse (str "7") = some 7 ∧ str "1" ∉ Spec.missing ∧ str "7" ∉ Spec.missing ∧
    Dict.get? ([(str "1", 2)] : Dict Str ℚ) (str "1") = some 2 := by
  decide +kernel

/-- `C113_empty_refused` -/
example : (str "Units").map Char.toLower = str "units" := by decide +kernel

end Verif.LoadTable
