import Verif.Model.RegGrid
import Verif.Props.Regional

/-! # Property C132: hazard data of a regional simulation -/

namespace Verif.RegGrid

variable {K : Type}

/-- Specification: the file is there and has all intensity measures. -/
def Complete (units : Dict Str Str) (f : Option (GridFile K)) : Prop :=
  ∃ x, f = some x ∧ ∀ im u, (im, u) ∈ units → im ∈ x.cols

theorem all_cols {units : Dict Str Str} {f : GridFile K} :
    ((units.map (·.1)).all fun im => decide (im ∈ f.cols)) = true ↔ ∀ im u, (im, u) ∈ units → im ∈ f.cols := by
  simp only [List.all_eq_true, List.mem_map, decide_eq_true_eq, Prod.exists]
  constructor
  · intro h im u hm; exact h im ⟨im, u, hm, rfl⟩
  · rintro h _ ⟨im, u, hm, rfl⟩; exact h im u hm

theorem loadPoint_ok {units : Dict Str Str} {samples : Nat} {f : Option (GridFile K)} {rows : List (Str → K)} :
    loadPoint (units.map (·.1)) samples f = .ok rows ↔ Complete units f ∧ ∃ x, f = some x ∧ rows = x.rows.take samples := by
  unfold loadPoint Complete
  cases f with
  | none => simp
  | some x =>
    by_cases h : ((units.map (·.1)).all fun im => decide (im ∈ x.cols)) = true
    · simp only [h, if_true]
      constructor
      · intro e; cases e; exact ⟨⟨x, rfl, all_cols.1 h⟩, x, rfl, rfl⟩
      · rintro ⟨_, y, hy, rfl⟩; cases hy; rfl
    · simp only [h]
      constructor
      · intro e; simp at e
      · rintro ⟨⟨y, hy, hc⟩, _⟩; cases hy; exact absurd (all_cols.2 hc) h

theorem checkFirst_ok {units : Dict Str Str} {files : List (Option (GridFile K))} (h : ∀ f ∈ files, Complete units f) (hne : files ≠ []) :
    checkFirst (units.map (·.1)) files = .ok () := by
  match files, hne with
  | f :: fs, _ =>
    obtain ⟨x, rfl, hx⟩ := h f (by simp)
    simp only [checkFirst]
    rw [if_pos (all_cols.2 hx)]

/-- C132: the hazard data are accepted exactly if the configuration has intensity measures, there are grid points, and the
file of every grid point is there and has all intensity measures. -/
theorem C132_accepted_iff (units : Option (Dict Str Str)) (samples : Nat) (files : List (Option (GridFile K))) :
    (∃ g, load units samples files = .ok g) ↔
      ∃ us, units = some us ∧ us ≠ [] ∧ files ≠ [] ∧ ∀ f ∈ files, Complete us f := by
  unfold load
  match units with
  | none => simp
  | some [] => simp
  | some (u :: us) =>
    simp only [Option.some.injEq, exists_eq_left', ne_eq, reduceCtorEq, not_false_eq_true, true_and]
    constructor
    · rintro ⟨g, hg⟩
      split at hg
      · simp at hg
      · rename_i hc
        split at hg
        · simp at hg
        · rename_i points hp
          refine ⟨?_, fun f hf => ?_⟩
          · rintro rfl; simp [checkFirst] at hc
          · have hall := mapE_ok_iff.1 hp
            clear hg hc hp
            induction hall with
            | nil => simp at hf
            | cons h1 _ ih =>
              rcases List.mem_cons.1 hf with rfl | hf
              · exact (loadPoint_ok.1 h1).1
              · exact ih hf
    · rintro ⟨hne, hall⟩
      rw [checkFirst_ok hall hne]
      obtain ⟨points, hp⟩ := mapE_ok_of_forall (f := loadPoint ((u :: us).map (·.1)) samples) (l := files) (by
        intro f hf
        obtain ⟨x, hx, hc⟩ := hall f hf
        exact ⟨_, loadPoint_ok.2 ⟨⟨x, hx, hc⟩, x, hx, rfl⟩⟩)
      simp only
      rw [hp]
      exact ⟨_, rfl⟩

theorem foldr_max_le {l : List Nat} {n : Nat} : l.foldr max 0 ≤ n ↔ ∀ x ∈ l, x ≤ n := by
  induction l with
  | nil => simp
  | cons a l ih => simp [ih]

/-- The points that are loaded. -/
theorem load_points {units : Dict Str Str} {samples : Nat} {files : List (Option (GridFile K))} {g : Grid K}
    (h : load (some units) samples files = .ok g) :
    ∃ points, List.Forall₂ (fun f rows => ∃ x, f = some x ∧ rows = x.rows.take samples) files points ∧ g = concat points := by
  unfold load at h
  match units with
  | [] => simp at h
  | u :: us =>
    simp only at h
    split at h
    · simp at h
    · split at h
      · simp at h
      · rename_i points hp
        cases h
        exact ⟨points, (mapE_ok_iff.1 hp).imp fun f rows hr => (loadPoint_ok.1 hr).2, rfl⟩

/-- C132: the value of an intensity measure at a grid point in a realization is the one in that row of the file of the grid
point; rows beyond the number of samples are not used.  There are as many realizations as rows in the longest file, but at
most as many as samples. -/
theorem C132_values (units : Dict Str Str) (samples : Nat) (files : List (Option (GridFile K))) (g : Grid K)
    (h : load (some units) samples files = .ok g) :
    (∀ i x, files[i]? = some (some x) → ∀ im u, (im, u) ∈ units → ∀ r, g.cell i im r = if r < samples then x.rows[r]?.map (fun row => row im) else none) ∧
    (∀ n, g.nReal ≤ n ↔ ∀ x, some x ∈ files → min samples x.rows.length ≤ n) := by
  obtain ⟨points, hp, rfl⟩ := load_points h
  constructor
  · intro i x hi im u _ r
    have hpi : points[i]? = some (x.rows.take samples) := by
      clear h
      induction hp generalizing i with
      | nil => simp at hi
      | cons h1 _ ih =>
        cases i with
        | zero =>
          simp only [List.getElem?_cons_zero, Option.some.injEq] at hi ⊢
          obtain ⟨y, hy, rfl⟩ := h1
          rw [hi] at hy; cases hy; rfl
        | succ i => exact ih i (by simpa using hi)
    show (points[i]?.bind fun rows => rows[r]?).map (fun row => row im) = _
    rw [hpi, Option.bind_some, List.getElem?_take]
    split <;> rfl
  · intro n
    show (points.map List.length).foldr max 0 ≤ n ↔ _
    rw [foldr_max_le]
    clear h
    induction hp with
    | nil => simp
    | cons h1 _ ih =>
      obtain ⟨y, rfl, rfl⟩ := h1
      rw [List.map_cons, List.forall_mem_cons, ih, List.length_take]
      constructor
      · rintro ⟨a, b⟩ x hx
        rcases List.mem_cons.1 hx with hx | hx
        · cases hx; exact a
        · exact b x hx
      · intro hall
        exact ⟨hall y (by simp), fun x hx => hall x (List.mem_cons_of_mem _ hx)⟩

/-- C132, when all files have the same number of rows, or at least as many as samples: no value is missing, and there are as
many realizations as rows, or as samples if there are fewer.  Without this condition the property is false, see
`C132_short_file`. -/
theorem C132_no_gaps_partial (units : Dict Str Str) (samples : Nat) (files : List (Option (GridFile K))) (g : Grid K)
    (h : load (some units) samples files = .ok g) (n : Nat) (hn : ∀ x, some x ∈ files → min samples x.rows.length = n) :
    g.nReal = n ∧ ∀ i < files.length, ∀ im u, (im, u) ∈ units → ∀ r < g.nReal, ∃ v, g.cell i im r = some v := by
  obtain ⟨h1, h2⟩ := C132_values units samples files g h
  obtain ⟨us, hus, hune, hfne, hall⟩ := (C132_accepted_iff (some units) samples files).1 ⟨g, h⟩
  have hnr : g.nReal = n := by
    apply Nat.le_antisymm
    · exact (h2 n).2 fun x hx => (hn x hx).le
    · obtain ⟨f, hf⟩ := List.exists_mem_of_ne_nil _ hfne
      obtain ⟨x, rfl, _⟩ := hall f hf
      rw [← hn x hf]
      exact (h2 g.nReal).1 (Nat.le_refl _) x hf
  refine ⟨hnr, fun i hi im u hu r hr => ?_⟩
  obtain ⟨x, hx, _⟩ := hall files[i] (List.getElem_mem hi)
  have hix : files[i]? = some (some x) := by rw [List.getElem?_eq_getElem hi, hx]
  have hm : some x ∈ files := hx ▸ List.getElem_mem hi
  have hlt : r < min samples x.rows.length := by rw [hn x hm, ← hnr]; exact hr
  rw [h1 i x hix im u hu r, if_pos (by omega), List.getElem?_eq_getElem (by omega)]
  exact ⟨_, rfl⟩

/-- Violation of C132: if the file of a grid point has fewer rows than another one and than the samples, the data are accepted, and
the value of every intensity measure is missing at this grid point in a realization that is used. -/
theorem C132_short_file (units : Dict Str Str) (samples : Nat) (files : List (Option (GridFile K))) (g : Grid K)
    (h : load (some units) samples files = .ok g) (i : Nat) (x y : GridFile K) (hi : files[i]? = some (some x)) (hy : some y ∈ files)
    (hlt : x.rows.length < min samples y.rows.length) :
    x.rows.length < g.nReal ∧ ∀ im u, (im, u) ∈ units → g.cell i im x.rows.length = none := by
  obtain ⟨h1, h2⟩ := C132_values units samples files g h
  refine ⟨Nat.lt_of_lt_of_le hlt ((h2 g.nReal).1 (Nat.le_refl _) y hy), fun im u hu => ?_⟩
  rw [h1 i x hi im u hu]
  split
  · rw [List.getElem?_eq_none (Nat.le_refl _)]; rfl
  · rfl

/-- C132: what is refused, and how. -/
theorem C132_refused (samples : Nat) (files : List (Option (GridFile K))) (us : Dict Str Str) (x : GridFile K)
    (rest : List (Option (GridFile K))) (hus : us ≠ []) :
    load none samples files = .error .valueError ∧ load (some []) samples files = .error .valueError ∧
    ((∃ im u, (im, u) ∈ us ∧ im ∉ x.cols) → load (some us) samples (some x :: rest) = .error .valueError) := by
  refine ⟨rfl, rfl, ?_⟩
  rintro ⟨im, u, hm, hn⟩
  match us, hus with
  | v :: vs, _ =>
    have : ¬ ((((v :: vs : Dict Str Str).map (·.1)).all fun im => decide (im ∈ x.cols)) = true) := fun hc => hn (all_cols.1 hc im u hm)
    simp only [load, checkFirst]
    rw [if_neg this]

/-- C132: an intensity measure that is missing in the file of a later grid point is refused with another error than one that is
missing in the first file: only the first file is checked. -/
theorem C132_later_file (samples : Nat) (us : Dict Str Str) (hus : us ≠ []) (before after : List (Option (GridFile K))) (y : GridFile K)
    (hne : before ≠ []) (hb : ∀ f ∈ before, Complete us f) (hy : ∃ im u, (im, u) ∈ us ∧ im ∉ y.cols) :
    load (some us) samples (before ++ some y :: after) = .error .keyError := by
  obtain ⟨im, u, hm, hn⟩ := hy
  match us, hus with
  | v :: vs, _ =>
    have hc : checkFirst ((v :: vs : Dict Str Str).map (·.1)) (before ++ some y :: after) = .ok () := by
      match before, hne with
      | f :: fs, _ =>
        obtain ⟨x, rfl, hx⟩ := hb f (by simp)
        rw [List.cons_append]
        exact if_pos (all_cols.2 hx)
    have hl : mapE (loadPoint ((v :: vs : Dict Str Str).map (·.1)) samples) (before ++ some y :: after) = .error .keyError := by
      clear hc hne
      induction before with
      | nil =>
        have : ¬ ((((v :: vs : Dict Str Str).map (·.1)).all fun im => decide (im ∈ y.cols)) = true) := fun hc => hn (all_cols.1 hc im u hm)
        have e : loadPoint ((v :: vs : Dict Str Str).map (·.1)) samples (some y) = .error .keyError := by
          unfold loadPoint
          exact if_neg this
        rw [List.nil_append, mapE, e]
        try rfl
      | cons f fs ih =>
        obtain ⟨x, hx, hxc⟩ := hb f (by simp)
        have e := (loadPoint_ok (samples := samples)).2 ⟨⟨x, hx, hxc⟩, x, hx, rfl⟩
        rw [List.cons_append, mapE, e, ih fun g hg => hb g (List.mem_cons_of_mem _ hg)]
        try rfl
    unfold load
    simp only
    rw [hc]
    simp only
    rw [hl]

/-- Specification: the value of an intensity measure in a row of the file of a grid point. -/
def fileValue [Zero K] (files : List (Option (GridFile K))) (p : Nat) (im : Str) (r : Nat) : K :=
  match files[p]? with
  | some (some x) => match x.rows[r]? with
    | some row => row im
    | none => 0
  | _ => 0

/-- C132 and C70, from the files to the demands: if the intensity measures are listed in alphabetical order and all files have the
same number of rows (or at least as many as samples), the demands of every building are averages of the values in the files of its
neighbours, in the row of the realization; rows are repeated if there are fewer than samples.  Missing: other orders
(`C70_mislabelled`) and files of different lengths (`C132_short_file`). -/
theorem C132_demands_partial [Field K] [LinearOrder K] [IsStrictOrderedRing K] (eps : K) (units : Dict Str Str) (samples : Nat)
    (files : List (Option (GridFile K))) (g : Grid K) (h : load (some units) samples files = .ok g)
    (n : Nat) (hpos : 0 < n) (hn : ∀ x, some x ∈ files → min samples x.rows.length = n)
    (hnd : (units.map (·.1)).Nodup) (hsorted : (units.map (·.1)).Pairwise fun a b => strLe a b = true)
    (kn : Int → List (K × Nat)) (hk : ∀ l, ∀ p ∈ kn l, p.2 < files.length) (nN : Nat) (locs : List Int) :
    Regional.demandSample eps files.length (units.map (·.1)) (fun p im r => (g.cell p im r).getD 0) g.nReal kn nN samples locs =
      .ok (locs.flatMap fun loc => (units.map (·.1)).map fun im =>
        ((im, loc), (List.range samples).map fun j => Regional.average eps (kn loc) fun p => fileValue files p im (j % n))) := by
  obtain ⟨us, hus, hune, hfne, hall⟩ := (C132_accepted_iff (some units) samples files).1 ⟨g, h⟩
  obtain ⟨h1, _⟩ := C132_values units samples files g h
  obtain ⟨hnr, _⟩ := C132_no_gaps_partial units samples files g h n hn
  have hlen : 0 < files.length := List.length_pos_of_ne_nil hfne
  rw [Regional.C70_labels_partial eps files.length hlen _ hnd hsorted _ g.nReal kn hk nN samples locs, hnr]
  congr 1
  refine List.flatMap_congr fun loc _ => ?_
  refine List.map_congr_left fun im him => ?_
  obtain ⟨⟨im', u⟩, hu, rfl⟩ := List.mem_map.1 him
  refine congrArg _ (List.map_congr_left fun j _ => ?_)
  have key : ∀ p ∈ kn loc, (g.cell p.2 im' (j % n)).getD 0 = fileValue files p.2 im' (j % n) := by
    intro p hp
    have hi := hk loc p hp
    obtain ⟨x, hx, _⟩ := hall files[p.2] (List.getElem_mem hi)
    have hix : files[p.2]? = some (some x) := by rw [List.getElem?_eq_getElem hi, hx]
    have hm : some x ∈ files := hx ▸ List.getElem_mem hi
    have hlt : j % n < min samples x.rows.length := by rw [hn x hm]; exact Nat.mod_lt _ hpos
    rw [h1 p.2 x hix im' u hu, if_pos (by omega), fileValue, hix]
    have hr : x.rows[j % n]? = some (x.rows[j % n]'(by omega)) := List.getElem?_eq_getElem (by omega)
    simp only [hr]
    rfl
  unfold Regional.average
  congr 2
  refine List.map_congr_left fun p hp => ?_
  show (g.cell p.2 im' (j % n)).getD 0 / _ = _
  rw [key p hp]

/-! ### Examples -/

def point (n : Nat) : GridFile Nat := ⟨[str "PGA", str "SA_1.0"], (List.range n).map fun i im => if im = str "PGA" then i else 10 * i⟩

def units : Dict Str Str := [(str "PGA", str "g")]

/-- Two grid points with three rows and two samples. -/
example : (match load (some units) 2 [some (point 3), some (point 3)] with
    | .ok g => some (g.nReal, g.cell 0 (str "PGA") 1, g.cell 1 (str "PGA") 1, g.cell 0 (str "PGA") 2) | .error _ => none) =
    some (2, some 1, some 1, none) := by decide +kernel

theorem units_complete (n : Nat) : Complete units (some (point n)) := by
  refine ⟨_, rfl, fun im u h => ?_⟩
  simp only [units, List.mem_singleton, Prod.mk.injEq] at h
  rw [h.1]
  exact List.mem_cons_self

/-- A second file without the intensity measure. -/
example : load (some units) 5 [some (point 3), some ⟨[str "PGV"], (point 3).rows⟩] = .error .keyError :=
  C132_later_file 5 units (by decide) [some (point 3)] [] _ (by simp)
    (by intro f hf; rw [List.mem_singleton] at hf; rw [hf]; exact units_complete 3) ⟨str "PGA", str "g", by simp [units], by decide⟩

/-- A first file without the intensity measure. -/
example : load (some units) 5 [some ⟨[str "PGV"], (point 3).rows⟩, some (point 3)] = .error .valueError :=
  (C132_refused 5 [] units _ _ (by decide)).2.2 ⟨str "PGA", str "g", by simp [units], by decide⟩

/-- The hypotheses of the theorems on accepted data are met, with equal and with different numbers of rows. -/
example : (∃ g, load (some units) 5 [some (point 3), some (point 3)] = .ok g ∧ g.nReal = 3) ∧
    ∃ g, load (some units) 5 [some (point 3), some (point 4)] = .ok g ∧ g.cell 0 (str "PGA") 3 = none := by
  have key : ∀ a b, ∃ g, load (some units) 5 [some (point a), some (point b)] = .ok g := fun a b =>
    (C132_accepted_iff _ _ _).2 ⟨units, rfl, by decide, by simp, by
      intro f hf
      simp only [List.mem_cons, List.not_mem_nil, or_false] at hf
      rcases hf with rfl | rfl <;> exact units_complete _⟩
  refine ⟨?_, ?_⟩
  · obtain ⟨g, hg⟩ := key 3 3
    refine ⟨g, hg, (C132_no_gaps_partial _ _ _ g hg 3 ?_).1⟩
    intro x hx
    simp only [List.mem_cons, Option.some.injEq, List.not_mem_nil, or_false, or_self] at hx
    rw [hx]; rfl
  · obtain ⟨g, hg⟩ := key 3 4
    exact ⟨g, hg, (C132_short_file _ _ _ g hg 0 (point 3) (point 4) rfl (by simp) (by decide)).2 _ (str "g") (by simp [units])⟩

/-- The hypotheses of `C132_demands_partial` are met: two grid points with two rows and one building in the middle, three samples. -/
example : ∃ g : Grid ℚ, load (some units) 3 [some ⟨[str "PGA"], [fun _ => 1, fun _ => 2]⟩, some ⟨[str "PGA"], [fun _ => 3, fun _ => 6]⟩] = .ok g ∧
    Regional.demandSample (1 : ℚ) 2 [str "PGA"] (fun p im r => (g.cell p im r).getD 0) g.nReal (fun _ => [(1, 0), (1, 1)]) 2 3 [7] =
      .ok [((str "PGA", 7), [2, 4, 2])] := by
  have hc : ∀ rows : List (Str → ℚ), Complete units (some ⟨[str "PGA"], rows⟩) := by
    intro rows
    refine ⟨_, rfl, fun im u h => ?_⟩
    simp only [units, List.mem_singleton, Prod.mk.injEq] at h
    rw [h.1]
    exact List.mem_cons_self
  obtain ⟨g, hg⟩ := (C132_accepted_iff (some units) 3
    [some (⟨[str "PGA"], [fun _ => 1, fun _ => 2]⟩ : GridFile ℚ), some ⟨[str "PGA"], [fun _ => 3, fun _ => 6]⟩]).2 ⟨units, rfl, by decide, by simp, by
      intro f hf
      simp only [List.mem_cons, List.not_mem_nil, or_false] at hf
      rcases hf with rfl | rfl <;> exact hc _⟩
  refine ⟨g, hg, (C132_demands_partial (1 : ℚ) units 3 _ g hg 2 (by decide) ?_ (by decide) (by decide) (fun _ => [(1, 0), (1, 1)]) ?_ 2 [7]).trans ?_⟩
  · intro x hx
    simp only [List.mem_cons, Option.some.injEq, List.not_mem_nil, or_false] at hx
    rcases hx with rfl | rfl <;> rfl
  · intro l p hp
    simp only [List.mem_cons, List.not_mem_nil, or_false] at hp
    rcases hp with rfl | rfl <;> simp
  · refine congrArg Except.ok ?_
    decide +kernel

end Verif.RegGrid
