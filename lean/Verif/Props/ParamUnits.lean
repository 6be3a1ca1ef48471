import Verif.Lemmas.ParamUnits
import Verif.Props.DmgParams

/-! # Property C93: units of consequence parameters; property C94: loading parameters in several calls -/

namespace Verif.ParamUnits

open DmgParams (Cell Row)
open Verif.UQ (Entry Family scaleDistribution StdDist ExpLog quantile Ext)
open LossParams (Key LossMap Source hasTop HasRow Merged IsMerge dsTables lfTables)

/-! ## Specification -/

/-- `s` is a unit with the factor `q` (property C62). -/
def UnitFactor (table : Dict Str ℚ) (s : Str) (q : ℚ) : Prop := Asset.calcUnitScaleFactor table s = .ok (.fin q)

/-- The size of the reference entity; a single piece (`1 EA`) needs no entry in the table of units. -/
def SizeFactor (table : Dict Str ℚ) (s : Str) (q : ℚ) : Prop :=
  (s = str "1 EA" ∧ q = 1) ∨ (s ≠ str "1 EA" ∧ UnitFactor table s q)

/-- The number or the curve in a cell, as a function of the quantity (or the demand). -/
def PerUnit (c : Cell) (g : ℚ → ℚ) : Prop :=
  match c with
  | .num q => ∀ x, g x = q
  | .text s => (∃ q, pyFloat? s = some (.fin q) ∧ ∀ x, g x = q) ∨
      ∃ ys xs, Spells s ys xs ∧ ∀ x, g x = interp (xs.zip ys) x

/-- The points of a curve, scaled with these factors, have at most six significant digits. -/
def Short (c : Cell) (fy fx : ℚ) : Prop :=
  ∀ s ys xs, c = .text s → Spells s ys xs → (∀ y ∈ ys, SixDigits (y * fy)) ∧ ∀ x ∈ xs, SixDigits (x * fx)

/-- The consequence `k` as defined by the user: cell by cell the first table that has a value
(property C50). -/
def Defined (tables : List (List (Key × Row))) (m : LossMap) (k : Key) (row : Row) : Prop :=
  (∃ c, (c, k.1) ∈ m) ∧ Merged tables k row ∧ row (str "Incomplete", []) ≠ some (.num 1)

/-- Cells are in the columns that a table has. -/
def TablesOk (sources : List Source) : Prop := ∀ s ∈ sources, ∀ r ∈ s.rows, ∀ c, r.2 c ≠ none → c ∈ s.cols

def empirical : Option Cell := some (.text (str "empirical"))

/-! ## Lemmas about loading -/

/-- Everything that holds for a loss model in which parameters have been loaded. -/
structure StateOk (st : LossState) : Prop where
  dsKeys : ∀ q, st.params.ds = some q → (q.map (·.1)).Nodup
  lfKeys : ∀ q, st.params.lf = some q → (q.map (·.1)).Nodup
  dsCols : ∀ q, st.params.ds = some q → ∀ r ∈ q, ∀ c, r.2 c ≠ none → c ∈ st.dsCols

theorem fresh_ok : StateOk .fresh := ⟨by simp [LossState.fresh], by simp [LossState.fresh], by simp [LossState.fresh]⟩

/-- The table a model has, as the first of the tables. -/
def start : Option (List (Key × Row)) → List (List (Key × Row))
  | none => []
  | some q => [q]

theorem firstCell_self {q : List (Key × Row)} (hnd : (q.map (·.1)).Nodup) {k : Key} {row : Row} (h : (k, row) ∈ q) :
    LossParams.firstCell q k = row := by
  funext c
  cases hc : row c with
  | some x =>
    rw [LossParams.firstCell_some]
    obtain ⟨b, a, hba⟩ := List.append_of_mem h
    refine ⟨b, row, a, hba, hc, ?_⟩
    intro r hr hrk
    exfalso
    rw [hba, List.map_append, List.nodup_append] at hnd
    exact hnd.2.2 r.1 (List.mem_map.2 ⟨r, hr, rfl⟩) k (by simp) hrk
  | none =>
    unfold LossParams.firstCell
    rw [List.findSome?_eq_none_iff]
    intro r hr
    split
    · rename_i hrk
      have : r = (k, row) := List.inj_on_of_nodup_map hnd hr h hrk
      rw [this]; exact hc
    · rfl

theorem start_merge {p : Option (List (Key × Row))} (h : ∀ q, p = some q → (q.map (·.1)).Nodup) : IsMerge (start p) p := by
  cases p with
  | none => exact .inl ⟨rfl, rfl⟩
  | some q =>
    right
    refine ⟨by simp [start], q, rfl, h q rfl, fun k row => ?_⟩
    simp only [start, List.flatten_cons, List.flatten_nil, List.append_nil]
    constructor
    · intro hm
      exact ⟨List.mem_map.2 ⟨_, hm, rfl⟩, (firstCell_self (h q rfl) hm).symm⟩
    · rintro ⟨hk, rfl⟩
      obtain ⟨r, hr, rfl⟩ := List.mem_map.1 hk
      rw [firstCell_self (h q rfl) hr]
      exact hr

theorem clean_nodup {p : Option (List (Key × Row))} {m : LossMap} {tables : List (List (Key × Row))} (h : IsMerge tables p) :
    ∀ q, LossParams.clean m p = some q → (q.map (·.1)).Nodup := by
  intro q hq
  rcases h with ⟨_, rfl⟩ | ⟨_, q', rfl, hnd, _⟩
  · simp [LossParams.clean] at hq
  · simp only [LossParams.clean, Option.map_some, Option.some.injEq] at hq
    subst hq
    unfold LossParams.removeIncomplete LossParams.dropUnused
    exact hnd.sublist (((List.filter_sublist).trans List.filter_sublist).map _)

theorem convertRows_rows {table : Dict Str ℚ} {uc : Str × Str} {ac : Option (Str × Str)} {dv : Bool} {cols : List Str}
    {rows rows' : List (Key × Row)} (h : convertRows table uc ac dv cols rows = .ok rows') :
    rows'.map (·.1) = rows.map (·.1) ∧
    ∀ k row', (k, row') ∈ rows' ↔ ∃ row, (k, row) ∈ rows ∧ convertCols table uc ac dv cols row = .ok row' := by
  unfold convertRows at h
  rw [mapE_ok_iff] at h
  induction h with
  | nil => simp
  | @cons a b l l' hab _ ih =>
    cases hc : convertCols table uc ac dv cols a.2 with
    | error e => rw [hc] at hab; simp at hab
    | ok row =>
      rw [hc] at hab
      simp only [Except.ok.injEq] at hab
      subst hab
      refine ⟨by simp [ih.1], fun k row' => ?_⟩
      simp only [List.mem_cons, Prod.mk.injEq]
      constructor
      · rintro (⟨rfl, rfl⟩ | h)
        · exact ⟨a.2, .inl rfl, hc⟩
        · obtain ⟨r, h1, h2⟩ := (ih.2 k row').1 h
          exact ⟨r, .inr h1, h2⟩
      · rintro ⟨r, h | h, h2⟩
        · obtain rfl : k = a.1 := congrArg Prod.fst h
          obtain rfl : r = a.2 := congrArg Prod.snd h
          rw [hc, Except.ok.injEq] at h2
          exact .inl ⟨rfl, h2.symm⟩
        · exact .inr ((ih.2 k row').2 ⟨r, h, h2⟩)

/-- The steps of a successful call. -/
theorem loadLoss_steps {table : Dict Str ℚ} {st st' : LossState} {sources : List Source} {m : LossMap} {dvs : List Str}
    {missing : List Key} (h : loadLoss table st sources m dvs = .ok (st', missing)) :
    ∃ p, LossParams.loadSources st.params sources = .ok p ∧
      convertDs? table (addDsCols st.dsCols sources) (LossParams.clean m p.ds) = .ok (st'.params.ds, st'.dsCols) ∧
      convertLf? table (addLfCols st.lfCols sources) (LossParams.clean m p.lf) = .ok st'.params.lf := by
  unfold loadLoss at h
  cases hp : LossParams.loadSources st.params sources with
  | error e => rw [hp] at h; simp at h
  | ok p =>
    rw [hp] at h
    simp only at h
    cases hd : convertDs? table (addDsCols st.dsCols sources) (LossParams.clean m p.ds) with
    | error e => rw [hd] at h; simp at h
    | ok r =>
      obtain ⟨ds, cols⟩ := r
      rw [hd] at h
      simp only at h
      cases hl : convertLf? table (addLfCols st.lfCols sources) (LossParams.clean m p.lf) with
      | error e => rw [hl] at h; simp at h
      | ok lf =>
        rw [hl] at h
        simp only [Except.ok.injEq, Prod.mk.injEq] at h
        obtain ⟨rfl, _⟩ := h
        exact ⟨p, rfl, hd, hl⟩

theorem tops_nodup (s : Str) (cols : List (Str × Str)) : (tops s cols).Nodup := FileIO.uniqueVals_nodup [] _

theorem tops_mem {s : Str} {cols : List (Str × Str)} {c : Str} : c ∈ tops s cols ↔ s <+: c ∧ ∃ x, (c, x) ∈ cols := by
  unfold tops
  rw [FileIO.uniqueVals_mem, List.mem_filter, List.mem_map]
  simp only [List.isPrefixOf_iff_prefix, List.not_mem_nil, not_false_eq_true, and_true]
  constructor
  · rintro ⟨⟨p, hp, rfl⟩, h⟩; exact ⟨h, p.2, hp⟩
  · rintro ⟨h, x, hx⟩; exact ⟨⟨_, hx, rfl⟩, h⟩

/-- The rows for damage states after a call. -/
theorem ds_rows {table : Dict Str ℚ} {st st' : LossState} {sources : List Source} {m : LossMap} {dvs : List Str}
    {missing : List Key} (hst : StateOk st) (h : loadLoss table st sources m dvs = .ok (st', missing)) :
    (∀ k row', HasRow st'.params.ds k row' ↔ ∃ row, Defined (start st.params.ds ++ dsTables sources) m k row ∧
      convertCols table dvUnit (some qntUnit) true (tops (str "DS") st'.dsCols) row = .ok row') ∧
    (∀ q, st'.params.ds = some q → (q.map (·.1)).Nodup) := by
  obtain ⟨p, hp, hd, _⟩ := loadLoss_steps h
  obtain ⟨m1, _⟩ := LossParams.loadSources_merge sources (start st.params.ds) (start st.params.lf) st.params p
    (start_merge hst.dsKeys) (start_merge hst.lfKeys) hp
  have hspec := LossParams.clean_spec _ _ m1 m
  have hnd := clean_nodup (m := m) m1
  generalize LossParams.clean m p.ds = cl at hd hspec hnd
  cases cl with
  | none =>
    simp only [convertDs?, Except.ok.injEq, Prod.mk.injEq] at hd
    rw [← hd.1]
    refine ⟨fun k row' => ⟨fun h' => by simp [HasRow] at h', ?_⟩, by simp⟩
    rintro ⟨row, hdef, _⟩
    have := (hspec k row).2 hdef
    simp [HasRow] at this
  | some rows =>
    simp only [convertDs?] at hd
    cases hc : convertDs table (dropStates (addDsCols st.dsCols sources) rows) rows with
    | error e => rw [hc] at hd; simp at hd
    | ok rows' =>
      rw [hc] at hd
      simp only [Except.ok.injEq, Prod.mk.injEq] at hd
      obtain ⟨h1, h2⟩ := hd
      unfold convertDs at hc
      split at hc
      · simp at hc
      · rw [h2] at hc
        obtain ⟨g1, g2⟩ := convertRows_rows hc
        rw [← h1]
        refine ⟨fun k row' => ?_, fun q hq => ?_⟩
        · have e1 : HasRow (some rows') k row' ↔ (k, row') ∈ rows' := by simp [HasRow]
          rw [e1, g2]
          have e2 : ∀ row, (k, row) ∈ rows ↔ Defined (start st.params.ds ++ dsTables sources) m k row := by
            intro row
            rw [Defined, ← hspec k row]; simp [HasRow]
          simp only [e2]
        · rw [Option.some.injEq] at hq
          subst hq
          rw [g1]; exact hnd rows rfl

theorem lf_rows {table : Dict Str ℚ} {st st' : LossState} {sources : List Source} {m : LossMap} {dvs : List Str}
    {missing : List Key} (hst : StateOk st) (h : loadLoss table st sources m dvs = .ok (st', missing)) :
    (∀ k row', HasRow st'.params.lf k row' ↔ ∃ row, Defined (start st.params.lf ++ lfTables sources) m k row ∧
      convertCols table dvUnit (some demUnit) false [str "LossFunction"] row = .ok row') ∧
    (∀ q, st'.params.lf = some q → (q.map (·.1)).Nodup) := by
  obtain ⟨p, hp, _, hd⟩ := loadLoss_steps h
  obtain ⟨_, m1⟩ := LossParams.loadSources_merge sources (start st.params.ds) (start st.params.lf) st.params p
    (start_merge hst.dsKeys) (start_merge hst.lfKeys) hp
  have hspec := LossParams.clean_spec _ _ m1 m
  have hnd := clean_nodup (m := m) m1
  generalize LossParams.clean m p.lf = cl at hd hspec hnd
  cases cl with
  | none =>
    simp only [convertLf?, Except.ok.injEq] at hd
    rw [← hd]
    refine ⟨fun k row' => ⟨fun h' => by simp [HasRow] at h', ?_⟩, by simp⟩
    rintro ⟨row, hdef, _⟩
    have := (hspec k row).2 hdef
    simp [HasRow] at this
  | some rows =>
    simp only [convertLf?] at hd
    cases hc : convertLf table (addLfCols st.lfCols sources) rows with
    | error e => rw [hc] at hd; simp at hd
    | ok rows' =>
      rw [hc] at hd
      simp only [Except.ok.injEq] at hd
      unfold convertLf at hc
      split at hc
      · simp at hc
      · obtain ⟨g1, g2⟩ := convertRows_rows hc
        rw [← hd]
        refine ⟨fun k row' => ?_, fun q hq => ?_⟩
        · have e1 : HasRow (some rows') k row' ↔ (k, row') ∈ rows' := by simp [HasRow]
          rw [e1, g2]
          have e2 : ∀ row, (k, row) ∈ rows ↔ Defined (start st.params.lf ++ lfTables sources) m k row := by
            intro row
            rw [Defined, ← hspec k row]; simp [HasRow]
          simp only [e2]
        · rw [Option.some.injEq] at hq
          subst hq
          rw [g1]; exact hnd rows rfl

/-- Cells stay in the columns. -/
theorem ds_cols {table : Dict Str ℚ} {st st' : LossState} {sources : List Source} {m : LossMap} {dvs : List Str}
    {missing : List Key} (hst : StateOk st) (hok : TablesOk sources) (h : loadLoss table st sources m dvs = .ok (st', missing))
    {k : Key} {row : Row} (hdef : Defined (start st.params.ds ++ dsTables sources) m k row) {c : Str × Str}
    (hc : row c ≠ none) : c ∈ st'.dsCols := by
  obtain ⟨p, hp, hd, _⟩ := loadLoss_steps h
  obtain ⟨m1, _⟩ := LossParams.loadSources_merge sources (start st.params.ds) (start st.params.lf) st.params p
    (start_merge hst.dsKeys) (start_merge hst.lfKeys) hp
  obtain ⟨x, hx⟩ := Option.ne_none_iff_exists'.1 hc
  have hin : c ∈ addDsCols st.dsCols sources := by
    obtain ⟨b, r, a, hba, hr, _⟩ := (hdef.2.1.2 c x).1 hx
    have hmem : (k, r) ∈ (start st.params.ds ++ dsTables sources).flatten := by rw [hba]; simp
    rw [List.flatten_append, List.mem_append] at hmem
    unfold addDsCols
    rw [List.mem_append]
    rcases hmem with hmem | hmem
    · left
      cases hs : st.params.ds with
      | none => rw [hs] at hmem; simp [start] at hmem
      | some q =>
        rw [hs] at hmem
        simp only [start, List.flatten_cons, List.flatten_nil, List.append_nil] at hmem
        exact hst.dsCols q hs _ hmem c (by simp [hr])
    · right
      obtain ⟨t, ht, hrt⟩ := List.mem_flatten.1 hmem
      unfold dsTables at ht
      obtain ⟨s, hs, rfl⟩ := List.mem_map.1 ht
      rw [List.mem_filter] at hs
      refine List.mem_flatMap.2 ⟨s, List.mem_filter.2 ⟨hs.1, hs.2⟩, hok s hs.1 _ hrt c (by simp [hr])⟩
  have hrow := (LossParams.clean_spec _ _ m1 m k row).2 hdef
  obtain ⟨rows, hcl, hmem⟩ := hrow
  rw [hcl] at hd
  simp only [convertDs?] at hd
  cases hcv : convertDs table (dropStates (addDsCols st.dsCols sources) rows) rows with
  | error e => rw [hcv] at hd; simp at hd
  | ok rows' =>
    rw [hcv] at hd
    simp only [Except.ok.injEq, Prod.mk.injEq] at hd
    rw [← hd.2]
    unfold dropStates
    rw [List.mem_filter]
    refine ⟨hin, ?_⟩
    simp only [Bool.or_eq_true, List.any_eq_true, Bool.and_eq_true, decide_eq_true_eq]
    right
    exact ⟨c, hin, rfl, (k, row), hmem, by simp [hx]⟩

theorem merged_unique {tables : List (List (Key × Row))} {k : Key} {r r' : Row} (h : Merged tables k r) (h' : Merged tables k r') :
    r = r' := by
  rw [LossParams.merged_iff] at h h'
  rw [h.2, h'.2]

/-- The row that a definition becomes. -/
theorem ds_row_of {table : Dict Str ℚ} {st st' : LossState} {sources : List Source} {m : LossMap} {dvs : List Str}
    {missing : List Key} (hst : StateOk st) (h : loadLoss table st sources m dvs = .ok (st', missing)) {k : Key} {row : Row}
    (hdef : Defined (start st.params.ds ++ dsTables sources) m k row) :
    ∃ row', (∀ r, HasRow st'.params.ds k r ↔ r = row') ∧
      convertCols table dvUnit (some qntUnit) true (tops (str "DS") st'.dsCols) row = .ok row' := by
  obtain ⟨hr, _⟩ := ds_rows hst h
  obtain ⟨p, hp, hd, _⟩ := loadLoss_steps h
  obtain ⟨m1, _⟩ := LossParams.loadSources_merge sources (start st.params.ds) (start st.params.lf) st.params p
    (start_merge hst.dsKeys) (start_merge hst.lfKeys) hp
  obtain ⟨rows, hcl, hmem⟩ := (LossParams.clean_spec _ _ m1 m k row).2 hdef
  have hex : ∃ row', convertCols table dvUnit (some qntUnit) true (tops (str "DS") st'.dsCols) row = .ok row' := by
    rw [hcl] at hd
    simp only [convertDs?] at hd
    cases hcv : convertDs table (dropStates (addDsCols st.dsCols sources) rows) rows with
    | error e => rw [hcv] at hd; simp at hd
    | ok rows' =>
      rw [hcv] at hd
      simp only [Except.ok.injEq, Prod.mk.injEq] at hd
      unfold convertDs at hcv
      split at hcv
      · simp at hcv
      · unfold convertRows at hcv
        rw [mapE_ok_iff] at hcv
        obtain ⟨b, _, hb⟩ := forall₂_mem_left hcv hmem
        rw [← hd.2]
        cases hcc : convertCols table dvUnit (some qntUnit) true (tops (str "DS") (dropStates (addDsCols st.dsCols sources) rows)) row with
        | error e => rw [hcc] at hb; simp at hb
        | ok row' => exact ⟨row', rfl⟩
  obtain ⟨row', hrow'⟩ := hex
  refine ⟨row', fun r => ?_, hrow'⟩
  rw [hr]
  constructor
  · rintro ⟨row1, hd1, hc1⟩
    rw [merged_unique hd1.2.1 hdef.2.1, hrow'] at hc1
    simpa using hc1.symm
  · rintro rfl
    exact ⟨row, hdef, hrow'⟩

theorem lf_row_of {table : Dict Str ℚ} {st st' : LossState} {sources : List Source} {m : LossMap} {dvs : List Str}
    {missing : List Key} (hst : StateOk st) (h : loadLoss table st sources m dvs = .ok (st', missing)) {k : Key} {row : Row}
    (hdef : Defined (start st.params.lf ++ lfTables sources) m k row) :
    ∃ row', (∀ r, HasRow st'.params.lf k r ↔ r = row') ∧
      convertCols table dvUnit (some demUnit) false [str "LossFunction"] row = .ok row' := by
  obtain ⟨hr, _⟩ := lf_rows hst h
  obtain ⟨p, hp, _, hd⟩ := loadLoss_steps h
  obtain ⟨_, m1⟩ := LossParams.loadSources_merge sources (start st.params.ds) (start st.params.lf) st.params p
    (start_merge hst.dsKeys) (start_merge hst.lfKeys) hp
  obtain ⟨rows, hcl, hmem⟩ := (LossParams.clean_spec _ _ m1 m k row).2 hdef
  have hex : ∃ row', convertCols table dvUnit (some demUnit) false [str "LossFunction"] row = .ok row' := by
    rw [hcl] at hd
    simp only [convertLf?] at hd
    cases hcv : convertLf table (addLfCols st.lfCols sources) rows with
    | error e => rw [hcv] at hd; simp at hd
    | ok rows' =>
      unfold convertLf at hcv
      split at hcv
      · simp at hcv
      · unfold convertRows at hcv
        rw [mapE_ok_iff] at hcv
        obtain ⟨b, _, hb⟩ := forall₂_mem_left hcv hmem
        cases hcc : convertCols table dvUnit (some demUnit) false [str "LossFunction"] row with
        | error e => simp only [hcc] at hb; simp at hb
        | ok row' => exact ⟨row', rfl⟩
  obtain ⟨row', hrow'⟩ := hex
  refine ⟨row', fun r => ?_, hrow'⟩
  rw [hr]
  constructor
  · rintro ⟨row1, hd1, hc1⟩
    rw [merged_unique hd1.2.1 hdef.2.1, hrow'] at hc1
    simpa using hc1.symm
  · rintro rfl
    exact ⟨row, hdef, hrow'⟩

/-! ## Lemmas about one distribution -/

theorem size_facts {table : Dict Str ℚ} {Q : Str} {q : ℚ} (h : SizeFactor table Q q) (hq : q ≠ 0) (u : ℚ) (divide : Bool) :
    ∃ a, argFactor table (some (some (.text Q))) = .ok a ∧
      Factors.conversion ⟨u, a, divide⟩ = .ok (if divide then u / q else u) ∧
      (∀ xs, Factors.scaleArgs ⟨u, a, divide⟩ (some xs) = some (xs.map (· * q))) ∧
      Factors.scaleArgs ⟨u, a, divide⟩ none = none := by
  rcases h with ⟨rfl, rfl⟩ | ⟨hne, hf⟩
  · refine ⟨none, by simp [argFactor], ?_, ?_, rfl⟩
    · cases divide <;> simp [Factors.conversion]
    · intro xs; simp [Factors.scaleArgs]
  · unfold UnitFactor at hf
    refine ⟨some q, by simp [argFactor, hne, hf, finite], ?_, ?_, rfl⟩
    · cases divide <;> simp [Factors.conversion, hq]
    · intro xs; simp [Factors.scaleArgs]

/-- The converted columns of a row with units. -/
structure Scaled (c q : ℚ) (g g' : Group) : Prop where
  family : g'.family = g.family
  number : ∀ x, parseTheta g.t0 = .ok (.num x, none) → g'.t0 = some (.num (x * c))
  curve : ∀ s ys xs, g.t0 = some (.text s) → Spells s ys xs → g'.t0 = some (.text (curveText (ys.map (· * c)) (xs.map (· * q))))
  kept : ∀ s, g.t1 = some (.num s) →
    familyOf g.family = .lognormal ∨ familyOf g.family = .normal ∨ familyOf g.family = .normalCov → g'.t1 = some (.num s)
  both : ∀ s, g.t1 = some (.num s) → familyOf g.family = .normalStd ∨ familyOf g.family = .uniform → g'.t1 = some (.num (s * c))
  lower : ∀ x, g.lower = some (.num x) → g'.lower = some (.num (x * c))
  upper : ∀ x, g.upper = some (.num x) → g'.upper = some (.num (x * c))
  noLower : g.lower = none → g'.lower = none
  noUpper : g.upper = none → g'.upper = none

theorem scaled_of {table : Dict Str ℚ} {U Q : Str} {u q : ℚ} {divide : Bool} {g g' : Group} (hU : UnitFactor table U u)
    (hQ : SizeFactor table Q q) (hq : q ≠ 0) (he : g.family ≠ empirical)
    (h : convertGroup table (.text U) (some (some (.text Q))) divide g = .ok g') :
    Scaled (if divide then u / q else u) q g g' := by
  obtain ⟨u', a, c, p0, p1, p2, lo, hi, h1, h2, h3, h4, h5, h6, h7, h8, h9⟩ := convertGroup_ok h he
  obtain ⟨a', i1, i2, i3, i4⟩ := size_facts hQ hq u divide
  have hu : u' = u := by
    unfold UnitFactor at hU
    simp only [factorOf, hU, finite, Except.ok.injEq] at h1
    exact h1.symm
  subst hu
  rw [i1, Except.ok.injEq] at h2
  subst h2
  rw [i2, Except.ok.injEq] at h3
  rw [h3]
  rw [h3] at i2
  obtain ⟨md, e1, j1, j2, j3, j4, j5, j6, j7, j8, j9, j10, j11⟩ := rescale_ok i2 h9
  have hmode : ∀ fam, familyOf g.family = fam → UQ.scaleMode fam = .ok md := fun fam hf => by rw [← hf]; exact j1
  refine ⟨j11, ?_, ?_, ?_, ?_, ?_, ?_, ?_, ?_⟩
  · intro x hx
    rw [hx, Except.ok.injEq] at h4
    subst h4
    simp only [i4, Entry.scale, UQ.Entry.scale, renderTheta, Except.ok.injEq] at j6
    exact j6.symm
  · intro s ys xs hs hsp
    rw [hs, parseTheta_spells hsp, Except.ok.injEq] at h4
    subst h4
    simp only [i3, UQ.Entry.scale, renderTheta, Except.ok.injEq] at j6
    exact j6.symm
  · intro s hs hf
    rw [hs] at h5
    simp only [parseTheta, Except.ok.injEq] at h5
    subst h5
    have hm : md = .scaleKeep := by
      rcases hf with hf | hf | hf
      all_goals
        have := hmode _ hf
        simp only [UQ.scaleMode, Except.ok.injEq] at this
        exact this.symm
    rw [j4 hm] at j7
    simp only [i4, renderTheta, Except.ok.injEq] at j7
    exact j7.symm
  · intro s hs hf
    rw [hs] at h5
    simp only [parseTheta, Except.ok.injEq] at h5
    subst h5
    have hm : md = .scaleBoth := by
      rcases hf with hf | hf
      all_goals
        have := hmode _ hf
        simp only [UQ.scaleMode, Except.ok.injEq] at this
        exact this.symm
    rw [j3 hm] at j7
    simp only [i4, UQ.Entry.scale, renderTheta, Except.ok.injEq] at j7
    exact j7.symm
  · intro x hx
    rw [hx] at h7
    simp only [limitOf, Except.ok.injEq] at h7
    subst h7
    exact j9
  · intro x hx
    rw [hx] at h8
    simp only [limitOf, Except.ok.injEq] at h8
    subst h8
    exact j10
  · intro hx
    rw [hx] at h7
    simp only [limitOf, Except.ok.injEq] at h7
    subst h7
    exact j9
  · intro hx
    rw [hx] at h8
    simp only [limitOf, Except.ok.injEq] at h8
    subst h8
    exact j10

/-- Missing cells stay missing. -/
theorem convertGroup_none {table : Dict Str ℚ} {unit : Cell} {arg : Option (Option Cell)} {divide : Bool} {g g' : Group}
    (h : convertGroup table unit arg divide g = .ok g') :
    (g.t0 = none → g'.t0 = none) ∧ (g.t1 = none → g'.t1 = none) ∧ (g.t2 = none → g'.t2 = none) ∧
      (g.lower = none → g'.lower = none) ∧ (g.upper = none → g'.upper = none) := by
  by_cases he : g.family = some (.text (str "empirical"))
  · have : g' = g := by
      unfold convertGroup at h
      cases hu : factorOf table unit with
      | error e => rw [hu] at h; simp at h
      | ok u =>
        rw [hu] at h
        simp only [if_pos he, Except.ok.injEq] at h
        exact h.symm
    subst this
    exact ⟨id, id, id, id, id⟩
  · obtain ⟨u, a, c, p0, p1, p2, lo, hi, h1, h2, h3, h4, h5, h6, h7, h8, h9⟩ := convertGroup_ok h he
    obtain ⟨md, e1, j1, j2, j3, j4, j5, j6, j7, j8, j9, j10, j11⟩ := rescale_ok h3 h9
    have hn : Factors.scaleArgs ⟨u, a, divide⟩ none = none := by cases a <;> rfl
    refine ⟨?_, ?_, fun _ => j8, ?_, ?_⟩
    · intro hx
      rw [hx] at h4
      simp only [parseTheta, Except.ok.injEq] at h4
      subst h4
      simp only [hn, UQ.Entry.scale, renderTheta, Except.ok.injEq] at j6
      exact j6.symm
    · intro hx
      rw [hx] at h5
      simp only [parseTheta, Except.ok.injEq] at h5
      subst h5
      have : e1 = .nan := by
        cases md with
        | scaleBoth => exact j3 rfl
        | scaleKeep => exact j4 rfl
        | scaleOnly => exact j5 rfl
      rw [this] at j7
      simp only [hn, renderTheta, Except.ok.injEq] at j7
      exact j7.symm
    · intro hx
      rw [hx] at h7
      simp only [limitOf, Except.ok.injEq] at h7
      subst h7
      exact j9
    · intro hx
      rw [hx] at h8
      simp only [limitOf, Except.ok.injEq] at h8
      subst h8
      exact j10

theorem convertCols_none {table : Dict Str ℚ} {uc : Str × Str} {ac : Option (Str × Str)} {dv : Bool} :
    ∀ {cols : List Str} {row row' : Row}, convertCols table uc ac dv cols row = .ok row' → ∀ c, row c = none → row' c = none := by
  intro cols
  induction cols with
  | nil =>
    intro row row' h c hc
    simp only [convertCols, Except.ok.injEq] at h
    rw [← h]; exact hc
  | cons col cols ih =>
    intro row row' h c hc
    simp only [convertCols] at h
    cases hr : convertAt table uc ac dv col row with
    | error e => rw [hr] at h; simp at h
    | ok row1 =>
      rw [hr] at h
      simp only at h
      refine ih h c ?_
      unfold convertAt at hr
      cases hu : row uc with
      | none => rw [hu] at hr; simp only [Except.ok.injEq] at hr; rw [← hr]; exact hc
      | some u =>
        rw [hu] at hr
        simp only at hr
        cases hg : convertGroup table u (ac.map row) dv (groupOf row col) with
        | error e => rw [hg] at hr; simp at hr
        | ok g =>
          rw [hg] at hr
          simp only [Except.ok.injEq] at hr
          rw [← hr]
          obtain ⟨n0, n1, n2, n3, n4⟩ := convertGroup_none hg
          unfold setGroup
          split
          · rename_i e; exact n0 (by rw [e] at hc; exact hc)
          · split
            · rename_i e; exact n1 (by rw [e] at hc; exact hc)
            · split
              · rename_i e; exact n2 (by rw [e] at hc; exact hc)
              · split
                · rename_i e; exact n3 (by rw [e] at hc; exact hc)
                · split
                  · rename_i e; exact n4 (by rw [e] at hc; exact hc)
                  · exact hc

theorem state_ok {table : Dict Str ℚ} {st st' : LossState} {sources : List Source} {m : LossMap} {dvs : List Str}
    {missing : List Key} (hst : StateOk st) (hok : TablesOk sources) (h : loadLoss table st sources m dvs = .ok (st', missing)) :
    StateOk st' := by
  refine ⟨(ds_rows hst h).2, (lf_rows hst h).2, ?_⟩
  intro q hq r hr c hc
  obtain ⟨row, hdef, hconv⟩ := ((ds_rows hst h).1 r.1 r.2).1 ⟨q, hq, hr⟩
  refine ds_cols hst hok h hdef (fun hn => hc (convertCols_none hconv c hn))

/-- The columns of a damage state in the row that a definition becomes. -/
theorem ds_scaled {table : Dict Str ℚ} {st st' : LossState} {sources : List Source} {m : LossMap} {dvs : List Str}
    {missing : List Key} (hst : StateOk st) (hok : TablesOk sources) (h : loadLoss table st sources m dvs = .ok (st', missing))
    {k : Key} {row : Row} (hdef : Defined (start st.params.ds ++ dsTables sources) m k row) {U Q : Str} {u q : ℚ}
    (hrU : row dvUnit = some (.text U)) (hU : UnitFactor table U u) (hrQ : row qntUnit = some (.text Q))
    (hQ : SizeFactor table Q q) (hq : q ≠ 0) {ds : Str} (hds : str "DS" <+: ds) (he : row (ds, str "Family") ≠ empirical)
    {c : Cell} (hc : row (ds, str "Theta_0") = some c) :
    ∃ row', (∀ r, HasRow st'.params.ds k r ↔ r = row') ∧ Scaled (u / q) q (groupOf row ds) (groupOf row' ds) ∧
      row' dvUnit = row dvUnit ∧ row' qntUnit = row qntUnit ∧ row' (str "Incomplete", []) = row (str "Incomplete", []) := by
  obtain ⟨row', hr, hconv⟩ := ds_row_of hst h hdef
  have hcol : ds ∈ tops (str "DS") st'.dsCols :=
    tops_mem.2 ⟨hds, str "Theta_0", ds_cols hst hok h hdef (by simp [hc])⟩
  have hnot : ∀ x : Str, ¬ str "DS" <+: x → x ∉ tops (str "DS") st'.dsCols := fun x hx hm => hx (tops_mem.1 hm).1
  obtain ⟨_, c2, c3⟩ := convertCols_spec (tops_nodup _ _) (hnot _ (by decide)) (by
    intro a ha; rw [Option.mem_def, Option.some.injEq] at ha; subst ha; exact hnot _ (by decide)) hconv
  obtain ⟨g, hg, hx⟩ := c3 _ hrU ds hcol
  rw [Option.map_some, hrQ] at hg
  have hs := scaled_of hU hQ hq he hg
  rw [if_pos rfl] at hs
  refine ⟨row', hr, ?_, c2 _ (hnot _ (by decide)), c2 _ (hnot _ (by decide)), c2 _ (hnot _ (by decide))⟩
  have e : groupOf row' ds = { g with family := row (ds, str "Family") } := by
    unfold groupOf
    simp only [hx, setGroup_col]
    rfl
  rw [e]
  exact ⟨rfl, hs.number, hs.curve, hs.kept, hs.both, hs.lower, hs.upper, hs.noLower, hs.noUpper⟩

/-! ## C93 -/

theorem map_round6 {ys : List ℚ} (h : ∀ y ∈ ys, SixDigits y) : ys.map round6 = ys := by
  rw [List.map_congr_left (fun y hy => round6_exact (h y hy)), List.map_id']

/-- A curve with short numbers is stretched. -/
theorem curve_stretched {ys xs : List ℚ} {a c : ℚ} (ha : 0 < a) (hy : ys ≠ []) (hx : xs ≠ [])
    (h1 : ∀ y ∈ ys, SixDigits (y * c)) (h2 : ∀ x ∈ xs, SixDigits (x * a)) :
    ∃ g', PerUnit (.text (curveText (ys.map (· * c)) (xs.map (· * a)))) g' ∧ ∀ x, g' (x * a) = interp (xs.zip ys) x * c := by
  have hs := curveText_spells (ys := ys.map (· * c)) (xs := xs.map (· * a)) (by simpa using hy) (by simpa using hx)
  rw [map_round6 (by intro y h'; obtain ⟨z, hz, rfl⟩ := List.mem_map.1 h'; exact h1 z hz),
    map_round6 (by intro y h'; obtain ⟨z, hz, rfl⟩ := List.mem_map.1 h'; exact h2 z hz)] at hs
  exact ⟨_, .inr ⟨_, _, hs, fun _ => rfl⟩, fun x => interp_stretch ha c xs ys x⟩

/-- The consequences after the conversion. -/
theorem perUnit_scaled {g g' : Group} {a c : ℚ} (ha : 0 < a) (hs : Scaled c a g g') {x : Cell} (hx : g.t0 = some x) {f : ℚ → ℚ}
    (hf : PerUnit x f) (hshort : Short x c a) :
    ∃ x' f', g'.t0 = some x' ∧ PerUnit x' f' ∧ ∀ n, f' (n * a) = f n * c := by
  cases x with
  | num q =>
    refine ⟨_, fun _ => q * c, hs.number q (by rw [hx]; rfl), fun _ => rfl, fun n => ?_⟩
    rw [hf n]
  | text s =>
    rcases hf with ⟨q, hq, hf⟩ | ⟨ys, xs, hsp, hf⟩
    · refine ⟨_, fun _ => q * c, hs.number q (by rw [hx]; simp [parseTheta, hq]), fun _ => rfl, fun n => ?_⟩
      rw [hf n]
    · obtain ⟨s1, s2⟩ := hshort s ys xs rfl hsp
      obtain ⟨f', h1, h2⟩ := curve_stretched ha hsp.1 hsp.2.1 s1 s2
      exact ⟨_, f', hs.curve s ys xs hx hsp, h1, fun n => by rw [h2, hf]⟩

/-- C93: what it costs to repair a quantity does not depend on the units of the table: `n` reference
quantities, that is a quantity `n * q` in base units, cost `n` times the given median (per reference
quantity, at the quantity `n`) times the factor of the cost unit.  Partial: the points of a curve must have
at most six significant digits after the conversion, because they are written as text. -/
theorem C93_repair_cost_partial {table : Dict Str ℚ} {st : LossState} {sources : List Source} {m : LossMap} {dvs : List Str}
    {missing : List Key} (hok : TablesOk sources) (h : loadLoss table .fresh sources m dvs = .ok (st, missing))
    {k : Key} {row : Row} (hdef : Defined (dsTables sources) m k row) {U Q : Str} {u q : ℚ}
    (hrU : row dvUnit = some (.text U)) (hU : UnitFactor table U u) (hrQ : row qntUnit = some (.text Q))
    (hQ : SizeFactor table Q q) (hq : 0 < q) {ds : Str} (hds : str "DS" <+: ds) (he : row (ds, str "Family") ≠ empirical)
    {c : Cell} (hc : row (ds, str "Theta_0") = some c) {median : ℚ → ℚ} (hm : PerUnit c median) (hs : Short c (u / q) q) :
    ∃ row' c' median', (∀ r, HasRow st.params.ds k r ↔ r = row') ∧ row' (ds, str "Theta_0") = some c' ∧ PerUnit c' median' ∧
      ∀ n, median' (n * q) * (n * q) = u * (median n * n) := by
  obtain ⟨row', hr, hsc, _⟩ := ds_scaled fresh_ok hok h hdef hrU hU hrQ hQ hq.ne' hds he hc
  obtain ⟨c', f', h1, h2, h3⟩ := perUnit_scaled hq hsc hc hm hs
  refine ⟨row', c', f', hr, h1, h2, fun n => ?_⟩
  rw [h3]
  field_simp

/-- C93: a curve keeps the number of its points; each coordinate is the converted one up to a relative
error of five millionths, and exact if six digits are enough. -/
theorem C93_curve_points {table : Dict Str ℚ} {st : LossState} {sources : List Source} {m : LossMap} {dvs : List Str}
    {missing : List Key} (hok : TablesOk sources) (h : loadLoss table .fresh sources m dvs = .ok (st, missing))
    {k : Key} {row : Row} (hdef : Defined (dsTables sources) m k row) {U Q : Str} {u q : ℚ}
    (hrU : row dvUnit = some (.text U)) (hU : UnitFactor table U u) (hrQ : row qntUnit = some (.text Q))
    (hQ : SizeFactor table Q q) (hq : q ≠ 0) {ds : Str} (hds : str "DS" <+: ds) (he : row (ds, str "Family") ≠ empirical)
    {s : Str} (hc : row (ds, str "Theta_0") = some (.text s)) {ys xs : List ℚ} (hsp : Spells s ys xs) :
    ∃ row' s' ys' xs', (∀ r, HasRow st.params.ds k r ↔ r = row') ∧ row' (ds, str "Theta_0") = some (.text s') ∧ Spells s' ys' xs' ∧
      List.Forall₂ (fun y y' => |y' - y * (u / q)| ≤ 5 / 1000000 * |y * (u / q)| ∧ (SixDigits (y * (u / q)) → y' = y * (u / q))) ys ys' ∧
      List.Forall₂ (fun x x' => |x' - x * q| ≤ 5 / 1000000 * |x * q| ∧ (SixDigits (x * q) → x' = x * q)) xs xs' := by
  obtain ⟨row', hr, hsc, _⟩ := ds_scaled fresh_ok hok h hdef hrU hU hrQ hQ hq hds he hc
  have hall : ∀ (l : List ℚ) (f : ℚ), List.Forall₂ (fun y y' => |y' - y * f| ≤ 5 / 1000000 * |y * f| ∧
      (SixDigits (y * f) → y' = y * f)) l ((l.map (· * f)).map round6) := by
    intro l f
    induction l with
    | nil => exact .nil
    | cons y l ih => exact .cons ⟨round6_close _, round6_exact⟩ ih
  exact ⟨row', _, _, _, hr, hsc.curve s ys xs hc hsp,
    curveText_spells (by simpa using hsp.1) (by simpa using hsp.2.1), hall _ _, hall _ _⟩

/-- The columns of a distribution with two numbers and limits. -/
def Reads (row : Row) (ds : Str) (t0 t1 : ℚ) (a b : Option ℚ) : Prop :=
  row (ds, str "Theta_0") = some (.num t0) ∧ row (ds, str "Theta_1") = some (.num t1) ∧
    row (ds, str "TruncateLower") = a.map .num ∧ row (ds, str "TruncateUpper") = b.map .num

/-- The families with two numbers, by their names. -/
def twoNumbers : List (Str × Family) :=
  [(str "normal", .normal), (str "normal_std", .normalStd), (str "normal_cov", .normalCov), (str "lognormal", .lognormal),
    (str "uniform", .uniform)]

/-- C93: the distribution of a random consequence is that of the given one, times the factor of the unit,
per base unit of the quantity: the quantiles are multiplied by `u / q`.  Partial because of the conditions
of C19 on truncated lognormal and nearly zero means. -/
theorem C93_distribution_partial {table : Dict Str ℚ} {st : LossState} {sources : List Source} {m : LossMap} {dvs : List Str}
    {missing : List Key} (hok : TablesOk sources) (h : loadLoss table .fresh sources m dvs = .ok (st, missing))
    {k : Key} {row : Row} (hdef : Defined (dsTables sources) m k row) {U Q : Str} {u q : ℚ}
    (hrU : row dvUnit = some (.text U)) (hU : UnitFactor table U u) (hrQ : row qntUnit = some (.text Q))
    (hQ : SizeFactor table Q q) (hq : 0 < q) (hu : 0 < u) {ds : Str} (hds : str "DS" <+: ds) {name : Str} {fam : Family}
    (hfam : (name, fam) ∈ twoNumbers) (hrf : row (ds, str "Family") = some (.text name)) {t0 t1 : ℚ} {a b : Option ℚ}
    (hrd : Reads row ds t0 t1 a b) (D : StdDist ℚ) (E : ExpLog ℚ) (hE : E.Additive) {eps v : ℚ} (heps : 0 < eps)
    (h0 : 0 ≤ v) (h1 : v ≤ 1) (hsc : UQ.ScaleOk (u / q) fam [.num t0, .num t1] a b) :
    ∃ row' t0' t1' a' b', (∀ r, HasRow st.params.ds k r ↔ r = row') ∧ row' (ds, str "Family") = some (.text name) ∧
      Reads row' ds t0' t1' a' b' ∧
      quantile D E eps fam [.num t0', .num t1'] a' b' v =
        (quantile D E eps fam [.num t0, .num t1] a b v).map (fun r => r.map (UQ.Ext.scale (u / q))) := by
  have hf : familyOf (some (.text name)) = fam ∧ name ≠ str "empirical" := by
    simp only [twoNumbers, List.mem_cons, Prod.mk.injEq, List.not_mem_nil, or_false] at hfam
    rcases hfam with ⟨rfl, rfl⟩ | ⟨rfl, rfl⟩ | ⟨rfl, rfl⟩ | ⟨rfl, rfl⟩ | ⟨rfl, rfl⟩ <;> decide
  obtain ⟨r0, r1, ra, rb⟩ := hrd
  obtain ⟨row', hr, hs, _⟩ := ds_scaled fresh_ok hok h hdef hrU hU hrQ hQ hq.ne' hds
    (by rw [hrf]; simpa [empirical] using hf.2) r0
  have hg : (groupOf row ds).family = some (.text name) := hrf
  have ha : row' (ds, str "TruncateLower") = (UQ.scaleLimit (u / q) a).map .num := by
    cases a with
    | none => exact hs.noLower ra
    | some x => exact hs.lower x ra
  have hb : row' (ds, str "TruncateUpper") = (UQ.scaleLimit (u / q) b).map .num := by
    cases b with
    | none => exact hs.noUpper rb
    | some x => exact hs.upper x rb
  have h0' := hs.number t0 (by show parseTheta (row (ds, str "Theta_0")) = _; rw [r0]; rfl)
  have hf' : row' (ds, str "Family") = some (.text name) := hs.family.trans hrf
  have hlist : ∃ t1', row' (ds, str "Theta_1") = some (.num t1') ∧
      scaleDistribution (u / q) fam [.num t0, .num t1] (some (a, b)) =
        .ok ([.num (t0 * (u / q)), .num t1'], some (UQ.scaleLimit (u / q) a, UQ.scaleLimit (u / q) b)) := by
    have hkeep := hs.kept t1 r1
    have hboth := hs.both t1 r1
    rw [hg, hf.1] at hkeep hboth
    simp only [twoNumbers, List.mem_cons, Prod.mk.injEq, List.not_mem_nil, or_false] at hfam
    rcases hfam with ⟨_, rfl⟩ | ⟨_, rfl⟩ | ⟨_, rfl⟩ | ⟨_, rfl⟩ | ⟨_, rfl⟩
    · exact ⟨_, hkeep (by simp), rfl⟩
    · exact ⟨_, hboth (by simp), rfl⟩
    · exact ⟨_, hkeep (by simp), rfl⟩
    · exact ⟨_, hkeep (by simp), rfl⟩
    · exact ⟨_, hboth (by simp), rfl⟩
  obtain ⟨t1', h1', hsd⟩ := hlist
  refine ⟨row', _, t1', _, _, hr, hf', ⟨h0', h1', ha, hb⟩, ?_⟩
  exact UQ.C19_quantile_scaled_partial D E hE heps (div_pos hu hq) h0 h1 fam _ _ _ _ _ _ hsc hsd

/-- C93: the same consequence given in other units gives the same parameters. -/
theorem C93_other_units {table : Dict Str ℚ} {st1 st2 : LossState} {src1 src2 : List Source} {m : LossMap} {dvs : List Str}
    {mis1 mis2 : List Key} (ok1 : TablesOk src1) (ok2 : TablesOk src2)
    (h1 : loadLoss table .fresh src1 m dvs = .ok (st1, mis1)) (h2 : loadLoss table .fresh src2 m dvs = .ok (st2, mis2))
    {k : Key} {row1 row2 : Row} (d1 : Defined (dsTables src1) m k row1) (d2 : Defined (dsTables src2) m k row2)
    {U1 U2 Q1 Q2 : Str} {u1 u2 q1 q2 : ℚ}
    (hrU1 : row1 dvUnit = some (.text U1)) (hU1 : UnitFactor table U1 u1) (hrQ1 : row1 qntUnit = some (.text Q1))
    (hQ1 : SizeFactor table Q1 q1) (hq1 : q1 ≠ 0)
    (hrU2 : row2 dvUnit = some (.text U2)) (hU2 : UnitFactor table U2 u2) (hrQ2 : row2 qntUnit = some (.text Q2))
    (hQ2 : SizeFactor table Q2 q2) (hq2 : q2 ≠ 0) {ds : Str} (hds : str "DS" <+: ds)
    (he1 : row1 (ds, str "Family") ≠ empirical) (he2 : row2 (ds, str "Family") ≠ empirical) {x1 x2 : ℚ}
    (hx1 : row1 (ds, str "Theta_0") = some (.num x1)) (hx2 : row2 (ds, str "Theta_0") = some (.num x2))
    (hsame : x1 * (u1 / q1) = x2 * (u2 / q2)) :
    ∃ r1 r2, (∀ r, HasRow st1.params.ds k r ↔ r = r1) ∧ (∀ r, HasRow st2.params.ds k r ↔ r = r2) ∧
      r1 (ds, str "Theta_0") = some (.num (x1 * (u1 / q1))) ∧ r2 (ds, str "Theta_0") = r1 (ds, str "Theta_0") := by
  obtain ⟨r1, i1, s1, _⟩ := ds_scaled fresh_ok ok1 h1 d1 hrU1 hU1 hrQ1 hQ1 hq1 hds he1 hx1
  obtain ⟨r2, i2, s2, _⟩ := ds_scaled fresh_ok ok2 h2 d2 hrU2 hU2 hrQ2 hQ2 hq2 hds he2 hx2
  have e1 : r1 (ds, str "Theta_0") = _ := s1.number x1 (by show parseTheta (row1 (ds, str "Theta_0")) = _; rw [hx1]; rfl)
  have e2 : r2 (ds, str "Theta_0") = _ := s2.number x2 (by show parseTheta (row2 (ds, str "Theta_0")) = _; rw [hx2]; rfl)
  exact ⟨r1, r2, i1, i2, e1, by rw [e1, e2, hsame]⟩

/-- C93: a loss function gives for a demand in base units the given loss, times the factor of its unit.
Partial for the same reason as for repair costs. -/
theorem C93_loss_function_partial {table : Dict Str ℚ} {st : LossState} {sources : List Source} {m : LossMap} {dvs : List Str}
    {missing : List Key} (h : loadLoss table .fresh sources m dvs = .ok (st, missing))
    {k : Key} {row : Row} (hdef : Defined (lfTables sources) m k row) {U D : Str} {u d : ℚ}
    (hrU : row dvUnit = some (.text U)) (hU : UnitFactor table U u) (hrD : row demUnit = some (.text D))
    (hD : SizeFactor table D d) (hd : 0 < d) (he : row (str "LossFunction", str "Family") ≠ empirical)
    {c : Cell} (hc : row (str "LossFunction", str "Theta_0") = some c) {loss : ℚ → ℚ} (hm : PerUnit c loss) (hs : Short c u d) :
    ∃ row' c' loss', (∀ r, HasRow st.params.lf k r ↔ r = row') ∧ row' (str "LossFunction", str "Theta_0") = some c' ∧
      PerUnit c' loss' ∧ ∀ x, loss' (x * d) = u * loss x := by
  obtain ⟨row', hr, hconv⟩ := lf_row_of fresh_ok h hdef
  obtain ⟨_, c2, c3⟩ := convertCols_spec (by simp) (by decide) (by
    intro a ha; rw [Option.mem_def, Option.some.injEq] at ha; subst ha; decide) hconv
  obtain ⟨g, hg, hx⟩ := c3 _ hrU (str "LossFunction") (by simp)
  rw [Option.map_some, hrD] at hg
  have hsc := scaled_of hU hD hd.ne' he hg
  simp only [Bool.false_eq_true, if_false] at hsc
  obtain ⟨c', f', h1, h2, h3⟩ := perUnit_scaled hd hsc hc hm hs
  refine ⟨row', c', f', hr, ?_, h2, fun x => by rw [h3, mul_comm]⟩
  rw [hx, setGroup_col, if_pos rfl, h1]

/-- C93: a consequence without a unit is used as it is. -/
theorem C93_no_unit {table : Dict Str ℚ} {st : LossState} {sources : List Source} {m : LossMap} {dvs : List Str}
    {missing : List Key} (h : loadLoss table .fresh sources m dvs = .ok (st, missing))
    {k : Key} {row : Row} (hdef : Defined (dsTables sources) m k row) (hn : row dvUnit = none) :
    ∀ r, HasRow st.params.ds k r ↔ r = row := by
  obtain ⟨row', hr, hconv⟩ := ds_row_of fresh_ok h hdef
  have hnot : ∀ x : Str, ¬ str "DS" <+: x → x ∉ tops (str "DS") st.dsCols := fun x hx hm => hx (tops_mem.1 hm).1
  obtain ⟨c1, _, _⟩ := convertCols_spec (tops_nodup _ _) (hnot _ (by decide)) (by
    intro a ha; rw [Option.mem_def, Option.some.injEq] at ha; subst ha; exact hnot _ (by decide)) hconv
  rw [← c1 hn]
  exact hr

/-- C93: only the parameters and the limits of damage states are converted; all other cells of a
consequence are those that were given. -/
theorem C93_other_cells {table : Dict Str ℚ} {st : LossState} {sources : List Source} {m : LossMap} {dvs : List Str}
    {missing : List Key} (h : loadLoss table .fresh sources m dvs = .ok (st, missing))
    {k : Key} {row : Row} (hdef : Defined (dsTables sources) m k row) {c : Str × Str}
    (hc : ¬ str "DS" <+: c.1 ∨
      c.2 ∉ [str "Theta_0", str "Theta_1", str "Theta_2", str "TruncateLower", str "TruncateUpper"]) :
    ∃ row', (∀ r, HasRow st.params.ds k r ↔ r = row') ∧ row' c = row c := by
  obtain ⟨row', hr, hconv⟩ := ds_row_of fresh_ok h hdef
  have hnot : ∀ x : Str, ¬ str "DS" <+: x → x ∉ tops (str "DS") st.dsCols := fun x hx hm => hx (tops_mem.1 hm).1
  obtain ⟨c1, c2, c3⟩ := convertCols_spec (tops_nodup _ _) (hnot _ (by decide)) (by
    intro a ha; rw [Option.mem_def, Option.some.injEq] at ha; subst ha; exact hnot _ (by decide)) hconv
  refine ⟨row', hr, ?_⟩
  by_cases hin : c.1 ∈ tops (str "DS") st.dsCols
  · rcases hc with hc | hc
    · exact absurd (tops_mem.1 hin).1 hc
    · cases hu : row dvUnit with
      | none => rw [c1 hu]
      | some u =>
        obtain ⟨g, _, hx⟩ := c3 u hu c.1 hin
        rw [show c = (c.1, c.2) from rfl, hx, setGroup_col]
        simp only [List.mem_cons, List.not_mem_nil, or_false, not_or] at hc
        simp [hc.1, hc.2.1, hc.2.2.1, hc.2.2.2.1, hc.2.2.2.2]
  · exact c2 c hin

/-- C93: parameters in an unknown unit, or per an unknown or missing quantity, are refused. -/
theorem C93_units_known {table : Dict Str ℚ} {st : LossState} {sources : List Source} {m : LossMap} {dvs : List Str}
    {missing : List Key} (hok : TablesOk sources) (h : loadLoss table .fresh sources m dvs = .ok (st, missing))
    {k : Key} {row : Row} (hdef : Defined (dsTables sources) m k row) {U : Str} (hrU : row dvUnit = some (.text U))
    {ds : Str} (hds : str "DS" <+: ds) {c : Cell} (hc : row (ds, str "Theta_0") = some c) :
    (∃ u, UnitFactor table U u) ∧
    (row (ds, str "Family") ≠ empirical → ∃ Q q, row qntUnit = some (.text Q) ∧ SizeFactor table Q q ∧ q ≠ 0) := by
  obtain ⟨row', hr, hconv⟩ := ds_row_of fresh_ok h hdef
  have hcol : ds ∈ tops (str "DS") st.dsCols :=
    tops_mem.2 ⟨hds, str "Theta_0", ds_cols fresh_ok hok h hdef (by simp [hc])⟩
  have hnot : ∀ x : Str, ¬ str "DS" <+: x → x ∉ tops (str "DS") st.dsCols := fun x hx hm => hx (tops_mem.1 hm).1
  obtain ⟨_, _, c3⟩ := convertCols_spec (tops_nodup _ _) (hnot _ (by decide)) (by
    intro a ha; rw [Option.mem_def, Option.some.injEq] at ha; subst ha; exact hnot _ (by decide)) hconv
  obtain ⟨g, hg, _⟩ := c3 _ hrU ds hcol
  have hfin : ∀ {s : Str} {z : ℚ}, finite (Asset.calcUnitScaleFactor table s) = .ok z → UnitFactor table s z := by
    intro s z hz
    unfold UnitFactor
    cases hcalc : Asset.calcUnitScaleFactor table s with
    | error e => rw [hcalc] at hz; simp [finite] at hz
    | ok v =>
      rw [hcalc] at hz
      cases v with
      | fin w => simp only [finite, Except.ok.injEq] at hz; rw [hz]
      | inf b => simp [finite] at hz
      | nan => simp [finite] at hz
  constructor
  · unfold convertGroup at hg
    cases hf : factorOf table (.text U) with
    | error e => rw [hf] at hg; simp at hg
    | ok u => exact ⟨u, hfin hf⟩
  · intro he
    obtain ⟨u, a, c', p0, p1, p2, lo, hi, h1, h2, h3, _⟩ := convertGroup_ok hg he
    rw [Option.map_some] at h2
    cases hq : row qntUnit with
    | none => rw [hq] at h2; simp [argFactor] at h2
    | some cell =>
      rw [hq] at h2
      cases cell with
      | num z => simp [argFactor] at h2
      | text Q =>
        refine ⟨Q, ?_⟩
        by_cases hea : Q = str "1 EA"
        · exact ⟨1, rfl, .inl ⟨hea, rfl⟩, one_ne_zero⟩
        · simp only [argFactor, if_neg hea] at h2
          cases hz : finite (Asset.calcUnitScaleFactor table Q) with
          | error e => rw [hz] at h2; simp at h2
          | ok z =>
            rw [hz] at h2
            simp only [Except.ok.injEq] at h2
            refine ⟨z, rfl, .inr ⟨hea, hfin hz⟩, ?_⟩
            rintro rfl
            rw [← h2] at h3
            simp [Factors.conversion] at h3

/-! ### Examples -/

/-- A table with one consequence. -/
def oneRow (k : Key) (l : Dict (Str × Str) Cell) : Source := ⟨l.map (·.1), [(k, fun c => Dict.get? l c)]⟩

theorem oneRow_ok (k : Key) (l : Dict (Str × Str) Cell) : TablesOk [oneRow k l] := by
  intro s hs r hr c hc
  simp only [List.mem_singleton] at hs
  subst hs
  simp only [oneRow, List.mem_singleton] at hr ⊢
  subst hr
  by_contra hn
  exact hc ((Dict.get?_eq_none_iff _ _).2 hn)

theorem oneRow_merged (k : Key) (l : Dict (Str × Str) Cell) : Merged [(oneRow k l).rows] k (fun c => Dict.get? l c) := by
  rw [LossParams.merged_iff]
  refine ⟨by simp [oneRow], ?_⟩
  funext c
  simp only [oneRow, List.flatten_cons, List.flatten_nil, List.append_nil, LossParams.firstCell, List.findSome?_cons, if_true,
    List.findSome?_nil]
  cases Dict.get? l c <;> rfl

/-- The cell of a loaded parameter. -/
def dsCell (r : Except PyErr (LossState × List Key)) (k : Key) (c : Str × Str) : Option Cell :=
  match r with
  | .ok (st, _) => (st.params.ds.getD []).findSome? fun x => if x.1 = k then x.2 c else none
  | .error _ => none

def isOk {α : Type} : Except PyErr α → Bool
  | .ok _ => true
  | .error _ => false

theorem isOk_iff {α : Type} {r : Except PyErr α} : isOk r = true ↔ ∃ x, r = .ok x := by
  cases r <;> simp [isOk]

def exTable : Dict Str ℚ := [(str "USD", 1), (str "kUSD", 1000), (str "SF", 1 / 10), (str "in", 1 / 40)]

def exKey : Key := (str "C.30", str "Cost")

/-- Ceilings, in thousands of dollars per 100 square feet: a curve for the first damage state, a normal
distribution for the second. -/
def exCells : Dict (Str × Str) Cell :=
  [(dvUnit, .text (str "kUSD")), (qntUnit, .text (str "100 SF")),
    ((str "DS1", str "Theta_0"), .text (str "3,2|1,5")),
    ((str "DS2", str "Family"), .text (str "normal_std")), ((str "DS2", str "Theta_0"), .num 5),
    ((str "DS2", str "Theta_1"), .num 1), ((str "DS2", str "TruncateLower"), .num 2)]

def exMap : LossMap := [(str "C.30.1", str "C.30")]

theorem ex_ok : ∃ r, loadLoss exTable .fresh [oneRow exKey exCells] exMap [str "Cost"] = .ok r :=
  isOk_iff.1 (by decide +kernel)

theorem ex_defined : Defined (dsTables [oneRow exKey exCells]) exMap exKey (fun c => Dict.get? exCells c) := by
  refine ⟨⟨str "C.30.1", by decide⟩, ?_, by decide⟩
  have : dsTables [oneRow exKey exCells] = [(oneRow exKey exCells).rows] := rfl
  rw [this]
  exact oneRow_merged _ _

theorem ex_spells : Spells (str "3,2|1,5") [3, 2] [1, 5] :=
  ⟨by simp, by simp, [str "3", str "2"], [str "1", str "5"], rfl,
    .cons (by decide +kernel) (.cons (by decide +kernel) .nil), .cons (by decide +kernel) (.cons (by decide +kernel) .nil)⟩

/-- The hypotheses of `C93_repair_cost_partial` and `C93_curve_points` are met, and the curve becomes
300, 200 at 10, 50 square metres. -/
example : UnitFactor exTable (str "kUSD") 1000 ∧ SizeFactor exTable (str "100 SF") 10 ∧
    (fun c => Dict.get? exCells c) (str "DS1", str "Family") ≠ empirical ∧
    PerUnit (.text (str "3,2|1,5")) (interp [((1 : ℚ), 3), (5, 2)]) ∧ Short (.text (str "3,2|1,5")) (1000 / 10) 10 ∧
    dsCell (loadLoss exTable .fresh [oneRow exKey exCells] exMap [str "Cost"]) exKey (str "DS1", str "Theta_0") =
      some (.text (str "300,200|10,50")) := by
  refine ⟨by unfold UnitFactor; decide +kernel, .inr ⟨by decide, by unfold UnitFactor; decide +kernel⟩, by decide, .inr ⟨_, _, ex_spells, fun _ => rfl⟩, ?_, by decide +kernel⟩
  intro s ys xs hs hsp
  simp only [Cell.text.injEq] at hs
  obtain ⟨rfl, rfl⟩ := spells_unique (hs ▸ ex_spells) hsp
  refine ⟨?_, ?_⟩
  · intro y hy
    simp only [List.mem_cons, List.not_mem_nil, or_false] at hy
    rcases hy with rfl | rfl
    · exact ⟨300, 0, by norm_num, by norm_num⟩
    · exact ⟨200, 0, by norm_num, by norm_num⟩
  · intro y hy
    simp only [List.mem_cons, List.not_mem_nil, or_false] at hy
    rcases hy with rfl | rfl
    · exact ⟨10, 0, by norm_num, by norm_num⟩
    · exact ⟨50, 0, by norm_num, by norm_num⟩

/-- The hypotheses of `C93_distribution_partial` are met by the second damage state. -/
example : (str "normal_std", Family.normalStd) ∈ twoNumbers ∧
    (fun c => Dict.get? exCells c) (str "DS2", str "Family") = some (.text (str "normal_std")) ∧
    Reads (fun c => Dict.get? exCells c) (str "DS2") 5 1 (some 2) none ∧
    UQ.ScaleOk ((1000 : ℚ) / 10) .normalStd [.num 5, .num 1] (some 2) none ∧
    dsCell (loadLoss exTable .fresh [oneRow exKey exCells] exMap [str "Cost"]) exKey (str "DS2", str "Theta_1") =
      some (.num 100) := by
  refine ⟨by decide, by decide, ⟨by decide, by decide, by decide, by decide⟩, ?_, by decide +kernel⟩
  show (0 : ℚ) < 1
  norm_num

/-- The same ceilings in dollars per single square foot (`C93_other_units`). -/
def exOther : Dict (Str × Str) Cell :=
  [(dvUnit, .text (str "USD")), (qntUnit, .text (str "1 SF")), ((str "DS1", str "Theta_0"), .num 7),
    ((str "DS2", str "Theta_0"), .num 50)]

example : isOk (loadLoss exTable .fresh [oneRow exKey exOther] exMap [str "Cost"]) = true ∧
    (5 : ℚ) * (1000 / 10) = 50 * (1 / (1 / 10)) ∧
    dsCell (loadLoss exTable .fresh [oneRow exKey exOther] exMap [str "Cost"]) exKey (str "DS2", str "Theta_0") =
    dsCell (loadLoss exTable .fresh [oneRow exKey exCells] exMap [str "Cost"]) exKey (str "DS2", str "Theta_0") := by
  refine ⟨by decide +kernel, by norm_num, by decide +kernel⟩

/-- A loss function in dollars of an acceleration in inches per second squared (`C93_loss_function_partial`). -/
def exLf : Dict (Str × Str) Cell :=
  [(dvUnit, .text (str "kUSD")), (demUnit, .text (str "in")), ((str "LossFunction", str "Theta_0"), .text (str "0,8|0,40"))]

example : ∃ st mis, loadLoss exTable .fresh [oneRow exKey exLf] exMap [str "Cost"] = .ok (st, mis) ∧
    ∃ q, st.params.lf = some q ∧ q.map (fun r => r.2 (str "LossFunction", str "Theta_0")) = [some (.text (str "0,8000|0,1"))] := by
  obtain ⟨⟨st, mis⟩, h⟩ : ∃ r, loadLoss exTable .fresh [oneRow exKey exLf] exMap [str "Cost"] = .ok r :=
    isOk_iff.1 (by decide +kernel)
  refine ⟨st, mis, h, ?_⟩
  have hc : (match loadLoss exTable .fresh [oneRow exKey exLf] exMap [str "Cost"] with
    | .ok (st, _) => st.params.lf.map fun q => q.map fun r => r.2 (str "LossFunction", str "Theta_0")
    | .error _ => none) = some [some (.text (str "0,8000|0,1"))] := by decide +kernel
  rw [h] at hc
  simp only [Option.map_eq_some_iff] at hc
  exact hc

/-- A consequence without a unit (`C93_no_unit`) and one in an unknown unit (`C93_units_known`). -/
example : dsCell (loadLoss exTable .fresh [⟨[dvUnit, qntUnit, (str "DS1", str "Theta_0")],
      [(exKey, fun c => Dict.get? [(qntUnit, .text (str "100 SF")), ((str "DS1", str "Theta_0"), .num 7)] c)]⟩] exMap
      [str "Cost"]) exKey (str "DS1", str "Theta_0") = some (.num 7) ∧
    dsCell (loadLoss exTable .fresh [oneRow exKey [(dvUnit, .text (str "USD")), (qntUnit, .text (str "1 EA")),
      ((str "DS1", str "Theta_0"), .num 7)]] exMap [str "Cost"]) exKey (str "DS1", str "Theta_0") = some (.num 7) ∧
    isOk (loadLoss exTable .fresh [oneRow exKey [(dvUnit, .text (str "EUR")), (qntUnit, .text (str "1 EA")),
      ((str "DS1", str "Theta_0"), .num 7)]] exMap [str "Cost"]) = false := by
  refine ⟨by decide +kernel, by decide +kernel, by decide +kernel⟩

/-- A curve for a large quantity, per piece and in dollars, so that nothing has to be converted. -/
def exLarge : Dict (Str × Str) Cell :=
  [(dvUnit, .text (str "USD")), (qntUnit, .text (str "1 EA")),
    ((str "DS1", str "Theta_0"), .text (str "1234567,1000.25|1000001,1000002"))]

/-- C93 does not hold for all curves: also if nothing has to be converted, the points are rounded to six
digits; here the two quantities become the same. -/
theorem C93_curve_rounded :
    dsCell (loadLoss exTable .fresh [oneRow exKey exLarge] exMap [str "Cost"]) exKey (str "DS1", str "Theta_0") =
      some (.text (str "1.23457e+06,1000.25|1e+06,1e+06")) := by
  decide +kernel

/-! ## C94 -/

/-- One call of `load_model_parameters` of the loss model. -/
structure Call where
  sources : List Source
  map : LossMap
  dvs : List Str

/-- Several calls one after the other on the same model. -/
def loadAll (table : Dict Str ℚ) : LossState → List Call → Except PyErr LossState
  | st, [] => .ok st
  | st, c :: cs =>
    match loadLoss table st c.sources c.map c.dvs with
    | .error e => .error e
    | .ok (st', _) => loadAll table st' cs

/-- A call that concerns other consequences: its tables do not mention `k`, and `k` is still in use. -/
def Unrelated (k : Key) (c : Call) : Prop :=
  TablesOk c.sources ∧ (∃ x, (x, k.1) ∈ c.map) ∧ ∀ s ∈ c.sources, ∀ r ∈ s.rows, r.1 ≠ k

theorem defined_again {st : LossState} (hst : StateOk st) {k : Key} {row : Row} (h : HasRow st.params.ds k row) {c : Call}
    (hu : Unrelated k c) (hi : row (str "Incomplete", []) ≠ some (.num 1)) :
    Defined (start st.params.ds ++ dsTables c.sources) c.map k row := by
  obtain ⟨q, hq, hmem⟩ := h
  refine ⟨hu.2.1, ?_, hi⟩
  rw [LossParams.merged_iff, hq]
  simp only [start, List.flatten_append, List.flatten_cons, List.flatten_nil, List.append_nil]
  refine ⟨?_, ?_⟩
  · rw [List.map_append, List.mem_append]
    exact .inl (List.mem_map.2 ⟨_, hmem, rfl⟩)
  · funext x
    rw [LossParams.firstCell_append, firstCell_self (hst.dsKeys q hq) hmem, LossParams.firstCell_none_of_not_mem]
    · simp
    · intro hk
      obtain ⟨r, hr, hrk⟩ := List.mem_map.1 hk
      obtain ⟨t, ht, hrt⟩ := List.mem_flatten.1 hr
      obtain ⟨s, hs, rfl⟩ := List.mem_map.1 ht
      exact hu.2.2 s (List.mem_filter.1 hs).1 r hrt hrk

theorem calls_scale {table : Dict Str ℚ} {U Q : Str} {u q : ℚ} (hU : UnitFactor table U u) (hQ : SizeFactor table Q q)
    (hq : q ≠ 0) {k : Key} {ds : Str} (hds : str "DS" <+: ds) : ∀ (calls : List Call) {st st' : LossState} {row : Row} {x : ℚ},
    StateOk st → (∀ r, HasRow st.params.ds k r ↔ r = row) → (∀ c ∈ calls, Unrelated k c) →
    row dvUnit = some (.text U) → row qntUnit = some (.text Q) → row (ds, str "Family") ≠ empirical →
    row (str "Incomplete", []) ≠ some (.num 1) → row (ds, str "Theta_0") = some (.num x) →
    loadAll table st calls = .ok st' →
    ∃ row', (∀ r, HasRow st'.params.ds k r ↔ r = row') ∧ row' (ds, str "Theta_0") = some (.num (x * (u / q) ^ calls.length)) := by
  intro calls
  induction calls with
  | nil =>
    intro st st' row x _ hr _ _ _ _ _ hx h
    simp only [loadAll, Except.ok.injEq] at h
    subst h
    exact ⟨row, hr, by simpa using hx⟩
  | cons c calls ih =>
    intro st st' row x hst hr hun hrU hrQ he hi hx h
    simp only [loadAll] at h
    cases h1 : loadLoss table st c.sources c.map c.dvs with
    | error e => rw [h1] at h; simp at h
    | ok r =>
      obtain ⟨st1, mis⟩ := r
      rw [h1] at h
      simp only at h
      have hu := hun c (by simp)
      obtain ⟨row1, i1, i2, i3, i4, i5⟩ := ds_scaled hst hu.1 h1 (defined_again hst ((hr row).2 rfl) hu hi) hrU hU hrQ hQ hq hds he hx
      have e1 : row1 (ds, str "Theta_0") = some (.num (x * (u / q))) :=
        i2.number x (by show parseTheta (row (ds, str "Theta_0")) = _; rw [hx]; rfl)
      have ef : row1 (ds, str "Family") = row (ds, str "Family") := i2.family
      obtain ⟨row', j1, j2⟩ := ih (state_ok hst hu.1 h1) i1 (fun c' hc' => hun c' (List.mem_cons_of_mem _ hc'))
        (by rw [i3, hrU]) (by rw [i4, hrQ]) (by rw [ef]; exact he) (by rw [i5]; exact hi) e1 h
      refine ⟨row', j1, ?_⟩
      rw [j2, List.length_cons, pow_succ]
      congr 2
      ring

/-- C94 does not hold for the loss model: every call converts all parameters that the model has, so that
after `n` more calls, about other consequences, a number has been multiplied `n + 1` times by the factor of
its unit. -/
theorem C94_loss_every_call_converts {table : Dict Str ℚ} {st1 st : LossState} {sources : List Source} {m : LossMap}
    {dvs : List Str} {missing : List Key} (hok : TablesOk sources)
    (h1 : loadLoss table .fresh sources m dvs = .ok (st1, missing)) {k : Key} {row : Row}
    (hdef : Defined (dsTables sources) m k row) {U Q : Str} {u q : ℚ}
    (hrU : row dvUnit = some (.text U)) (hU : UnitFactor table U u) (hrQ : row qntUnit = some (.text Q))
    (hQ : SizeFactor table Q q) (hq : q ≠ 0) {ds : Str} (hds : str "DS" <+: ds) (he : row (ds, str "Family") ≠ empirical)
    {x : ℚ} (hx : row (ds, str "Theta_0") = some (.num x)) (calls : List Call) (hun : ∀ c ∈ calls, Unrelated k c)
    (h : loadAll table st1 calls = .ok st) :
    ∃ row', (∀ r, HasRow st.params.ds k r ↔ r = row') ∧
      row' (ds, str "Theta_0") = some (.num (x * (u / q) ^ (calls.length + 1))) := by
  obtain ⟨row1, i1, i2, i3, i4, i5⟩ := ds_scaled fresh_ok hok h1 hdef hrU hU hrQ hQ hq hds he hx
  have e1 : row1 (ds, str "Theta_0") = some (.num (x * (u / q))) :=
    i2.number x (by show parseTheta (row (ds, str "Theta_0")) = _; rw [hx]; rfl)
  have ef : row1 (ds, str "Family") = row (ds, str "Family") := i2.family
  obtain ⟨row', j1, j2⟩ := calls_scale hU hQ hq hds calls (state_ok fresh_ok hok h1) i1 hun (by rw [i3, hrU]) (by rw [i4, hrQ])
    (by rw [ef]; exact he) (by rw [i5]; exact hdef.2.2) e1 h
  refine ⟨row', j1, ?_⟩
  rw [j2, pow_succ]
  congr 2
  ring

/-- A second table, about partitions only. -/
def exSecond : Call :=
  ⟨[oneRow (str "C.10", str "Cost") [(dvUnit, .text (str "USD")), (qntUnit, .text (str "1 EA")), ((str "DS1", str "Theta_0"), .num 9)]],
    [(str "C.30.1", str "C.30"), (str "C.10.1", str "C.10")], [str "Cost"]⟩

/-- The hypotheses of the theorem before and the one after are met. -/
example : Unrelated exKey exSecond ∧
    ∃ st1 mis st, loadLoss exTable .fresh [oneRow exKey exCells] exMap [str "Cost"] = .ok (st1, mis) ∧
      loadAll exTable st1 [exSecond, exSecond] = .ok st := by
  refine ⟨⟨oneRow_ok _ _, ⟨str "C.30.1", by decide⟩, ?_⟩, ?_⟩
  · intro s hs r hr
    simp only [exSecond, List.mem_singleton] at hs
    subst hs
    simp only [oneRow, List.mem_singleton] at hr
    subst hr
    decide
  · obtain ⟨⟨st1, mis⟩, h⟩ := ex_ok
    have hc : isOk (match loadLoss exTable .fresh [oneRow exKey exCells] exMap [str "Cost"] with
      | .ok (st, _) => loadAll exTable st [exSecond, exSecond]
      | .error e => .error e) = true := by decide +kernel
    rw [h] at hc
    obtain ⟨st, hst⟩ := isOk_iff.1 hc
    exact ⟨st1, mis, st, h, hst⟩

/-- C94, what does hold: a later call leaves a number of the loss model as it is if, and only if, it is
zero or its unit needs no conversion. -/
theorem C94_loss_kept_iff_partial {table : Dict Str ℚ} {st1 st : LossState} {sources : List Source} {m : LossMap}
    {dvs : List Str} {missing : List Key} (hok : TablesOk sources)
    (h1 : loadLoss table .fresh sources m dvs = .ok (st1, missing)) {k : Key} {row : Row}
    (hdef : Defined (dsTables sources) m k row) {U Q : Str} {u q : ℚ}
    (hrU : row dvUnit = some (.text U)) (hU : UnitFactor table U u) (hrQ : row qntUnit = some (.text Q))
    (hQ : SizeFactor table Q q) (hq : q ≠ 0) {ds : Str} (hds : str "DS" <+: ds) (he : row (ds, str "Family") ≠ empirical)
    {x : ℚ} (hx : row (ds, str "Theta_0") = some (.num x)) (c : Call) (hun : Unrelated k c)
    (h : loadAll table st1 [c] = .ok st) {r1 r2 : Row} (hr1 : HasRow st1.params.ds k r1) (hr2 : HasRow st.params.ds k r2) :
    r2 (ds, str "Theta_0") = r1 (ds, str "Theta_0") ↔ x = 0 ∨ u = 0 ∨ u = q := by
  obtain ⟨a1, i1, e1⟩ := C94_loss_every_call_converts hok h1 hdef hrU hU hrQ hQ hq hds he hx [] (by simp) (st := st1) rfl
  obtain ⟨a2, i2, e2⟩ := C94_loss_every_call_converts hok h1 hdef hrU hU hrQ hQ hq hds he hx [c] (by simpa using hun) h
  rw [(i1 r1).1 hr1, (i2 r2).1 hr2, e1, e2]
  simp only [List.length_cons, List.length_nil, zero_add, Option.some.injEq, Cell.num.injEq, pow_one]
  constructor
  · intro hh
    by_cases hx0 : x = 0
    · exact .inl hx0
    · by_cases hu0 : u = 0
      · exact .inr (.inl hu0)
      · right; right
        have h3 : (u / q) ^ (1 + 1) = u / q := mul_left_cancel₀ hx0 hh
        rw [pow_succ, pow_one] at h3
        have h4 : u / q = 1 := by
          have hne : u / q ≠ 0 := div_ne_zero hu0 hq
          exact mul_left_cancel₀ hne (by rw [h3, mul_one])
        rw [div_eq_one_iff_eq hq] at h4
        exact h4
  · rintro (rfl | rfl | rfl)
    · simp
    · simp
    · rw [div_self hq]; simp

/-! ### The damage model -/

/-- The damage model has this row for the component. -/
def HasCmp (st : DmgState) (c : Str) (row : Row) : Prop := ∃ q, st.params = some q ∧ (c, row) ∈ q

/-- Everything that holds for a damage model in which parameters have been loaded. -/
structure DmgOk (st : DmgState) : Prop where
  keys : ∀ q, st.params = some q → (q.map (·.1)).Nodup
  noUnit : ∀ c row, HasCmp st c row → row demUnit = none
  complete : ∀ c row, HasCmp st c row → row (str "Incomplete", []) ≠ some (.num 1)
  noCol : demUnit ∉ st.cols

theorem dmg_fresh_ok : DmgOk .fresh :=
  ⟨by simp [DmgState.fresh], by simp [HasCmp, DmgState.fresh], by simp [HasCmp, DmgState.fresh], by simp [DmgState.fresh]⟩

theorem addSources_any {ss : List DmgParams.Source} {p : Option (List (Str × Row))} {q : List (Str × Row)}
    (h : DmgParams.addSources p ss = .ok (some q)) (hp : ∀ p', p = some p' → (p'.map (·.1)).Nodup) :
    (q.map (·.1)).Nodup ∧ ∀ c, Dict.get? q c = (Dict.get? (p.getD []) c).or (Dict.get? (ss.flatMap (·.rows)) c) := by
  cases p with
  | some p => exact DmgParams.addSources_spec ss p q h (hp p rfl)
  | none =>
    cases ss with
    | nil => simp [DmgParams.addSources] at h
    | cons s ss =>
      unfold DmgParams.addSources at h
      split at h
      · obtain ⟨h1, h2⟩ := DmgParams.addSources_spec ss _ _ h (DmgParams.groupFirst_nodup _)
        refine ⟨h1, fun c => ?_⟩
        rw [h2 c]
        simp only [DmgParams.addSource, DmgParams.get?_groupFirst, List.flatMap_cons, DmgParams.get?_append,
          Option.getD_none]
        simp
      · simp at h

/-- The rows after a call. -/
theorem dmg_rows {table : Dict Str ℚ} {st st' : DmgState} {sources : List DmgParams.Source} {cmpSet missing : List Str}
    (hst : DmgOk st) (h : loadDmg table st sources cmpSet = .ok (st', missing)) :
    (∀ q, st'.params = some q → (q.map (·.1)).Nodup) ∧ demUnit ∉ st'.cols ∧
    (∀ c row', HasCmp st' c row' ↔ ∃ row, c ∈ cmpSet ∧
      ((Dict.get? (st.params.getD []) c).or (Dict.get? (sources.flatMap (·.rows)) c)) = some row ∧
      row (str "Incomplete", []) ≠ some (.num 1) ∧
      convertLs table (tops (str "LS") (st.cols ++ sources.flatMap (·.cols))) row = .ok row') ∧
    (∀ c row, c ∈ cmpSet → ((Dict.get? (st.params.getD []) c).or (Dict.get? (sources.flatMap (·.rows)) c)) = some row →
      row (str "Incomplete", []) ≠ some (.num 1) → ∃ row', HasCmp st' c row') := by
  unfold loadDmg at h
  cases ha : DmgParams.addSources st.params sources with
  | error e => rw [ha] at h; simp at h
  | ok r =>
    rw [ha] at h
    cases r with
    | none =>
      simp only [Except.ok.injEq, Prod.mk.injEq] at h
      obtain ⟨rfl, _⟩ := h
      have hnone : st.params = none ∧ sources = [] := by
        cases hp : st.params with
        | some p =>
          rw [hp] at ha
          obtain ⟨q, hq⟩ := DmgParams.addSources_some sources p none ha
          simp at hq
        | none =>
          refine ⟨rfl, ?_⟩
          cases sources with
          | nil => rfl
          | cons s ss =>
            rw [hp] at ha
            unfold DmgParams.addSources at ha
            split at ha
            · obtain ⟨q, hq⟩ := DmgParams.addSources_some ss _ none ha
              simp at hq
            · simp at ha
      refine ⟨by simp, hst.noCol, ?_, ?_⟩
      · intro c row'
        rw [hnone.1, hnone.2]
        simp [HasCmp, Dict.get?]
      · intro c row _ hrow
        rw [hnone.1, hnone.2] at hrow
        simp [Dict.get?] at hrow
    | some p =>
      simp only at h
      split at h
      · simp at h
      · split at h
        · simp at h
        · rename_i q hm0
          simp only [Except.ok.injEq, Prod.mk.injEq] at h
          obtain ⟨rfl, _⟩ := h
          rw [mapE_ok_iff] at hm0
          have hm : List.Forall₂ (fun (a b : Str × Row) => b.1 = a.1 ∧
              convertLs table (tops (str "LS") (st.cols ++ sources.flatMap (·.cols))) a.2 = .ok b.2)
              (DmgParams.removeIncomplete (DmgParams.dropUnused cmpSet p)) q := by
            refine hm0.imp fun a b hab => ?_
            split at hab
            · simp at hab
            · rename_i row hc
              simp only [Except.ok.injEq] at hab
              rw [← hab]
              exact ⟨rfl, hc⟩
          clear hm0
          obtain ⟨hnd, hget⟩ := addSources_any ha hst.keys
          have hnd1 : ((DmgParams.dropUnused cmpSet p).map (·.1)).Nodup := hnd.sublist ((List.filter_sublist).map _)
          have hnd2 : ((DmgParams.removeIncomplete (DmgParams.dropUnused cmpSet p)).map (·.1)).Nodup :=
            hnd1.sublist ((List.filter_sublist).map _)
          have hmemP : ∀ c row, (c, row) ∈ DmgParams.removeIncomplete (DmgParams.dropUnused cmpSet p) ↔
              c ∈ cmpSet ∧ ((Dict.get? (st.params.getD []) c).or (Dict.get? (sources.flatMap (·.rows)) c)) = some row ∧
              row (str "Incomplete", []) ≠ some (.num 1) := by
            intro c row
            unfold DmgParams.removeIncomplete DmgParams.dropUnused
            simp only [List.mem_filter, decide_eq_true_eq]
            rw [← hget c, Dict.get?_iff_mem hnd]
            tauto
          have hkeys : q.map (·.1) = (DmgParams.removeIncomplete (DmgParams.dropUnused cmpSet p)).map (·.1) := by
            exact (forall₂_map_eq hm fun a b hab => hab.1.symm).symm
          refine ⟨?_, by simp, ?_, ?_⟩
          · intro q' hq'
            simp only [Option.some.injEq] at hq'
            rw [← hq', hkeys]; exact hnd2
          · intro c row'
            have e1 : HasCmp ⟨some q, (st.cols ++ sources.flatMap (·.cols)).filter fun c => decide (c ≠ demUnit)⟩ c row' ↔ (c, row') ∈ q := by
              simp [HasCmp]
            rw [e1]
            constructor
            · intro hin
              obtain ⟨a, ha', hab⟩ := forall₂_mem_right hm hin
              obtain ⟨f1, f2⟩ := hab
              simp only at f1 f2
              obtain ⟨g1, g2, g3⟩ := (hmemP a.1 a.2).1 ha'
              exact ⟨a.2, f1 ▸ g1, f1 ▸ g2, g3, f2⟩
            · rintro ⟨row, g1, g2, g3, g4⟩
              obtain ⟨b, hb, hab⟩ := forall₂_mem_left hm ((hmemP c row).2 ⟨g1, g2, g3⟩)
              obtain ⟨f1, f2⟩ := hab
              simp only at f1 f2
              rw [g4, Except.ok.injEq] at f2
              rw [f2, ← f1]
              exact hb
          · intro c row g1 g2 g3
            obtain ⟨b, hb, hab⟩ := forall₂_mem_left hm ((hmemP c row).2 ⟨g1, g2, g3⟩)
            obtain ⟨f1, f2⟩ := hab
            simp only at f1
            exact ⟨b.2, q, rfl, f1 ▸ hb⟩

theorem convertLs_keeps {table : Dict Str ℚ} {cols : List (Str × Str)} {row row' : Row} (hn : row demUnit = none)
    (h : convertLs table (tops (str "LS") cols) row = .ok row') : row' = row := by
  unfold convertLs at h
  cases hc : convertCols table demUnit none true (tops (str "LS") cols) row with
  | error e => rw [hc] at h; simp at h
  | ok r =>
    rw [hc] at h
    simp only [Except.ok.injEq] at h
    have hnot : ∀ x : Str, ¬ str "LS" <+: x → x ∉ tops (str "LS") cols := fun x hx hm => hx (tops_mem.1 hm).1
    obtain ⟨c1, _, _⟩ := convertCols_spec (tops_nodup _ _) (hnot _ (by decide)) (by simp) hc
    rw [c1 hn] at h
    rw [← h]
    funext c
    unfold dropUnit
    split
    · rename_i e; rw [e, hn]
    · rfl

theorem dmg_step {table : Dict Str ℚ} {st st' : DmgState} {sources : List DmgParams.Source} {cmpSet missing : List Str}
    (hst : DmgOk st) (h : loadDmg table st sources cmpSet = .ok (st', missing)) :
    DmgOk st' ∧ ∀ c row, HasCmp st c row → c ∈ cmpSet → ∀ r, HasCmp st' c r ↔ r = row := by
  obtain ⟨h1, h2, h3, h4⟩ := dmg_rows hst h
  refine ⟨⟨h1, ?_, ?_, h2⟩, ?_⟩
  · intro c row' hr
    obtain ⟨row, _, _, _, hc⟩ := (h3 c row').1 hr
    unfold convertLs at hc
    cases hcc : convertCols table demUnit none true (tops (str "LS") (st.cols ++ sources.flatMap (·.cols))) row with
    | error e => rw [hcc] at hc; simp at hc
    | ok r =>
      rw [hcc] at hc
      simp only [Except.ok.injEq] at hc
      rw [← hc]
      simp [dropUnit]
  · intro c row' hr
    obtain ⟨row, _, _, hi, hc⟩ := (h3 c row').1 hr
    unfold convertLs at hc
    cases hcc : convertCols table demUnit none true (tops (str "LS") (st.cols ++ sources.flatMap (·.cols))) row with
    | error e => rw [hcc] at hc; simp at hc
    | ok r =>
      rw [hcc] at hc
      simp only [Except.ok.injEq] at hc
      have hnot : ∀ x : Str, ¬ str "LS" <+: x → x ∉ tops (str "LS") (st.cols ++ sources.flatMap (·.cols)) :=
        fun x hx hm => hx (tops_mem.1 hm).1
      obtain ⟨_, c2, _⟩ := convertCols_spec (tops_nodup _ _) (hnot _ (by decide)) (by simp) hcc
      rw [← hc]
      unfold dropUnit
      rw [if_neg (by decide), c2 _ (hnot _ (by decide))]
      exact hi
  · intro c row hr hcs
    have hget : Dict.get? (st.params.getD []) c = some row := by
      obtain ⟨q, hq, hmem⟩ := hr
      rw [hq]
      exact Dict.get?_of_mem (hst.keys q hq) hmem
    have hor : ((Dict.get? (st.params.getD []) c).or (Dict.get? (sources.flatMap (·.rows)) c)) = some row := by
      rw [hget]; rfl
    intro r
    constructor
    · intro hr'
      obtain ⟨row1, _, e1, _, hc⟩ := (h3 c r).1 hr'
      rw [hor, Option.some.injEq] at e1
      subst e1
      exact convertLs_keeps (hst.noUnit c _ hr) hc
    · rintro rfl
      obtain ⟨r', hr'⟩ := h4 c r hcs hor (hst.complete c _ hr)
      obtain ⟨row1, _, e1, _, hc⟩ := (h3 c r').1 hr'
      rw [hor, Option.some.injEq] at e1
      subst e1
      rw [convertLs_keeps (hst.noUnit c _ hr) hc] at hr'
      exact hr'

/-- One call of `load_model_parameters` of the damage model. -/
structure DmgCall where
  sources : List DmgParams.Source
  cmpSet : List Str

/-- Several calls one after the other on the same model. -/
def loadAllDmg (table : Dict Str ℚ) : DmgState → List DmgCall → Except PyErr DmgState
  | st, [] => .ok st
  | st, c :: cs =>
    match loadDmg table st c.sources c.cmpSet with
    | .error e => .error e
    | .ok (st', _) => loadAllDmg table st' cs

theorem dmgAll_ok {table : Dict Str ℚ} : ∀ (calls : List DmgCall) {st st' : DmgState}, DmgOk st →
    loadAllDmg table st calls = .ok st' → DmgOk st' := by
  intro calls
  induction calls with
  | nil =>
    intro st st' hst h
    simp only [loadAllDmg, Except.ok.injEq] at h
    exact h ▸ hst
  | cons c calls ih =>
    intro st st' hst h
    simp only [loadAllDmg] at h
    cases h1 : loadDmg table st c.sources c.cmpSet with
    | error e => rw [h1] at h; simp at h
    | ok r =>
      rw [h1] at h
      exact ih (dmg_step hst h1).1 h

/-- C94 for the damage model: whatever the calls before, the parameters of a component that is still in
use are not changed by later calls, also if these define the component again. -/
theorem C94_damage_kept {table : Dict Str ℚ} {before : List DmgCall} {st : DmgState}
    (h : loadAllDmg table .fresh before = .ok st) {c : Str} {row : Row} (hr : HasCmp st c row) :
    ∀ (later : List DmgCall) {st' : DmgState}, (∀ l ∈ later, c ∈ l.cmpSet) → loadAllDmg table st later = .ok st' →
      HasCmp st' c row ∧ ∀ r, HasCmp st' c r → r = row := by
  have hst := dmgAll_ok before dmg_fresh_ok h
  clear h
  intro later
  induction later generalizing st with
  | nil =>
    intro st' _ h'
    simp only [loadAllDmg, Except.ok.injEq] at h'
    subst h'
    refine ⟨hr, fun r hr' => ?_⟩
    obtain ⟨q, hq, hm⟩ := hr
    obtain ⟨q', hq', hm'⟩ := hr'
    rw [hq, Option.some.injEq] at hq'
    subst hq'
    have := List.inj_on_of_nodup_map (hst.keys q hq) hm' hm rfl
    simpa using this
  | cons l later ih =>
    intro st' hin h'
    simp only [loadAllDmg] at h'
    cases h1 : loadDmg table st l.sources l.cmpSet with
    | error e => rw [h1] at h'; simp at h'
    | ok r =>
      rw [h1] at h'
      obtain ⟨g1, g2⟩ := dmg_step hst h1
      exact ih ((g2 c row hr (hin l (by simp)) row).2 rfl) g1 (fun x hx => hin x (List.mem_cons_of_mem _ hx)) h'

/-- C94 for the damage model: a component that is new gets the first row of the call that defines it, in
base units. -/
theorem C94_damage_first_definition {table : Dict Str ℚ} {before : List DmgCall} {st st' : DmgState}
    (h : loadAllDmg table .fresh before = .ok st) {sources : List DmgParams.Source} {cmpSet missing : List Str}
    (h' : loadDmg table st sources cmpSet = .ok (st', missing)) {c : Str} (hc : c ∈ cmpSet) (hnew : ∀ r, ¬ HasCmp st c r)
    {row : Row} (hw : DmgParams.WinningRow sources c row) (hi : row (str "Incomplete", []) ≠ some (.num 1))
    {U : Str} {u : ℚ} (hrU : row demUnit = some (.text U)) (hU : UnitFactor table U u) {ls : Str} (hls : str "LS" <+: ls)
    (hcol : ∃ x, (ls, x) ∈ sources.flatMap (·.cols)) (he : row (ls, str "Family") ≠ empirical) {x : ℚ}
    (hx : row (ls, str "Theta_0") = some (.num x)) :
    ∃ row', (∀ r, HasCmp st' c r ↔ r = row') ∧ row' (ls, str "Theta_0") = some (.num (x * u)) ∧ row' demUnit = none := by
  have hst := dmgAll_ok before dmg_fresh_ok h
  obtain ⟨_, _, h3, h4⟩ := dmg_rows hst h'
  have hor : ((Dict.get? (st.params.getD []) c).or (Dict.get? (sources.flatMap (·.rows)) c)) = some row := by
    have hn : Dict.get? (st.params.getD []) c = none := by
      rw [Dict.get?_eq_none_iff]
      intro hk
      cases hp : st.params with
      | none => rw [hp] at hk; exact List.not_mem_nil hk
      | some q =>
        rw [hp] at hk
        obtain ⟨y, hy, rfl⟩ := List.mem_map.1 hk
        exact hnew y.2 ⟨q, hp, hy⟩
    rw [hn, (DmgParams.winning_iff sources c row).1 hw]
    rfl
  obtain ⟨row', hr'⟩ := h4 c row hc hor hi
  obtain ⟨row1, _, e1, _, hconv⟩ := (h3 c row').1 hr'
  rw [hor, Option.some.injEq] at e1
  subst e1
  refine ⟨row', fun r => ⟨fun hr => ?_, fun hr => hr ▸ hr'⟩, ?_⟩
  · obtain ⟨row2, _, e2, _, hconv2⟩ := (h3 c r).1 hr
    rw [hor, Option.some.injEq] at e2
    subst e2
    rw [hconv, Except.ok.injEq] at hconv2
    exact hconv2.symm
  · unfold convertLs at hconv
    cases hcc : convertCols table demUnit none true (tops (str "LS") (st.cols ++ sources.flatMap (·.cols))) row with
    | error e => rw [hcc] at hconv; simp at hconv
    | ok r =>
      rw [hcc] at hconv
      simp only [Except.ok.injEq] at hconv
      have hnot : ∀ x : Str, ¬ str "LS" <+: x → x ∉ tops (str "LS") (st.cols ++ sources.flatMap (·.cols)) :=
        fun x hx hm => hx (tops_mem.1 hm).1
      obtain ⟨_, _, c3⟩ := convertCols_spec (tops_nodup _ _) (hnot _ (by decide)) (by simp) hcc
      obtain ⟨y, hy⟩ := hcol
      obtain ⟨g, hg, hxx⟩ := c3 _ hrU ls (tops_mem.2 ⟨hls, y, List.mem_append_right _ hy⟩)
      obtain ⟨u', a, c', p0, p1, p2, lo, hi', k1, k2, k3, k4, k5, k6, k7, k8, k9⟩ := convertGroup_ok hg he
      have ha : a = none := by simpa [argFactor] using k2.symm
      subst ha
      have hu' : u' = u := by
        unfold UnitFactor at hU
        simp only [factorOf, hU, finite, Except.ok.injEq] at k1
        exact k1.symm
      subst hu'
      have hc' : c' = u' := by simpa [Factors.conversion] using k3.symm
      subst hc'
      obtain ⟨md, e1, j1, j2, j3, j4, j5, j6, _⟩ := rescale_ok k3 k9
      have hp0 : p0 = (.num x, none) := by
        have : parseTheta (row (ls, str "Theta_0")) = .ok p0 := k4
        rw [hx] at this
        simpa [parseTheta] using this.symm
      subst hp0
      simp only [Factors.scaleArgs, UQ.Entry.scale, renderTheta, Except.ok.injEq] at j6
      rw [← hconv]
      refine ⟨?_, by simp [dropUnit]⟩
      unfold dropUnit
      rw [if_neg, hxx, setGroup_col, if_pos rfl, j6]
      intro e
      have : ls = str "Demand" := congrArg Prod.fst e
      rw [this] at hls
      revert hls; decide

/-- A column in inches, and the table of a second call with the same column in other units. -/
def exDmg : List DmgCall :=
  [⟨[⟨[demUnit, (str "LS1", str "Theta_0")], [(str "B.1", fun c => Dict.get? [(demUnit, .text (str "in")), ((str "LS1", str "Theta_0"), .num 2)] c)]⟩],
      [str "B.1"]⟩,
    ⟨[⟨[demUnit, (str "LS1", str "Theta_0")], [(str "B.1", fun c => Dict.get? [(demUnit, .text (str "USD")), ((str "LS1", str "Theta_0"), .num 7)] c),
        (str "B.2", fun c => Dict.get? [(demUnit, .text (str "in")), ((str "LS1", str "Theta_0"), .num 4)] c)]⟩],
      [str "B.1", str "B.2"]⟩]

def dmgCell (r : Except PyErr DmgState) (k : Str) (c : Str × Str) : Option Cell :=
  match r with
  | .ok st => (st.params.getD []).findSome? fun x => if x.1 = k then x.2 c else none
  | .error _ => none

/-- The hypotheses of the theorems about the damage model are met: the first row is kept, the new component is
converted. -/
example : isOk (loadAllDmg exTable .fresh (exDmg.take 1)) = true ∧ isOk (loadAllDmg exTable .fresh exDmg) = true ∧
    dmgCell (loadAllDmg exTable .fresh (exDmg.take 1)) (str "B.1") (str "LS1", str "Theta_0") = some (.num (1 / 20)) ∧
    dmgCell (loadAllDmg exTable .fresh exDmg) (str "B.1") (str "LS1", str "Theta_0") = some (.num (1 / 20)) ∧
    dmgCell (loadAllDmg exTable .fresh exDmg) (str "B.2") (str "LS1", str "Theta_0") = some (.num (1 / 10)) := by
  refine ⟨by decide +kernel, by decide +kernel, by decide +kernel, by decide +kernel, by decide +kernel⟩

/-- C94: a call without any source is refused once the damage model has parameters, because the column
with the units is gone. -/
theorem C94_damage_no_source_refused {table : Dict Str ℚ} {before : List DmgCall} {st : DmgState}
    (h : loadAllDmg table .fresh before = .ok st) (hp : st.params ≠ none) (cmpSet : List Str) :
    loadDmg table st [] cmpSet = .error .keyError := by
  have hst := dmgAll_ok before dmg_fresh_ok h
  obtain ⟨p, hp⟩ := Option.ne_none_iff_exists'.1 hp
  unfold loadDmg
  rw [hp]
  simp only [DmgParams.addSources, List.flatMap_nil, List.append_nil]
  rw [if_pos hst.noCol]

end Verif.ParamUnits
