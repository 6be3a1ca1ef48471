import Verif.Model.AsmConseq
import Verif.Props.AsmLoss
import Verif.Props.AsmDamage

/-!
# Property C109: where the consequences of an assessment come from
-/

namespace Verif.AsmConseq

open DmgParams (Cell Row)
open LossParams (LossMap Key Source Params HasRow Merged FirstDefined FirstRow dsTables lfTables Loadable PlainIds)
open AsmLoss (Table Repl OnlyRow CostRow OptionalRow)
open AsmDamage (Lists endsCsv)
open DefaultPath (resourcePaths FileName)

/-! ### The databases -/

/-- The consequences of a method: the file with those of damage states or, if the library has none, the one with loss
functions. -/
def fileOf (files : Files) (m : Str) : Option Source :=
  (resourcePaths.get? m).bind fun folder =>
    match files.library folder (str "consequence_repair.csv") with
    | some s => some s
    | none => files.library folder (str "loss_repair.csv")

/-- The databases of an assessment by name. -/
def Databases (files : Files) (db : Option Str) (l : List Source) : Prop :=
  match db with
  | none => l = []
  | some text => ∃ names, Lists text names ∧ (∀ m ∈ names, m = str "None" ∨ ∃ folder, (m, folder) ∈ resourcePaths) ∧
      l = names.filterMap (fileOf files)

/-- The file of the user, if there is one: a path without or with the placeholder for the folder. -/
def OwnFile (files : Files) (path dir : Option Str) (l : List Source) : Prop :=
  (path = none ∧ l = []) ∨
  (∃ p s, path = some p ∧ ¬ str "CustomDLDataFolder" <:+: p ∧ files.user p = .ok s ∧ l = [s]) ∨
  (∃ p d s, path = some p ∧ str "CustomDLDataFolder" <:+: p ∧ dir = some d ∧
    files.user (AsmProcess.replaceAll (str "CustomDLDataFolder") d p) = .ok s ∧ l = [s])

def twice (s : Source) : Source × Source := (s, s)

theorem libraryFile_known (files : Files) (m folder type : Str) (hk : (m, folder) ∈ resourcePaths)
    (ht : type = str "consequence_repair" ∨ type = str "loss_repair") :
    libraryFile files (typePath m type) = .ok (files.library folder (type ++ str ".csv")) := by
  have hf : FileName (type ++ str ".csv") := by
    rcases ht with rfl | rfl <;> (unfold FileName; decide +kernel)
  unfold libraryFile typePath
  rw [show str "PelicunDefault/" ++ m ++ '/' :: type ++ str ".csv" = str "PelicunDefault/" ++ m ++ '/' :: (type ++ str ".csv") by simp,
    DefaultPath.C84_method_folder m _ folder (AsmDamage.known_fileName hk) hf hk]

theorem methodSource_known (files : Files) (m folder : Str) (hk : (m, folder) ∈ resourcePaths) :
    methodSource files m = .ok ((fileOf files m).map twice) := by
  have hcsv : endsCsv m = false := by
    have : ∀ e ∈ resourcePaths, endsCsv e.1 = false := by decide +kernel
    exact this _ hk
  have hget : resourcePaths.get? m = some folder := by
    refine Dict.get?_of_mem ?_ hk
    unfold Dict.NoDupKeys; decide +kernel
  have e1 := libraryFile_known files m folder _ hk (.inl rfl)
  have e2 := libraryFile_known files m folder _ hk (.inr rfl)
  unfold methodSource methodPath fileOf lossFunctions defaultData
  rw [hcsv]
  simp only [Bool.false_eq_true, if_false, e1, e2, hget, Option.bind_some]
  rw [show str "consequence_repair" ++ str ".csv" = str "consequence_repair.csv" from rfl,
    show str "loss_repair" ++ str ".csv" = str "loss_repair.csv" from rfl]
  cases files.library folder (str "consequence_repair.csv") with
  | some s => rfl
  | none => cases files.library folder (str "loss_repair.csv") <;> rfl

theorem namedSources_known (files : Files) (db : Option Str) (l : List Source) (h : Databases files db l) :
    namedSources files db = .ok (l.map twice) := by
  cases db with
  | none => rw [show l = [] from h]; rfl
  | some text =>
    obtain ⟨names, ⟨parts, hne, rfl, hc, rfl⟩, hk, rfl⟩ := h
    unfold namedSources
    simp only
    rw [split_join ',' parts hne hc]
    have hnone : fileOf files (str "None") = none := by
      unfold fileOf
      rw [show resourcePaths.get? (str "None") = none from by decide +kernel]
      rfl
    have : mapE (methodSource files) ((parts.map (strip isSpace)).filter fun m => decide (m ≠ str "None")) =
        .ok (((parts.map (strip isSpace)).filter fun m => decide (m ≠ str "None")).map fun m => (fileOf files m).map twice) := by
      apply mapE_pure
      intro m hm
      obtain ⟨h1, h2⟩ := List.mem_filter.1 hm
      rcases hk m h1 with h | ⟨folder, h⟩
      · simp [h] at h2
      · exact methodSource_known files m folder h
    rw [this]
    simp only
    congr 1
    rw [List.filterMap_map]
    induction parts.map (strip isSpace) with
    | nil => rfl
    | cons m ms ih =>
      by_cases hm : m = str "None"
      · subst hm
        rw [List.filter_cons_of_neg (by simp), ih, List.filterMap_cons, hnone]
      · rw [List.filter_cons_of_pos (by simp [hm]), List.filterMap_cons, List.filterMap_cons, ih]
        simp only [Function.comp_apply, id_eq]
        cases fileOf files m <;> rfl

theorem own_source {files : Files} {path dir : Option Str} {l : List Source} (h : OwnFile files path dir l) :
    customSource files path dir = .ok (l.map twice) := by
  unfold customSource AsmDamage.customPath
  rcases h with ⟨h1, rfl⟩ | ⟨p, s, h1, h2, h3, rfl⟩ | ⟨p, d, s, h1, h2, h3, h4, rfl⟩
  · rw [h1]; rfl
  · rw [← LossParams.hasInfix_iff] at h2
    simp only [h1, if_neg h2, h3]; rfl
  · rw [← LossParams.hasInfix_iff] at h2
    simp only [h1, if_pos h2, h3, h4]; rfl

/-- **C109, sources.** The consequences are those of the databases by name, in the order of their names, and of the file of
the user; the sources of the parameters are the same tables in the opposite order, the file of the user first. -/
theorem C109_sources (files : Files) (db path dir : Option Str) (named own : List Source) (hn : Databases files db named)
    (ho : OwnFile files path dir own) : loadInfo files db path dir = .ok (named ++ own, own ++ named.reverse) := by
  unfold loadInfo
  rw [namedSources_known files db named hn, own_source ho]
  have hrev : own.reverse = own := by
    rcases ho with ⟨_, rfl⟩ | ⟨p, s, _, _, _, rfl⟩ | ⟨p, d, s, _, _, _, _, rfl⟩ <;> rfl
  have h1 : ∀ l : List Source, (l.map twice).map (·.1) = l := by intro l; simp [twice, Function.comp_def]
  have h2 : ∀ l : List Source, (l.map twice).map (·.2) = l := by intro l; simp [twice, Function.comp_def]
  simp only [List.map_append, h1, h2, List.reverse_append, hrev]

/-! ### Replacement consequences -/

theorem mem_regroup (t : Table) (r : Key × Row) : r ∈ regroup t ↔ r ∈ t := by
  unfold regroup
  simp only [List.mem_flatMap, List.mem_filter, decide_eq_true_eq, FileIO.uniqueVals_mem]
  constructor
  · rintro ⟨k, _, h, _⟩; exact h
  · intro h
    exact ⟨r.1, ⟨List.mem_map.2 ⟨r, h, rfl⟩, by simp⟩, h, rfl⟩

theorem flatMap_filter_key (ks : List Key) (hnd : ks.Nodup) (t : Table) (k : Key) (hk : k ∈ ks) :
    ((ks.flatMap fun k' => t.filter fun r => decide (r.1 = k')).filter fun r => decide (r.1 = k)) =
      t.filter fun r => decide (r.1 = k) := by
  induction ks with
  | nil => simp at hk
  | cons k' ks ih =>
    obtain ⟨h1, h2⟩ := List.nodup_cons.1 hnd
    rw [List.flatMap_cons, List.filter_append, List.filter_filter]
    by_cases he : k' = k
    · subst he
      have e1 : (t.filter fun r => decide (r.1 = k') && decide (r.1 = k')) = t.filter fun r => decide (r.1 = k') := by simp
      have e2 : ((ks.flatMap fun k' => t.filter fun r => decide (r.1 = k')).filter fun r => decide (r.1 = k')) = [] := by
        rw [List.filter_eq_nil_iff]
        intro r hr
        obtain ⟨k2, h3, h4⟩ := List.mem_flatMap.1 hr
        have h5 : r.1 = k2 := by simpa using (List.mem_filter.1 h4).2
        simp only [decide_eq_true_eq, h5]
        rintro rfl
        exact h1 h3
      rw [e1, e2, List.append_nil]
    · rcases List.mem_cons.1 hk with rfl | hk
      · exact absurd rfl he
      · have e1 : (t.filter fun r => decide (r.1 = k) && decide (r.1 = k')) = [] := by
          rw [List.filter_eq_nil_iff]
          intro r _
          simp only [Bool.and_eq_true, decide_eq_true_eq, not_and]
          rintro rfl h
          exact he h.symm
        rw [e1, List.nil_append]
        exact ih h2 hk

theorem onlyRow_regroup (t : Table) (k : Key) (d : Row) : OnlyRow (regroup t) k d ↔ OnlyRow t k d := by
  rw [AsmLoss.onlyRow_iff, AsmLoss.onlyRow_iff]
  by_cases hk : k ∈ t.map (·.1)
  · unfold regroup
    rw [flatMap_filter_key _ (FileIO.uniqueVals_nodup [] _) t k (by rw [FileIO.uniqueVals_mem]; exact ⟨hk, by simp⟩)]
  · have h : ∀ s : Table, (∀ r ∈ s, r ∈ t) → (s.filter fun r => decide (r.1 = k)) = [] := by
      intro s hs
      rw [List.filter_eq_nil_iff]
      intro r hr
      simp only [decide_eq_true_eq]
      rintro rfl
      exact hk (List.mem_map.2 ⟨r, hs r hr, rfl⟩)
    rw [h _ fun r hr => (mem_regroup t r).1 hr, h t fun r hr => hr]

/-- The time to replace the building: the configured one, else zero for FEMA P-58, the time of the last damage state of
the structure (the facility) for Hazus, and a loss ratio of one otherwise. -/
def TimeRow (rows : Table) (a : Args) (x : Row) : Prop := AsmLoss.TimeRow rows (replConfig a) x

theorem timeRow_regroup (t : Table) (c : AsmLoss.Config) (x : Row) :
    AsmLoss.TimeRow (regroup t) c x ↔ AsmLoss.TimeRow t c x := by
  unfold AsmLoss.TimeRow
  simp only [onlyRow_regroup]

/-- The replacement consequences that belong to the arguments. -/
def Replacement (rows : Table) (a : Args) (t : Table) : Prop :=
  ∃ cost time carbon energy, CostRow (replConfig a) cost ∧ TimeRow rows a time ∧
    OptionalRow a.approach (str "kg") a.carbon carbon ∧ OptionalRow a.approach (str "MJ") a.energy energy ∧
    t = [((str "replacement", str "Cost"), cost), ((str "replacement", str "Time"), time),
      ((str "replacement", str "Carbon"), carbon), ((str "replacement", str "Energy"), energy)]

theorem replacement_iff (rows : Table) (a : Args) (t : Table) :
    AsmLoss.replacementTable (regroup rows) (replConfig a) = .ok t ↔ Replacement rows a t := by
  rw [AsmLoss.C60_exact_partial]
  unfold Replacement TimeRow
  simp only [timeRow_regroup]
  rfl

theorem added_loadable (tables : List Source) {rows : Table} {a : Args} {t : Table} (h : Replacement rows a t) :
    Loadable (addedSource tables t) := by
  obtain ⟨c1, c2, c3, c4, _, _, _, _, rfl⟩ := h
  refine ⟨by simp [addedSource, AsmLoss.cDvUnit], ?_, .inl ⟨AsmLoss.cTheta0, by simp [addedSource], rfl⟩⟩
  intro x hx y hy he u v hu hv
  have hnd : ((addedSource tables [((str "replacement", str "Cost"), c1), ((str "replacement", str "Time"), c2),
      ((str "replacement", str "Carbon"), c3), ((str "replacement", str "Energy"), c4)]).rows.map fun r => r.1.2).Nodup := by
    change [str "Cost", str "Time", str "Carbon", str "Energy"].Nodup
    decide
  have := List.inj_on_of_nodup_map hnd hx hy he
  subst this
  rw [hu] at hv
  exact Option.some.inj hv

/-! ### The parameters of the loss model -/

/-- The loss map that belongs to the arguments, before and after the entries for replacement. -/
def MapOf (files : Files) (a : Args) (rows : Table) (cmps : List Str) (m : LossMap) : Prop :=
  ∃ m0, chosenMap files a (regroup rows) cmps = .ok m0 ∧ AsmLoss.finalMap m0 = .ok m

theorem lossParams_iff (files : Files) (a : Args) (cmps : List Str) (named own : List Source)
    (hn : Databases files a.database named) (ho : OwnFile files a.path a.dir own) (hne : named ++ own ≠ [])
    (m : LossMap) (p : Params) (missing : List Key) :
    lossParams files a cmps = .ok (m, p, missing) ↔
      ∃ t, Replacement ((named ++ own).flatMap (·.rows)) a t ∧ MapOf files a ((named ++ own).flatMap (·.rows)) cmps m ∧
        LossParams.loadParams (own ++ named.reverse ++ [addedSource (named ++ own) t]) m a.dvs = .ok (p, missing) := by
  unfold lossParams
  rw [C109_sources files _ _ _ named own hn ho]
  cases hs : named ++ own with
  | nil => exact absurd hs hne
  | cons s ss =>
    simp only [← replacement_iff, MapOf]
    cases h1 : AsmLoss.replacementTable (regroup ((s :: ss).flatMap (·.rows))) (replConfig a) with
    | error e => simp
    | ok t =>
      simp only [Except.ok.injEq, exists_eq_left']
      cases h2 : chosenMap files a (regroup ((s :: ss).flatMap (·.rows))) cmps with
      | error e => simp
      | ok m0 =>
        simp only [Except.ok.injEq, exists_eq_left']
        cases h3 : AsmLoss.finalMap m0 with
        | error e => simp
        | ok m1 =>
          simp only [Except.ok.injEq]
          constructor
          · intro h
            cases h4 : LossParams.loadParams (own ++ named.reverse ++ [addedSource (s :: ss) t]) m1 a.dvs with
            | error e => rw [h4] at h; cases h
            | ok r =>
              rw [h4] at h
              obtain ⟨p', mi⟩ := r
              simp only [Except.ok.injEq, Prod.mk.injEq] at h
              obtain ⟨rfl, rfl, rfl⟩ := h
              exact ⟨rfl, h4⟩
          · rintro ⟨rfl, h4⟩
            rw [h4]

/-- **C109, accepted.** The calculation of losses can start exactly if every table can be loaded, the time to replace the
building is known, and the chosen approach has a map. -/
theorem C109_accepted_iff (files : Files) (a : Args) (cmps : List Str) (named own : List Source)
    (hn : Databases files a.database named) (ho : OwnFile files a.path a.dir own) (hne : named ++ own ≠ []) :
    (∃ r, lossParams files a cmps = .ok r) ↔
      (∀ s ∈ named ++ own, Loadable s) ∧ (∃ x, TimeRow ((named ++ own).flatMap (·.rows)) a x) ∧
      ∃ m, MapOf files a ((named ++ own).flatMap (·.rows)) cmps m := by
  constructor
  · rintro ⟨⟨m, p, missing⟩, h⟩
    obtain ⟨t, h1, h2, h3⟩ := (lossParams_iff files a cmps named own hn ho hne m p missing).1 h
    have hl := (LossParams.C50_accepted_iff _ _ _).1 ⟨_, h3⟩
    refine ⟨fun s hs => hl s ?_, ?_, m, h2⟩
    · simp only [List.mem_append, List.mem_reverse] at hs ⊢
      tauto
    · obtain ⟨_, x, _, _, _, hx, _⟩ := h1
      exact ⟨x, hx⟩
  · rintro ⟨h1, ⟨x, hx⟩, m, hm⟩
    have hc : ∃ y, CostRow (replConfig a) y := by
      unfold CostRow
      cases hmed : (replConfig a).cost.median with
      | some q => exact ⟨_, .inl ⟨q, rfl, rfl⟩⟩
      | none =>
        by_cases hp : (replConfig a).approach = str "FEMA P-58"
        · exact ⟨_, .inr (.inl ⟨rfl, hp, rfl⟩)⟩
        · exact ⟨_, .inr (.inr ⟨rfl, hp, rfl⟩)⟩
    have hopt : ∀ unit (r : Repl), ∃ y, OptionalRow a.approach unit r y := by
      intro unit r
      unfold OptionalRow
      cases hmed : r.median with
      | some q => exact ⟨_, .inl ⟨q, rfl, rfl⟩⟩
      | none =>
        by_cases hp : a.approach = str "FEMA P-58"
        · exact ⟨_, .inr (.inl ⟨rfl, hp, rfl⟩)⟩
        · exact ⟨_, .inr (.inr ⟨rfl, hp, rfl⟩)⟩
    obtain ⟨y, hy⟩ := hc
    obtain ⟨u, hu⟩ := hopt (str "kg") a.carbon
    obtain ⟨v, hv⟩ := hopt (str "MJ") a.energy
    have hr : Replacement ((named ++ own).flatMap (·.rows)) a _ := ⟨y, x, u, v, hy, hx, hu, hv, rfl⟩
    obtain ⟨⟨p, missing⟩, hl⟩ := (LossParams.C50_accepted_iff (own ++ named.reverse ++ [addedSource (named ++ own) _]) m a.dvs).2 (by
      intro s hs
      simp only [List.mem_append, List.mem_reverse, List.mem_singleton] at hs
      rcases hs with hs | rfl
      · apply h1
        simp only [List.mem_append]
        tauto
      · exact added_loadable _ hr)
    exact ⟨(m, p, missing), (lossParams_iff files a cmps named own hn ho hne m p missing).2 ⟨_, hr, hm, hl⟩⟩

/-- The tables of the sources with damage states (`kind = true`) or loss functions, from the one with the highest
priority: the file of the user, the databases from the last one named to the first one, and the replacement
consequences. -/
def tablesOf (kind : Bool) (named own : List Source) (repl : Table) : List (List (Key × Row)) :=
  ((own ++ named.reverse).filter fun s => (s.cols.any fun c => c.1 == str "DS1") == kind).map (·.rows) ++
    if kind then [repl] else []

theorem tables_ds (named own : List Source) (t : Table) :
    dsTables (own ++ named.reverse ++ [addedSource (named ++ own) t]) = tablesOf true named own t := by
  have h : ((addedSource (named ++ own) t).cols.any fun c => c.1 == str "DS1") = true := by
    rw [List.any_eq_true]
    exact ⟨AsmLoss.cTheta0, by simp [addedSource], rfl⟩
  unfold dsTables tablesOf
  rw [List.filter_append, List.filter_singleton]
  simp only [h, List.map_append, if_true]
  simp [addedSource]

theorem tables_lf (named own : List Source) (t : Table) :
    lfTables (own ++ named.reverse ++ [addedSource (named ++ own) t]) = tablesOf false named own t := by
  have h : ((addedSource (named ++ own) t).cols.any fun c => c.1 == str "DS1") = true := by
    rw [List.any_eq_true]
    exact ⟨AsmLoss.cTheta0, by simp [addedSource], rfl⟩
  unfold lfTables tablesOf
  rw [List.filter_append, List.filter_cons_of_neg (by rw [h]; simp)]
  simp

/-- **C109, priority.** Every consequence of the map is defined by the tables in the order of priority: the file of the user,
the databases from the last one named to the first one, and the replacement consequences; each cell is the first one that
is not missing.  The consequences reported as missing are those that no table defines, or that are incomplete. -/
theorem C109_cellwise (files : Files) (a : Args) (cmps : List Str) (named own : List Source)
    (hn : Databases files a.database named) (ho : OwnFile files a.path a.dir own) (hne : named ++ own ≠ [])
    (m : LossMap) (p : Params) (missing : List Key) (h : lossParams files a cmps = .ok (m, p, missing)) :
    ∃ t, Replacement ((named ++ own).flatMap (·.rows)) a t ∧ MapOf files a ((named ++ own).flatMap (·.rows)) cmps m ∧
      (∀ k row, HasRow p.ds k row ↔ (∃ c, (c, k.1) ∈ m) ∧ Merged (tablesOf true named own t) k row ∧
        row (str "Incomplete", []) ≠ some (.num 1)) ∧
      (∀ k row, HasRow p.lf k row ↔ (∃ c, (c, k.1) ∈ m) ∧ Merged (tablesOf false named own t) k row ∧
        row (str "Incomplete", []) ≠ some (.num 1)) ∧
      ∀ id dv, (id, dv) ∈ missing ↔ (∃ c, (c, id) ∈ m) ∧ dv ∈ a.dvs ∧
        ∀ kind, (∃ x ∈ tablesOf kind named own t, ∃ r, ((id, dv), r) ∈ x) →
          FirstDefined (tablesOf kind named own t).flatten (id, dv) (str "Incomplete", []) (.num 1) := by
  obtain ⟨t, h1, h2, h3⟩ := (lossParams_iff files a cmps named own hn ho hne m p missing).1 h
  refine ⟨t, h1, h2, fun k row => ?_, fun k row => ?_, fun id dv => ?_⟩
  · rw [← tables_ds]; exact (LossParams.C50_cellwise _ _ _ _ _ h3 k row).1
  · rw [← tables_lf]; exact (LossParams.C50_cellwise _ _ _ _ _ h3 k row).2
  · rw [LossParams.C57_missing_sources _ _ _ _ _ h3 id dv, tables_ds, tables_lf]
    simp only [List.mem_cons, List.not_mem_nil, or_false, forall_eq_or_imp, forall_eq, Bool.forall_bool]
    tauto

/-- The row of the table with the highest priority. -/
def First (tables : List (List (Key × Row))) (k : Key) (row : Row) : Prop :=
  ∃ pre t post, tables = pre ++ t :: post ∧ (∀ t' ∈ pre, ∀ r ∈ t', r.1 ≠ k) ∧
    ∃ before after, t = before ++ (k, row) :: after ∧ ∀ r ∈ before, r.1 ≠ k

/-- **C109, priority.** A consequence with damage states is the one of the source with the highest priority.  Missing:
consequences of which that source leaves a cell empty that another one fills; there the definition is a mixture of
both. -/
theorem C109_priority_partial (files : Files) (a : Args) (cmps : List Str) (named own : List Source)
    (hn : Databases files a.database named) (ho : OwnFile files a.path a.dir own) (hne : named ++ own ≠ [])
    (m : LossMap) (p : Params) (missing : List Key) (h : lossParams files a cmps = .ok (m, p, missing)) :
    ∃ t, Replacement ((named ++ own).flatMap (·.rows)) a t ∧
      ∀ k row, First (tablesOf true named own t) k row →
        (∀ x ∈ tablesOf true named own t, ∀ r, (k, r) ∈ x → ∀ c, r c ≠ none → row c ≠ none) →
        (∃ c, (c, k.1) ∈ m) → row (str "Incomplete", []) ≠ some (.num 1) →
        ∀ used, HasRow p.ds k used ↔ used = row := by
  obtain ⟨t, h1, _, h3, _, _⟩ := C109_cellwise files a cmps named own hn ho hne m p missing h
  refine ⟨t, h1, ?_⟩
  rintro k row ⟨pre, x, post, hx, hpre, b, af, rfl, hb⟩ hfull hm hinc used
  have hflat : (tablesOf true named own t).flatten = (pre.flatten ++ b) ++ (k, row) :: (af ++ post.flatten) := by
    rw [hx]; simp
  have hbefore : ∀ r ∈ pre.flatten ++ b, r.1 ≠ k := by
    intro r hr
    rcases List.mem_append.1 hr with hr | hr
    · obtain ⟨t', ht', hr⟩ := List.mem_flatten.1 hr
      exact hpre t' ht' r hr
    · exact hb r hr
  have hmerged : Merged (tablesOf true named own t) k row := by
    refine ⟨⟨b ++ (k, row) :: af, by rw [hx]; simp, row, by simp⟩, fun c y => ⟨fun hc => ?_, ?_⟩⟩
    · exact ⟨_, row, _, hflat, hc, fun r hr hk => absurd hk (hbefore r hr)⟩
    · rintro ⟨b', r, a', g1, g2, g3⟩
      have hmem : (k, r) ∈ (tablesOf true named own t).flatten := by rw [g1]; simp
      obtain ⟨t', ht', hr⟩ := List.mem_flatten.1 hmem
      have hne' := hfull t' ht' r hr c (by rw [g2]; simp)
      obtain ⟨z, hz⟩ := Option.ne_none_iff_exists'.1 hne'
      have f1 := (LossParams.firstCell_some (tablesOf true named own t).flatten k c y).2 ⟨b', r, a', g1, g2, g3⟩
      have f2 := (LossParams.firstCell_some (tablesOf true named own t).flatten k c z).2
        ⟨_, row, _, hflat, hz, fun r hr hk => absurd hk (hbefore r hr)⟩
      rw [hz, ← f2, f1]
  rw [h3]
  constructor
  · rintro ⟨_, hu, _⟩
    rw [LossParams.merged_iff] at hu hmerged
    rw [hu.2, ← hmerged.2]
  · rintro rfl
    exact ⟨hm, hmerged, hinc⟩

/-- **C109, automatic map.** With the automatic approach a component whose consequence is in any of the sources has it in the
map; it is not reported as missing unless the definition is marked as incomplete. -/
theorem C109_automatic (files : Files) (a : Args) (cmps : List Str) (named own : List Source)
    (hn : Databases files a.database named) (ho : OwnFile files a.path a.dir own) (hne : named ++ own ≠ [])
    (m : LossMap) (p : Params) (missing : List Key) (h : lossParams files a cmps = .ok (m, p, missing))
    (happ : a.mapApproach = str "Automatic") (heq : ¬ str "Hazus Earthquake" <+: a.approach)
    (hids : ∀ c ∈ cmps, '-' ∉ c ∧ ¬ str "DMG" <:+: c) (c : Str) (hc : c ∈ cmps) (h1 : c ≠ str "collapse") (h2 : c ≠ str "irreparable") :
    (∀ v, (c, v) ∈ m ↔ v = c ∧ ∃ s ∈ named ++ own, ∃ r ∈ s.rows, r.1.1 = c) ∧
    ∀ dv ∈ a.dvs, ∀ s ∈ named ++ own, (∃ row, ((c, dv), row) ∈ s.rows) →
      (∀ s' ∈ named ++ own, ∀ row, ((c, dv), row) ∈ s'.rows → row (str "Incomplete", []) ≠ some (.num 1)) → c ≠ str "replacement" →
      (c, dv) ∉ missing := by
  obtain ⟨t, ht, hm, _, _, hmiss⟩ := C109_cellwise files a cmps named own hn ho hne m p missing h
  obtain ⟨m0, hm0, hm1⟩ := hm
  unfold chosenMap at hm0
  rw [if_pos happ, Except.ok.injEq] at hm0
  subst hm0
  obtain ⟨m', e1, e2⟩ := AsmLoss.C81_final a.approach a.occupancy ((regroup ((named ++ own).flatMap (·.rows))).map fun r => r.1.1) cmps hids
  rw [e1, Except.ok.injEq] at hm1
  subst hm1
  refine ⟨fun v => ?_, ?_⟩
  · rw [e2, AsmLoss.C81_automatic]
    simp only [Prod.mk.injEq, h1, false_and, h2, ne_eq, not_false_eq_true, and_true, false_or, hc, true_and, heq, or_false,
      List.mem_map, mem_regroup, List.mem_flatMap]
    constructor
    · rintro ⟨⟨r, ⟨s, hs, hr⟩, hrv⟩, rfl⟩
      exact ⟨rfl, s, hs, r, hr, hrv⟩
    · rintro ⟨rfl, s, hs, r, hr, hrv⟩
      exact ⟨⟨r, ⟨s, hs, hr⟩, hrv⟩, rfl⟩
  · intro dv hdv s hs ⟨row, hrow⟩ hinc hrep hmem
    obtain ⟨_, _, g⟩ := (hmiss c dv).1 hmem
    have hin : s.rows ∈ tablesOf (s.cols.any fun c => c.1 == str "DS1") named own t := by
      unfold tablesOf
      refine List.mem_append.2 (.inl (List.mem_map.2 ⟨s, List.mem_filter.2 ⟨?_, by simp⟩, rfl⟩))
      simp only [List.mem_append, List.mem_reverse] at hs ⊢
      tauto
    obtain ⟨b, r, af, q1, q2, _⟩ := g _ ⟨s.rows, hin, row, hrow⟩
    have hr : ((c, dv), r) ∈ (tablesOf (s.cols.any fun c => c.1 == str "DS1") named own t).flatten := by rw [q1]; simp
    obtain ⟨x, hx, hxr⟩ := List.mem_flatten.1 hr
    unfold tablesOf at hx
    rcases List.mem_append.1 hx with hx | hx
    · obtain ⟨s', hs', rfl⟩ := List.mem_map.1 hx
      refine hinc s' ?_ r hxr q2
      have := (List.mem_filter.1 hs').1
      simp only [List.mem_append, List.mem_reverse] at this ⊢
      tauto
    · split at hx
      · simp only [List.mem_singleton] at hx
        subst hx
        obtain ⟨_, _, _, _, _, _, _, _, rfl⟩ := ht
        simp only [List.mem_cons, Prod.mk.injEq, List.not_mem_nil, or_false] at hxr
        rcases hxr with ⟨⟨h, _⟩, _⟩ | ⟨⟨h, _⟩, _⟩ | ⟨⟨h, _⟩, _⟩ | ⟨⟨h, _⟩, _⟩ <;> exact hrep h
      · simp at hx

/-! ### What is refused -/

theorem last_part (m : Str) : '/' ∉ m ∨ ∃ a q, m = a ++ '/' :: q ∧ '/' ∉ q := by
  induction m with
  | nil => simp
  | cons x m ih =>
    rcases ih with h | ⟨a, q, rfl, h⟩
    · by_cases hx : x = '/'
      · exact .inr ⟨[], m, by rw [hx]; rfl, h⟩
      · left
        simp only [List.mem_cons, not_or]
        exact ⟨fun e => hx e.symm, h⟩
    · exact .inr ⟨x :: a, q, rfl, h⟩

theorem suffix_part {w a q : Str} (hw : '/' ∉ w) (h : w <:+ a ++ '/' :: q) : w <:+ q := by
  have h2 : '/' :: q <:+ a ++ '/' :: q := List.suffix_append _ _
  rcases List.suffix_or_suffix_of_suffix h h2 with h3 | h3
  · rcases List.suffix_cons_iff.1 h3 with rfl | h3
    · simp at hw
    · exact h3
  · exact absurd (h3.subset (by simp)) hw

theorem substitute_csv (m type : Str) (hm : endsCsv m = true)
    (ht : type = str "consequence_repair" ∨ type = str "loss_repair") :
    DefaultPath.substituteOne (typePath m type) = .error .keyError := by
  have hf : FileName (type ++ str ".csv") := by
    rcases ht with rfl | rfl <;> (unfold FileName; decide +kernel)
  have hcsv : ∀ q : Str, endsCsv q = true → resourcePaths.get? q = none ∧ q ≠ str "PelicunDefault" ∧ q ≠ [] ∧ q ≠ str "." := by
    intro q hq
    have h1 : ∀ e ∈ resourcePaths, endsCsv e.1 = false := by decide +kernel
    refine ⟨?_, ?_, ?_, ?_⟩
    · cases hg : resourcePaths.get? q with
      | none => rfl
      | some v =>
        have := h1 _ (Dict.mem_of_get? hg)
        rw [hq] at this
        cases this
    all_goals (rintro rfl; revert hq; decide +kernel)
  obtain ⟨pre, q, hq, hsplit⟩ : ∃ pre q, endsCsv q = true ∧ splitChar '/' (str "PelicunDefault/" ++ m) = pre ++ [q] := by
    have e : str "PelicunDefault/" ++ m = str "PelicunDefault" ++ '/' :: m := by
      rw [show str "PelicunDefault/" = str "PelicunDefault" ++ ['/'] from by decide]
      simp
    rw [e, DefaultPath.splitChar_append]
    rcases last_part m with h | ⟨a, q, rfl, h⟩
    · exact ⟨_, m, hm, by rw [splitChar_no_sep _ _ h]⟩
    · refine ⟨splitChar '/' (str "PelicunDefault") ++ splitChar '/' a, q, ?_, ?_⟩
      · unfold endsCsv at hm ⊢
        simp only [Bool.or_eq_true, List.isSuffixOf_iff_suffix] at hm ⊢
        rcases hm with hm | hm
        · exact .inl (suffix_part (by decide) hm)
        · exact .inr (suffix_part (by decide) hm)
      · rw [DefaultPath.splitChar_append, splitChar_no_sep _ _ h, List.append_assoc]
  obtain ⟨h1, h2, h3, h4⟩ := hcsv q hq
  have hp : typePath m type = (str "PelicunDefault/" ++ m) ++ '/' :: (type ++ str ".csv") := by unfold typePath; simp
  unfold DefaultPath.substituteOne
  rw [hp, List.append_assoc, DefaultPath.infix_default, if_pos rfl, ← List.append_assoc]
  unfold DefaultPath.pathParts
  rw [DefaultPath.splitChar_append, hsplit, splitChar_no_sep _ _ hf.2.2, List.filter_append, List.filter_append,
    List.filter_singleton, List.filter_singleton]
  simp only [ne_eq, h3, h4, hf.1, hf.2.1, not_false_eq_true, and_self, decide_true, if_true, List.reverse_append, List.reverse_cons,
    List.reverse_nil, List.nil_append, List.cons_append]
  change (if q = str "PelicunDefault" then _ else DefaultPath.lookupMethod (q, type ++ str ".csv")) = _
  rw [if_neg h2]
  simp only [DefaultPath.lookupMethod, h1]

/-- Violation of C109: files named as in earlier versions are refused although they are meant to be accepted: the file is
found, but then it is looked for as a method. -/
theorem C109_file_names_refused (files : Files) (a : Args) (cmps : List Str) (text : Str) (names : List Str)
    (hd : a.database = some text) (hl : Lists text names) (m : Str) (hm : m ∈ names)
    (hcsv : str "csv" <:+ m ∨ str "CSV" <:+ m) : ∃ e, lossParams files a cmps = .error e := by
  have hc : endsCsv m = true := by
    unfold endsCsv
    simp only [Bool.or_eq_true, List.isSuffixOf_iff_suffix]
    exact hcsv
  obtain ⟨parts, hne, rfl, hcm, rfl⟩ := hl
  obtain ⟨e1, he1⟩ : ∃ e, methodSource files m = .error e := by
    unfold methodSource
    cases libraryFile files (methodPath m) with
    | error e => exact ⟨e, rfl⟩
    | ok o =>
      cases o with
      | none =>
        refine ⟨.keyError, ?_⟩
        simp only [lossFunctions, libraryFile, substitute_csv m _ hc (.inr rfl)]
      | some s =>
        refine ⟨.keyError, ?_⟩
        simp only [defaultData, libraryFile, substitute_csv m _ hc (.inl rfl)]
  have hnone : m ≠ str "None" := by
    rintro rfl
    revert hc
    decide +kernel
  obtain ⟨e, he⟩ := AsmAsset.mapE_some_error (f := methodSource files)
    (l := (parts.map (strip isSpace)).filter fun m => decide (m ≠ str "None"))
    (List.mem_filter.2 ⟨hm, by simp [hnone]⟩) he1
  refine ⟨e, ?_⟩
  unfold lossParams loadInfo namedSources
  rw [hd]
  simp only [split_join ',' parts hne hcm, he]

/-- The file that the name stands for is there, and other parts of the package accept the name. -/
example : DefaultPath.substituteOne (methodPath (str "loss_repair_DB_FEMA_P58_2nd.csv")) =
    .ok (.library (str "seismic/building/component/FEMA P-58 2nd Edition/") (str "consequence_repair.csv")) := by decide +kernel

/-- C109: an unknown name among the databases is refused. -/
theorem C109_unknown_database_refused (files : Files) (a : Args) (cmps : List Str) (text : Str) (names : List Str)
    (hd : a.database = some text) (hl : Lists text names) (m : Str) (hm : m ∈ names) (hf : FileName m)
    (h1 : m ≠ str "None") (h2 : m ≠ str "PelicunDefault") (h3 : ∀ folder, (m, folder) ∉ resourcePaths) (h4 : endsCsv m = false) :
    ∃ e, lossParams files a cmps = .error e := by
  obtain ⟨parts, hne, rfl, hcm, rfl⟩ := hl
  have hms : methodSource files m = .error .keyError := by
    unfold methodSource methodPath libraryFile typePath
    rw [h4]
    simp only [Bool.false_eq_true, if_false]
    rw [show str "PelicunDefault/" ++ m ++ '/' :: str "consequence_repair" ++ str ".csv" =
      str "PelicunDefault/" ++ m ++ '/' :: str "consequence_repair.csv" by
        rw [List.append_assoc]; rfl,
      DefaultPath.C84_unknown_method_refused m (str "consequence_repair.csv") hf (by unfold FileName; decide +kernel) h3 h2]
  obtain ⟨e, he⟩ := AsmAsset.mapE_some_error (f := methodSource files)
    (l := (parts.map (strip isSpace)).filter fun m => decide (m ≠ str "None"))
    (List.mem_filter.2 ⟨hm, by simp [h1]⟩) hms
  refine ⟨e, ?_⟩
  unfold lossParams loadInfo namedSources
  rw [hd]
  simp only [split_join ',' parts hne hcm, he]

/-- C109: the placeholder in the path of the user needs a folder. -/
theorem C109_folder_required (files : Files) (a : Args) (cmps : List Str) (p : Str)
    (hp : a.path = some p) (hi : str "CustomDLDataFolder" <:+: p) (hd : a.dir = none) :
    ∃ e, lossParams files a cmps = .error e := by
  unfold lossParams loadInfo
  cases namedSources files a.database with
  | error e => exact ⟨e, rfl⟩
  | ok l =>
    rw [← LossParams.hasInfix_iff] at hi
    refine ⟨.valueError, ?_⟩
    simp only [customSource, AsmDamage.customPath, hp, if_pos hi, hd]

/-- C109: a map of the user needs its file and the folder, and there are no other approaches. -/
theorem C109_map_required (files : Files) (a : Args) (cmps : List Str) (hauto : a.mapApproach ≠ str "Automatic")
    (h : a.mapApproach ≠ str "User Defined" ∨ a.mapPath = none ∨ a.dir = none) :
    ∃ e, lossParams files a cmps = .error e := by
  have hmap : ∀ t, ∃ e, chosenMap files a t cmps = .error e := by
    intro t
    unfold chosenMap
    rw [if_neg hauto]
    by_cases hu : a.mapApproach = str "User Defined"
    · rw [if_pos hu]
      cases hd : a.dir with
      | none => exact ⟨_, rfl⟩
      | some d =>
        rcases h with h | h | h
        · exact absurd hu h
        · exact ⟨.valueError, by simp only [userMap, h]⟩
        · rw [hd] at h; cases h
    · rw [if_neg hu]; exact ⟨_, rfl⟩
  unfold lossParams
  cases loadInfo files a.database a.path a.dir with
  | error e => exact ⟨e, rfl⟩
  | ok r =>
    obtain ⟨ts, db⟩ := r
    cases ts with
    | nil => exact ⟨_, rfl⟩
    | cons t ts =>
      simp only
      cases AsmLoss.replacementTable (regroup ((t :: ts).flatMap (·.rows))) (replConfig a) with
      | error e => exact ⟨e, rfl⟩
      | ok adf =>
        obtain ⟨e, he⟩ := hmap (regroup ((t :: ts).flatMap (·.rows)))
        exact ⟨e, by simp only [he]⟩

/-- C109: the map of the user is the one in their file, with their folder in place of the placeholder. -/
theorem C109_user_map (files : Files) (a : Args) (rows : Table) (cmps : List Str) (d p : Str) (m0 m : LossMap)
    (h1 : a.mapApproach = str "User Defined") (h2 : a.dir = some d) (h3 : a.mapPath = some p)
    (h4 : files.maps (AsmProcess.replaceAll (str "CustomDLDataFolder") d p) = .ok m0) :
    MapOf files a rows cmps m ↔ AsmLoss.finalMap m0 = .ok m := by
  have hne : str "User Defined" ≠ str "Automatic" := by decide
  unfold MapOf chosenMap userMap
  simp only [h1, hne, if_false, if_true, h2, h3, h4, Except.ok.injEq, exists_eq_left']

/-- Violation of C109: in the assessment of a building with Hazus and without a configured time, a user who defines the
times of the structure anew has the whole calculation refused, because the rows of the database are still there. -/
theorem C109_redefined_time_refused (files : Files) (a : Args) (cmps : List Str) (named own : List Source) (occ : Str)
    (hn : Databases files a.database named) (ho : OwnFile files a.path a.dir own)
    (happ : a.approach = str "Hazus Earthquake - Buildings") (hocc : a.occupancy = some occ) (hmed : a.time.median = none)
    (h1 : ∃ s ∈ named, ∃ row, ((str "STR." ++ occ, str "Time"), row) ∈ s.rows)
    (h2 : ∃ s ∈ own, ∃ row, ((str "STR." ++ occ, str "Time"), row) ∈ s.rows) :
    ∃ e, lossParams files a cmps = .error e := by
  obtain ⟨s1, hs1, r1, hr1⟩ := h1
  obtain ⟨s2, hs2, r2, hr2⟩ := h2
  have hne : named ++ own ≠ [] := by
    rintro h
    rw [List.append_eq_nil_iff] at h
    rw [h.1] at hs1; cases hs1
  cases hr : lossParams files a cmps with
  | error e => exact ⟨e, rfl⟩
  | ok r =>
    exfalso
    obtain ⟨_, ⟨x, hx⟩, _⟩ := (C109_accepted_iff files a cmps named own hn ho hne).1 ⟨r, hr⟩
    have d1 : str "Hazus Earthquake - Buildings" ≠ str "FEMA P-58" := by decide
    have d3 : str "Hazus Earthquake - Buildings" ≠ str "Hazus Earthquake - Lifeline Facilities" := by decide
    unfold TimeRow AsmLoss.TimeRow replConfig at hx
    simp only [happ, hocc, hmed, Option.getD_some] at hx
    rcases hx with ⟨_, h, _⟩ | ⟨_, ⟨h, _⟩ | ⟨_, d, ⟨b, af, he, hno⟩, _⟩ | ⟨h, _⟩ | ⟨h, _⟩⟩
    · cases h
    · exact d1 h
    · rw [List.flatMap_append] at he
      have hm1 : ((str "STR." ++ occ, str "Time"), r1) ∈ named.flatMap (·.rows) := List.mem_flatMap.2 ⟨s1, hs1, hr1⟩
      have hm2 : ((str "STR." ++ occ, str "Time"), r2) ∈ own.flatMap (·.rows) := List.mem_flatMap.2 ⟨s2, hs2, hr2⟩
      obtain ⟨u, v, e1⟩ := List.append_of_mem hm1
      obtain ⟨u', v', e2⟩ := List.append_of_mem hm2
      have hcount : ((named.flatMap (·.rows) ++ own.flatMap (·.rows)).filter fun r => decide (r.1 = (str "STR." ++ occ, str "Time"))).length = 1 := by
        rw [he, (AsmLoss.onlyRow_iff (b ++ ((str "STR." ++ occ, str "Time"), d) :: af) _ d).1 ⟨b, af, rfl, hno⟩]
        rfl
      rw [e1, e2] at hcount
      simp only [List.filter_append, List.filter_cons, decide_true, if_true, List.length_append, List.length_cons] at hcount
      omega
    · exact d3 h
    · simp at h

/-! ### A case -/

def unitC : Str × Str := (str "DV", str "Unit")
def th0 (ds : Str) : Str × Str := (ds, str "Theta_0")
def incC : Str × Str := (str "Incomplete", [])

/-- A row with its unit and the medians of damage states. -/
def costs (l : List (Str × ℚ)) : Row := AsmDamage.rowOf ((unitC, .text (str "USD_2011")) :: l.map fun x => (th0 x.1, .num x.2))

def columns : List (Str × Str) := [unitC, th0 (str "DS1"), th0 (str "DS2"), incC]

/-- The library has consequences of FEMA P-58 and of the stories of Hazus, the user has one of their own. -/
def caseFiles : Files where
  library := fun folder file =>
    if file = str "consequence_repair.csv" then
      if folder = str "seismic/building/component/FEMA P-58 2nd Edition/" then
        some ⟨columns, [((str "B.1", str "Cost"), costs [(str "DS1", 3), (str "DS2", 7)]),
          ((str "B.2", str "Cost"), costs [(str "DS1", 4), (str "DS2", 8)]),
          ((str "B.3", str "Cost"), costs [(str "DS1", 5), (str "DS2", 9)])]⟩
      else if folder = str "seismic/building/subassembly/Hazus v5.1/" then
        some ⟨columns, [((str "B.2", str "Cost"), costs [(str "DS1", 14), (str "DS2", 18)])]⟩
      else none
    else none
  user := fun p => if p = str "/my/own.csv" then
      .ok ⟨columns, [((str "B.1", str "Cost"), costs [(str "DS1", 30), (str "DS2", 70)]), ((str "B.3", str "Cost"), costs [(str "DS1", 50)]),
        ((str "replacement", str "Cost"), costs [(str "DS1", 1)])]⟩
    else .error .fileNotFoundError
  maps := fun _ => .error .fileNotFoundError

def caseArgs : Args where
  database := some (str "FEMA P-58, None ,Hazus Earthquake - Stories")
  path := some (str "CustomDLDataFolder/own.csv")
  dir := some (str "/my")
  approach := str "FEMA P-58"
  occupancy := none
  cost := ⟨some (str "USD_2011"), some 1000000, none, none⟩
  time := ⟨none, none, none, none⟩
  carbon := ⟨none, none, none, none⟩
  energy := ⟨none, none, none, none⟩
  mapApproach := str "Automatic"
  mapPath := none
  dvs := [str "Cost"]

/-- The median of a damage state of a consequence among the parameters of an assessment. -/
def medianOf (r : Except PyErr (LossMap × Params × List Key)) (id ds : Str) : Option (Option Cell) :=
  match r with
  | .ok (_, ⟨some q, _⟩, _) => (Dict.get? q (id, str "Cost")).map fun row => row (th0 ds)
  | _ => none

/-- The hypotheses of the theorems hold in this case. -/
example : ∃ named own, Databases caseFiles caseArgs.database named ∧ OwnFile caseFiles caseArgs.path caseArgs.dir own ∧
    named.length = 2 ∧ own.length = 1 := by
  refine ⟨[str "FEMA P-58", str "None", str "Hazus Earthquake - Stories"].filterMap (fileOf caseFiles), _,
    ⟨[str "FEMA P-58", str "None", str "Hazus Earthquake - Stories"],
      ⟨[str "FEMA P-58", str " None ", str "Hazus Earthquake - Stories"], by simp, by decide +kernel, by decide +kernel, by decide +kernel⟩, ?_, rfl⟩,
    .inr (.inr ⟨_, _, _, rfl, ?_, rfl, rfl, rfl⟩), by decide +kernel, rfl⟩
  · intro m hm
    simp only [List.mem_cons, List.not_mem_nil, or_false] at hm
    rcases hm with rfl | rfl | rfl
    · exact .inr ⟨str "seismic/building/component/FEMA P-58 2nd Edition/", by decide +kernel⟩
    · exact .inl rfl
    · exact .inr ⟨str "seismic/building/subassembly/Hazus v5.1/", by decide +kernel⟩
  · rw [← LossParams.hasInfix_iff]; decide +kernel

/-- The consequence of the user is used, and the one of the database that is named last. -/
example : medianOf (lossParams caseFiles caseArgs [str "B.1", str "B.2", str "B.3", str "collapse"]) (str "B.1") (str "DS2") = some (some (.num 70)) ∧
    medianOf (lossParams caseFiles caseArgs [str "B.1", str "B.2", str "B.3", str "collapse"]) (str "B.2") (str "DS1") = some (some (.num 14)) := by
  constructor <;> decide +kernel

/-- Violation of C109: a consequence that the user defines with one damage state keeps the second one of the library. -/
theorem C109_mixture :
    medianOf (lossParams caseFiles caseArgs [str "B.1", str "B.2", str "B.3", str "collapse"]) (str "B.3") (str "DS1") = some (some (.num 50)) ∧
    medianOf (lossParams caseFiles caseArgs [str "B.1", str "B.2", str "B.3", str "collapse"]) (str "B.3") (str "DS2") = some (some (.num 9)) := by
  constructor <;> decide +kernel

/-- Violation of C109: a row for the replacement in a table is used instead of the replacement cost of the
configuration. -/
theorem C109_replacement_hidden :
    caseArgs.cost.median = some 1000000 ∧
    medianOf (lossParams caseFiles caseArgs [str "B.1", str "collapse"]) (str "replacement") (str "DS1") = some (some (.num 1)) := by
  constructor
  · rfl
  · decide +kernel

end Verif.AsmConseq
