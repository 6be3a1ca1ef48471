import Verif.Model.AsmDamage
import Verif.Props.DefaultPath
import Verif.Props.DmgParams
import Verif.Props.DemandReq
import Verif.Props.DmgEval
import Verif.Props.AsmDemand
import Verif.Props.AsmAsset

/-!
# Property C85: where the damage parameters of an assessment come from
-/

namespace Verif.AsmDamage

open DmgParams (Cell Row Source loadParams WinningRow)
open DefaultPath (resourcePaths FileName)

/-! ### Priority of the sources -/

/-- The first source of the list that has the component has this row for it (the first one, if it has several). -/
def FirstIn (sources : List Source) (c : Str) (row : Row) : Prop :=
  ∃ pre s post, sources = pre ++ s :: post ∧ (∀ s' ∈ pre, ∀ r ∈ s'.rows, r.1 ≠ c) ∧
    ∃ a b, s.rows = a ++ (c, row) :: b ∧ ∀ r ∈ a, r.1 ≠ c

theorem firstIn_iff (sources : List Source) (c : Str) (row : Row) : FirstIn sources c row ↔ WinningRow sources c row := by
  constructor
  · rintro ⟨pre, s, post, rfl, h1, a, b, h2, h3⟩
    refine ⟨pre.flatMap (·.rows) ++ a, b ++ post.flatMap (·.rows), ?_, ?_⟩
    · simp [List.flatMap_append, List.flatMap_cons, h2]
    · intro hc
      obtain ⟨r, hr, he⟩ := List.mem_map.1 hc
      rcases List.mem_append.1 hr with hr | hr
      · obtain ⟨s', hs', hr'⟩ := List.mem_flatMap.1 hr
        exact h1 s' hs' r hr' he
      · exact h3 r hr he
  · rw [DmgParams.winning_iff]
    induction sources with
    | nil => intro h; simp at h
    | cons s ss ih =>
      rw [List.flatMap_cons, DmgParams.get?_append]
      cases hs : Dict.get? s.rows c with
      | some row' =>
        intro h
        simp only [Option.some_or, Option.some.injEq] at h
        subst h
        obtain ⟨a, b, hab, hc⟩ := (DmgParams.winning_iff [s] c row').2 (by simpa using hs)
        refine ⟨[], s, ss, rfl, by simp, a, b, by simpa using hab, ?_⟩
        intro r hr he
        exact hc (List.mem_map.2 ⟨r, hr, he⟩)
      | none =>
        intro h
        simp only [Option.none_or] at h
        obtain ⟨pre, s', post, rfl, h1, h2⟩ := ih h
        refine ⟨s :: pre, s', post, rfl, ?_, h2⟩
        intro x hx r hr he
        rcases List.mem_cons.1 hx with rfl | hx
        · have := (Dict.get?_eq_none_iff x.rows c).1 hs
          exact this (List.mem_map.2 ⟨r, hr, he⟩)
        · exact h1 x hx r hr he

/-- The fragilities of a method, if the library has the file. -/
def fileOf (files : Files) (m : Str) : Option Source :=
  (resourcePaths.get? m).bind fun folder => files.library folder (str "fragility.csv")

theorem methodSource_known (files : Files) (m folder : Str) (hm : FileName m) (hk : (m, folder) ∈ resourcePaths) :
    methodSource files m = .ok (fileOf files m) := by
  have hcsv : endsCsv m = false := by
    have : ∀ e ∈ resourcePaths, endsCsv e.1 = false := by decide +kernel
    exact this _ hk
  have hget : resourcePaths.get? m = some folder := by
    refine Dict.get?_of_mem ?_ hk
    unfold Dict.NoDupKeys; decide +kernel
  unfold methodSource methodPath fileOf
  rw [hcsv]
  simp only [Bool.false_eq_true, if_false]
  rw [show str "PelicunDefault/" ++ m ++ str "/fragility.csv" = str "PelicunDefault/" ++ m ++ '/' :: str "fragility.csv" from rfl,
    DefaultPath.C84_method_folder m (str "fragility.csv") folder hm (by unfold FileName; decide +kernel) hk]
  simp only [hget, Option.bind_some]

/-- The text lists the names, separated by commas, with or without white space around them. -/
def Lists (text : Str) (names : List Str) : Prop :=
  ∃ parts : List Str, parts ≠ [] ∧ text = joinChar ',' parts ∧ (∀ p ∈ parts, ',' ∉ p) ∧ parts.map (strip isSpace) = names

theorem known_fileName {m folder : Str} (h : (m, folder) ∈ resourcePaths) : FileName m := by
  have : ∀ e ∈ resourcePaths, e.1 ≠ [] ∧ e.1 ≠ str "." ∧ '/' ∉ e.1 := by decide +kernel
  exact this _ h

theorem namedSources_known (files : Files) (text : Str) (names : List Str) (hl : Lists text names)
    (hk : ∀ m ∈ names, m = str "None" ∨ ∃ folder, (m, folder) ∈ resourcePaths) :
    namedSources files (some text) = .ok (names.filterMap (fileOf files)) := by
  obtain ⟨parts, hne, rfl, hc, rfl⟩ := hl
  unfold namedSources
  simp only
  rw [split_join ',' parts hne hc]
  have hnone : fileOf files (str "None") = none := by
    unfold fileOf
    rw [show resourcePaths.get? (str "None") = none from by decide +kernel]
    rfl
  have : mapE (methodSource files) ((parts.map (strip isSpace)).filter fun m => decide (m ≠ str "None")) =
      .ok (((parts.map (strip isSpace)).filter fun m => decide (m ≠ str "None")).map (fileOf files)) := by
    apply mapE_pure
    intro m hm
    obtain ⟨h1, h2⟩ := List.mem_filter.1 hm
    rcases hk m h1 with h | ⟨folder, h⟩
    · simp [h] at h2
    · exact methodSource_known files m folder (known_fileName h) h
  rw [this]
  simp only
  congr 1
  rw [List.filterMap_map]
  induction parts.map (strip isSpace) with
  | nil => rfl
  | cons m ms ih =>
    by_cases hm : m = str "None"
    · subst hm
      rw [List.filter_cons_of_neg (by simp), ih, List.filterMap_cons, hnone]
    · rw [List.filter_cons_of_pos (by simp [hm]), List.filterMap_cons, List.filterMap_cons, ih]
      rfl

/-- The databases of an assessment by name. -/
def Databases (files : Files) (db : Option Str) (l : List Source) : Prop :=
  match db with
  | none => l = []
  | some text => ∃ names, Lists text names ∧ (∀ m ∈ names, m = str "None" ∨ ∃ folder, (m, folder) ∈ resourcePaths) ∧
      l = names.filterMap (fileOf files)

/-- The file of the user, if there is one: a path without or with the placeholder for the folder. -/
def OwnFile (files : Files) (path dir : Option Str) (l : List Source) : Prop :=
  (path = none ∧ l = []) ∨
  (∃ p s, path = some p ∧ ¬ str "CustomDLDataFolder" <:+: p ∧ files.user p = .ok s ∧ l = [s]) ∨
  (∃ p d s, path = some p ∧ str "CustomDLDataFolder" <:+: p ∧ dir = some d ∧
    files.user (AsmProcess.replaceAll (str "CustomDLDataFolder") d p) = .ok s ∧ l = [s])

theorem own_source {files : Files} {args : Args} {l : List Source} (h : OwnFile files args.path args.dir l) :
    customSource files args = .ok l := by
  unfold customSource customPath
  rcases h with ⟨h1, rfl⟩ | ⟨p, s, h1, h2, h3, rfl⟩ | ⟨p, d, s, h1, h2, h3, h4, rfl⟩
  · rw [h1]
  · rw [← LossParams.hasInfix_iff] at h2
    simp only [h1, if_neg h2, h3]
  · rw [← LossParams.hasInfix_iff] at h2
    simp only [h1, if_pos h2, h3, h4]

theorem databases_source {files : Files} {db : Option Str} {l : List Source} (h : Databases files db l) :
    namedSources files db = .ok l := by
  cases db with
  | none => rw [show l = [] from h]; rfl
  | some text =>
    obtain ⟨names, h1, h2, rfl⟩ := h
    exact namedSources_known files text names h1 h2

theorem loads_of_ls1 (sources : List Source) (hne : sources ≠ []) (cmps : List Str)
    (h : ∀ s ∈ sources, ∃ c ∈ s.cols, c.1 = str "LS1") : ∃ params missing, loadParams sources cmps = .ok (some params, missing) := by
  cases hl : loadParams sources cmps with
  | error e =>
    exfalso
    have he : e = .valueError := by
      unfold loadParams at hl
      cases ha : DmgParams.addSources none sources with
      | error e' =>
        rw [ha] at hl
        have : ∀ (ss : List Source) p e', DmgParams.addSources p ss = .error e' → e' = .valueError := by
          intro ss
          induction ss with
          | nil => intro p e' h; simp [DmgParams.addSources] at h
          | cons s ss ih =>
            intro p e' h
            unfold DmgParams.addSources at h
            split at h
            · exact ih _ _ h
            · simp at h; exact h.symm
        simp only [Except.error.injEq] at hl
        rw [← hl]; exact this _ _ _ ha
      | ok r => rw [ha] at hl; cases r <;> simp at hl
    rw [he] at hl
    obtain ⟨s, hs, hc⟩ := (DmgParams.C40_refused_iff sources cmps).1 hl
    obtain ⟨c, h1, h2⟩ := h s hs
    exact hc c h1 h2
  | ok r =>
    obtain ⟨p, missing⟩ := r
    cases p with
    | some p => exact ⟨p, missing, rfl⟩
    | none =>
      exfalso
      unfold loadParams at hl
      cases ha : DmgParams.addSources none sources with
      | error e => rw [ha] at hl; simp at hl
      | ok r =>
        rw [ha] at hl
        cases r with
        | some p => simp at hl
        | none =>
          cases sources with
          | nil => exact hne rfl
          | cons s ss =>
            unfold DmgParams.addSources at ha
            split at ha
            · obtain ⟨q, hq⟩ := DmgParams.addSources_some ss _ _ ha
              cases hq
            · simp at ha

/-- **C85.** Every component of the asset gets the parameters of the first source that has it, where the sources are, in
this order: the file of the user, the databases from the last one named to the first one, and the added fragilities.  A
component whose row is marked as incomplete there has no parameters. -/
theorem C85_priority (header : List (Str × Str)) (files : Files) (args : Args) (cmps : List Str) (named own : List Source)
    (added : Source) (hn : Databases files args.database named) (ho : OwnFile files args.path args.dir own)
    (ha : addedSource header args cmps = .ok added)
    (hls : ∀ s ∈ own ++ named ++ [added], ∃ c ∈ s.cols, c.1 = str "LS1") :
    ∃ params missing, damageParams header files args cmps = .ok (some params, missing) ∧ (params.map (·.1)).Nodup ∧
      (∀ c row, (c, row) ∈ params ↔ c ∈ cmps ∧ FirstIn (own ++ named.reverse ++ [added]) c row ∧
        row (str "Incomplete", []) ≠ some (.num 1)) ∧
      ∀ c, c ∈ missing ↔ c ∈ cmps ∧ ∀ row, (c, row) ∉ params := by
  have e : damageParams header files args cmps = loadParams (own ++ named.reverse ++ [added]) cmps := by
    unfold damageParams
    rw [databases_source hn]
    simp only
    rw [own_source ho]
    simp only [ha]
    have hrev : own.reverse = own := by
      rcases ho with ⟨_, rfl⟩ | ⟨p, s, _, _, _, rfl⟩ | ⟨p, d, s, _, _, _, _, rfl⟩ <;> rfl
    rw [List.reverse_append, hrev]
  obtain ⟨params, missing, hl⟩ := loads_of_ls1 (own ++ named.reverse ++ [added]) (by simp) cmps (by
    intro s hs
    apply hls s
    simp only [List.mem_append, List.mem_reverse] at hs ⊢
    exact hs)
  refine ⟨params, missing, by rw [e, hl], (DmgParams.C40_first_row_wins _ _ _ _ hl).1, ?_, DmgParams.C40_missing _ _ _ _ hl⟩
  intro c row
  rw [firstIn_iff]
  exact (DmgParams.C40_first_row_wins _ _ _ _ hl).2 c row

/-- C85: an unknown name among the databases is refused. -/
theorem C85_unknown_database_refused (header : List (Str × Str)) (files : Files) (args : Args) (cmps : List Str) (text : Str)
    (names : List Str) (hd : args.database = some text) (hl : Lists text names) (m : Str) (hm : m ∈ names) (hf : FileName m)
    (h1 : m ≠ str "None") (h2 : m ≠ str "PelicunDefault") (h3 : ∀ folder, (m, folder) ∉ resourcePaths) (h4 : endsCsv m = false) :
    ∃ e, damageParams header files args cmps = .error e := by
  obtain ⟨parts, hne, rfl, hc, rfl⟩ := hl
  have hms : methodSource files m = .error .keyError := by
    unfold methodSource methodPath
    rw [h4]
    simp only [Bool.false_eq_true, if_false]
    rw [show str "PelicunDefault/" ++ m ++ str "/fragility.csv" = str "PelicunDefault/" ++ m ++ '/' :: str "fragility.csv" from rfl,
      DefaultPath.C84_unknown_method_refused m (str "fragility.csv") hf (by unfold FileName; decide +kernel) h3 h2]
  obtain ⟨e, he⟩ := AsmAsset.mapE_some_error (f := methodSource files)
    (l := (parts.map (strip isSpace)).filter fun m => decide (m ≠ str "None"))
    (List.mem_filter.2 ⟨hm, by simp [h1]⟩) hms
  refine ⟨e, ?_⟩
  unfold damageParams namedSources
  rw [hd]
  simp only [split_join ',' parts hne hc, he]

/-- C85: the placeholder in the path of the user needs a folder. -/
theorem C85_folder_required (header : List (Str × Str)) (files : Files) (args : Args) (cmps : List Str) (p : Str)
    (hp : args.path = some p) (hi : str "CustomDLDataFolder" <:+: p) (hd : args.dir = none) :
    ∃ e, damageParams header files args cmps = .error e := by
  unfold damageParams
  cases namedSources files args.database with
  | error e => exact ⟨e, rfl⟩
  | ok l =>
    rw [← LossParams.hasInfix_iff] at hi
    refine ⟨.valueError, ?_⟩
    simp only [customSource, customPath, hp, if_pos hi, hd]

/-! ### The added fragilities -/

open DemandReq (HasCode withSub edpOf PGid DemandDef)

theorem codes_plain : ∀ e ∈ DemandReq.edpToDemandType, '_' ∉ e.2 := by decide +kernel

theorem demandName_code {name code : Str} (h : HasCode name code) : ∃ n, demandName code = some n ∧ HasCode n code := by
  unfold demandName
  cases hf : DemandReq.edpToDemandType.find? fun e => decide (e.2 = code) with
  | none =>
    have := List.find?_eq_none.1 hf _ h
    simp at this
  | some e =>
    obtain ⟨n, c⟩ := e
    have h1 := List.find?_some hf
    simp only [decide_eq_true_eq] at h1
    subst h1
    exact ⟨n, rfl, List.mem_of_find?_eq_some hf⟩

theorem splitDemand_withSub {name code : Str} {sub : Option Str} (h : HasCode name code) (hs : ∀ x, sub = some x → '_' ∉ x) :
    splitDemand (withSub code '_' sub) = .ok (code, sub) := by
  have hc : '_' ∉ code := codes_plain _ h
  unfold splitDemand
  cases sub with
  | none =>
    have : hasChar '_' code = false := by simpa [hasChar] using hc
    simp [withSub, this]
  | some x =>
    have : hasChar '_' (code ++ '_' :: x) = true := by simp [hasChar]
    simp only [withSub, this, if_true]
    rw [splitChar_append_sep '_' code x hc, splitChar_no_sep '_' x (hs x rfl)]

/-- The configuration of the collapse fragility: the demand by its code, with or without a subtype, and the three
parameters of the capacity. -/
structure CollapseCfg (cfg : Dict Str Cell) (code : Str) (sub : Option Str) (fam med t1 : Cell) : Prop where
  known : ∃ name, HasCode name code
  subtype : ∀ x, sub = some x → '_' ∉ x ∧ '|' ∉ x
  demand : cfg.get? (str "DemandType") = some (.text (withSub code '_' sub))
  family : cfg.get? (str "CapacityDistribution") = some fam
  median : cfg.get? (str "CapacityMedian") = some med
  theta1 : cfg.get? (str "Theta_1") = some t1

/-- The fragility has one limit state with these parameters, it is complete, and it is compared with the demand `type` in
the unit `unit` at the location and in the direction of the component. -/
structure OneState (row : Row) (type : Str) (unit : Option Cell) (fam : Option Cell) (med : Cell) (t1 : Option Cell) : Prop where
  directional : row (str "Demand", str "Directional") = some (.num 1)
  offset : row (str "Demand", str "Offset") = some (.num 0)
  type : row (str "Demand", str "Type") = some (.text type)
  unit : row (str "Demand", str "Unit") = unit
  family : row (str "LS1", str "Family") = fam
  median : row (str "LS1", str "Theta_0") = some med
  theta1 : row (str "LS1", str "Theta_1") = t1
  complete : row (str "Incomplete", []) = some (.num 0)
  only : ∀ ls x, ls ≠ str "LS1" → ls ≠ str "Demand" → ls ≠ str "Incomplete" → row (ls, x) = none

/-- Looks a cell up in a row that is given as a list. -/
macro "lookup" : tactic => `(tactic| (simp only [rowOf, placeholder, Dict.get?_cons, List.cons_append, List.nil_append]
                                      repeat (first | rw [if_pos (by decide +kernel)] | rw [if_neg (by decide +kernel)])
                                      try rfl))

theorem rowOf_none {cells : Dict (Str × Str) Cell} {ls x : Str} (keys : List (Str × Str)) (hk : cells.map (·.1) = keys)
    (h : ∀ k ∈ keys, k.1 = str "LS1" ∨ k.1 = str "Demand" ∨ k.1 = str "Incomplete")
    (h1 : ls ≠ str "LS1") (h2 : ls ≠ str "Demand") (h3 : ls ≠ str "Incomplete") : rowOf cells (ls, x) = none := by
  unfold rowOf
  rw [Dict.get?_eq_none_iff]
  intro hm
  change (ls, x) ∈ cells.map (·.1) at hm
  rw [hk] at hm
  rcases h _ hm with h | h | h
  · exact h1 h
  · exact h2 h
  · exact h3 h

theorem placeholder_row : OneState placeholder (str "One") (some (.text (str "unitless"))) none (.num (10 ^ 10)) none := by
  refine ⟨by lookup, by lookup, by lookup, by lookup, by lookup, by lookup, by lookup, by lookup, ?_⟩
  intro ls x h1 h2 h3
  exact rowOf_none [cDir, cOff, cType, cUnit, cT0 (str "LS1"), cInc] rfl (by decide +kernel) h1 h2 h3

theorem collapse_row {cfg : Dict Str Cell} {code : Str} {sub : Option Str} {fam med t1 : Cell} (u : Str)
    (h : CollapseCfg cfg code sub fam med t1) :
    ∃ name row, HasCode name code ∧ collapseRow (some u) cfg = .ok row ∧
      OneState row (withSub name '|' sub) ((AsmDemand.unitOf (AsmDemand.fixInch u) code).map .text) (some fam) med (some t1) := by
  obtain ⟨n0, h0⟩ := h.known
  obtain ⟨name, hn, hc⟩ := demandName_code h0
  have htype : typeCell name sub = withSub name '|' sub := by cases sub <;> rfl
  refine ⟨name, rowOf ([(cDir, .num 1), (cOff, .num 0), (cType, .text (withSub name '|' sub))] ++ unitCell u code ++
      [(cFam (str "LS1"), fam), (cT0 (str "LS1"), med), (cT1 (str "LS1"), t1), (cInc, .num 0)]), hc, ?_, ?_⟩
  · unfold collapseRow demandText capacityCells
    simp only [Dict.getE, h.demand, h.family, h.median, h.theta1, splitDemand_withSub h0 fun x hx => (h.subtype x hx).1, hn, htype]
  · cases hu : AsmDemand.unitOf (AsmDemand.fixInch u) code with
    | none =>
      simp only [unitCell, hu]
      refine ⟨by lookup, by lookup, by lookup, by lookup, by lookup, by lookup, by lookup, by lookup, ?_⟩
      intro ls x h1 h2 h3
      exact rowOf_none [cDir, cOff, cType, cFam (str "LS1"), cT0 (str "LS1"), cT1 (str "LS1"), cInc] rfl (by decide +kernel) h1 h2 h3
    | some un =>
      simp only [unitCell, hu]
      refine ⟨by lookup, by lookup, by lookup, by lookup, by lookup, by lookup, by lookup, by lookup, ?_⟩
      intro ls x h1 h2 h3
      exact rowOf_none [cDir, cOff, cType, cUnit, cFam (str "LS1"), cT0 (str "LS1"), cT1 (str "LS1"), cInc] rfl (by decide +kernel) h1 h2 h3

/-- The configuration of irreparable damage: none, or with both parameters. -/
def IrrCfg (cfg : Dict Str Cell) (p : Option (Cell × Cell)) : Prop :=
  match p with
  | none => cfg = []
  | some (med, sd) => cfg.get? (str "DriftCapacityMedian") = some med ∧ cfg.get? (str "DriftCapacityLogStd") = some sd

/-- The first row of the source for the component. -/
def RowIn (s : Source) (c : Str) (row : Row) : Prop := ∃ a b, s.rows = a ++ (c, row) :: b ∧ ∀ r ∈ a, r.1 ≠ c

theorem irreparable_row {cfg : Dict Str Cell} {p : Option (Cell × Cell)} (h : IrrCfg cfg p) :
    ∃ b, irreparableRows cfg = .ok b ∧ (p = none → b = []) ∧ ∀ med sd, p = some (med, sd) → ∃ row, b =
      [(str "excessiveRID", row), (str "irreparable", placeholder)] ∧
      OneState row (str "Residual Interstory Drift Ratio") (some (.text (str "unitless"))) (some (.text (str "lognormal"))) med (some sd) := by
  unfold irreparableRows
  cases p with
  | none =>
    rw [show cfg = [] from h]
    exact ⟨[], rfl, fun _ => rfl, fun _ _ h => by cases h⟩
  | some q =>
    obtain ⟨med, sd⟩ := q
    obtain ⟨h1, h2⟩ := h
    have hne : cfg ≠ [] := by rintro rfl; cases h1
    rw [if_neg hne]
    simp only [Dict.getE, h1, h2]
    refine ⟨_, rfl, (fun h => (by cases h)), fun med' sd' heq => ?_⟩
    simp only [Option.some.injEq, Prod.mk.injEq] at heq
    obtain ⟨rfl, rfl⟩ := heq
    refine ⟨_, rfl, ?_⟩
    refine ⟨by lookup, by lookup, by lookup, by lookup, by lookup, by lookup, by lookup, by lookup, ?_⟩
    intro ls x h1 h2 h3
    exact rowOf_none [cDir, cOff, cType, cUnit, cT0 (str "LS1"), cFam (str "LS1"), cT1 (str "LS1"), cInc] rfl (by decide +kernel) h1 h2 h3

/-- **C85.** With a collapse fragility in the configuration: it becomes the fragility of the component that collects the
excessive demands at the stories if the asset has that component, and `collapse` itself gets a placeholder; otherwise it is
the fragility of `collapse`.  It has the configured distribution and is compared with the configured demand. -/
theorem C85_collapse_fragility (header : List (Str × Str)) (args : Args) (cmps : List Str) (code u : Str) (sub : Option Str)
    (fam med t1 : Cell) (irr : Option (Cell × Cell)) (hu : args.lengthUnit = some u)
    (hc : CollapseCfg args.collapse code sub fam med t1) (hi : IrrCfg args.irreparable irr) :
    ∃ added name row, addedSource header args cmps = .ok added ∧ HasCode name code ∧
      OneState row (withSub name '|' sub) ((AsmDemand.unitOf (AsmDemand.fixInch u) code).map .text) (some fam) med (some t1) ∧
      (str "excessive.coll.DEM" ∉ cmps → RowIn added (str "collapse") row) ∧
      (str "excessive.coll.DEM" ∈ cmps → RowIn added (str "excessive.coll.DEM") row ∧
        ∃ r, RowIn added (str "collapse") r ∧
          OneState r (str "One") (some (.text (str "unitless"))) none (.num (10 ^ 10)) none) := by
  obtain ⟨name, row, hn, hr, hs⟩ := collapse_row u hc
  obtain ⟨b, hb, _⟩ := irreparable_row hi
  have hne : args.collapse ≠ [] := by
    intro h
    have := hc.demand
    rw [h] at this
    cases this
  unfold addedSource collapseRows
  rw [if_neg hne, hu, hr, hb]
  by_cases hm : str "excessive.coll.DEM" ∈ cmps
  · rw [decide_eq_true hm]
    simp only [if_true]
    refine ⟨_, name, row, rfl, hn, hs, fun h => absurd hm h, fun _ => ⟨⟨[], _, rfl, by simp⟩, placeholder, ?_, placeholder_row⟩⟩
    refine ⟨[(str "excessive.coll.DEM", row)], _, rfl, ?_⟩
    intro r hr'
    rw [List.mem_singleton] at hr'
    subst hr'
    change str "excessive.coll.DEM" ≠ _
    decide
  · rw [decide_eq_false hm]
    simp only [Bool.false_eq_true, if_false]
    exact ⟨_, name, row, rfl, hn, hs, fun _ => ⟨[], _, rfl, by simp⟩, fun h => absurd h hm⟩

/-- C85: without a collapse fragility in the configuration `collapse` gets a placeholder, except in the assessment of a
water network. -/
theorem C85_no_collapse_fragility (header : List (Str × Str)) (args : Args) (cmps : List Str) (irr : Option (Cell × Cell))
    (hc : args.collapse = []) (hi : IrrCfg args.irreparable irr) :
    ∃ added, addedSource header args cmps = .ok added ∧
      (args.water = false → ∃ r, RowIn added (str "collapse") r ∧
        OneState r (str "One") (some (.text (str "unitless"))) none (.num (10 ^ 10)) none) ∧
      (args.water = true → ∀ r ∈ added.rows, r.1 ≠ str "collapse") := by
  obtain ⟨b, hb, hb1, hb2⟩ := irreparable_row hi
  unfold addedSource collapseRows
  rw [if_pos hc, hb]
  refine ⟨_, rfl, ?_, ?_⟩
  · intro hw
    rw [hw]
    exact ⟨placeholder, ⟨[], _, rfl, by simp⟩, placeholder_row⟩
  · intro hw
    rw [hw]
    intro r hr
    simp only [if_true, List.nil_append, List.mem_append, List.mem_singleton] at hr
    rcases hr with hr | rfl
    · cases irr with
      | none => rw [hb1 rfl] at hr; cases hr
      | some q =>
        obtain ⟨row, hbe, _⟩ := hb2 q.1 q.2 rfl
        rw [hbe] at hr
        simp only [List.mem_cons, List.not_mem_nil, or_false] at hr
        rcases hr with rfl | rfl
        · change str "excessiveRID" ≠ _; decide
        · change str "irreparable" ≠ _; decide
    · change str "aggregate" ≠ _; decide

/-- C85: with irreparable damage in the configuration the residual drifts are compared with a lognormal capacity of the
given median and dispersion, and `irreparable` gets a placeholder; without it neither is there. -/
theorem C85_irreparable (header : List (Str × Str)) (args : Args) (cmps : List Str) (irr : Option (Cell × Cell)) (added : Source)
    (ha : addedSource header args cmps = .ok added) (hi : IrrCfg args.irreparable irr) :
    (irr = none → ∀ r ∈ added.rows, r.1 ≠ str "excessiveRID" ∧ r.1 ≠ str "irreparable") ∧
    ∀ med sd, irr = some (med, sd) → ∃ row r, RowIn added (str "excessiveRID") row ∧ RowIn added (str "irreparable") r ∧
      OneState row (str "Residual Interstory Drift Ratio") (some (.text (str "unitless"))) (some (.text (str "lognormal"))) med (some sd) ∧
      OneState r (str "One") (some (.text (str "unitless"))) none (.num (10 ^ 10)) none := by
  obtain ⟨b, hb, hb1, hb2⟩ := irreparable_row hi
  unfold addedSource at ha
  rw [hb] at ha
  cases hcr : collapseRows args.lengthUnit args.collapse (decide (str "excessive.coll.DEM" ∈ cmps)) args.water with
  | error e => rw [hcr] at ha; cases ha
  | ok a =>
    rw [hcr] at ha
    simp only [Except.ok.injEq] at ha
    subst ha
    have hnames : ∀ r ∈ a, r.1 = str "collapse" ∨ r.1 = str "excessive.coll.DEM" := by
      unfold collapseRows at hcr
      split at hcr
      · split at hcr <;> simp only [Except.ok.injEq] at hcr <;> subst hcr <;> simp
      · split at hcr
        · cases hcr
        · split at hcr <;> simp only [Except.ok.injEq] at hcr <;> subst hcr <;> simp
    have hn1 : ∀ r ∈ a, r.1 ≠ str "excessiveRID" ∧ r.1 ≠ str "irreparable" := by
      intro r hr
      rcases hnames r hr with h | h <;> rw [h] <;> decide
    constructor
    · intro h r hr
      rw [hb1 h] at hr
      simp only [List.append_nil, List.mem_append] at hr
      rcases hr with hr | hr
      · exact hn1 r hr
      · split at hr
        · rw [List.mem_singleton] at hr
          subst hr
          change str "aggregate" ≠ _ ∧ str "aggregate" ≠ _
          decide
        · cases hr
    · intro med sd h
      obtain ⟨row, hbe, hrow⟩ := hb2 med sd h
      subst hbe
      refine ⟨row, placeholder, ⟨a, (str "irreparable", placeholder) :: (if args.water then [(str "aggregate", aggregateRow)] else []),
        by simp, fun r hr => (hn1 r hr).1⟩, ⟨a ++ [(str "excessiveRID", row)], if args.water then [(str "aggregate", aggregateRow)] else [],
        by simp, ?_⟩, hrow, placeholder_row⟩
      intro r hr
      rcases List.mem_append.1 hr with hr | hr
      · exact (hn1 r hr).2
      · rw [List.mem_singleton] at hr
        subst hr
        change str "excessiveRID" ≠ _
        decide

/-- C85: the assessment of a water network has one more placeholder, with two limit states, and no other assessment has
it. -/
theorem C85_water_network (header : List (Str × Str)) (args : Args) (cmps : List Str) (added : Source)
    (ha : addedSource header args cmps = .ok added) :
    (args.water = false → ∀ r ∈ added.rows, r.1 ≠ str "aggregate") ∧
    (args.water = true → ∃ row, RowIn added (str "aggregate") row ∧ row (str "Demand", str "Type") = some (.text (str "Peak Ground Velocity")) ∧
      row (str "Demand", str "Unit") = some (.text (str "mps")) ∧ row (str "LS1", str "Theta_0") = some (.num (10 ^ 10)) ∧
      row (str "LS2", str "Theta_0") = some (.num (10 ^ 10)) ∧ row (str "LS1", str "Family") = none ∧
      row (str "LS2", str "Family") = none ∧ row (str "Incomplete", []) = some (.num 0)) := by
  unfold addedSource at ha
  cases hcr : collapseRows args.lengthUnit args.collapse (decide (str "excessive.coll.DEM" ∈ cmps)) args.water with
  | error e => rw [hcr] at ha; cases ha
  | ok a =>
    rw [hcr] at ha
    simp only at ha
    cases hir : irreparableRows args.irreparable with
    | error e => rw [hir] at ha; cases ha
    | ok b =>
      rw [hir] at ha
      simp only [Except.ok.injEq] at ha
      subst ha
      have hnames : ∀ r ∈ a, r.1 ≠ str "aggregate" := by
        have : ∀ r ∈ a, r.1 = str "collapse" ∨ r.1 = str "excessive.coll.DEM" := by
          unfold collapseRows at hcr
          split at hcr
          · split at hcr <;> simp only [Except.ok.injEq] at hcr <;> subst hcr <;> simp
          · split at hcr
            · cases hcr
            · split at hcr <;> simp only [Except.ok.injEq] at hcr <;> subst hcr <;> simp
        intro r hr
        rcases this r hr with h | h <;> rw [h] <;> decide
      have hnames' : ∀ r ∈ b, r.1 ≠ str "aggregate" := by
        have : ∀ r ∈ b, r.1 = str "excessiveRID" ∨ r.1 = str "irreparable" := by
          unfold irreparableRows at hir
          split at hir
          · simp only [Except.ok.injEq] at hir; subst hir; simp
          · split at hir
            · cases hir
            · split at hir
              · cases hir
              · simp only [Except.ok.injEq] at hir; subst hir; simp
        intro r hr
        rcases this r hr with h | h <;> rw [h] <;> decide
      have hboth : ∀ r ∈ a ++ b, r.1 ≠ str "aggregate" := by
        intro r hr
        rcases List.mem_append.1 hr with hr | hr
        · exact hnames r hr
        · exact hnames' r hr
      constructor
      · intro hw
        rw [hw]
        simpa using hboth
      · intro hw
        rw [hw]
        refine ⟨aggregateRow, ⟨a ++ b, [], rfl, hboth⟩, ?_, ?_, ?_, ?_, ?_, ?_, ?_⟩ <;> unfold aggregateRow <;> lookup

/-- **C85, the demand.** The fragility is compared with exactly the demand that the configuration names, at the location
and in the direction of the component.  Missing: demands with a default offset. -/
theorem C85_configured_demand_partial (offsets : Dict Str ℚ) (pg : PGid) (name code : Str) (sub : Option Str) (loc : Int)
    (hn : HasCode name code) (hs : ∀ x, sub = some x → '|' ∉ x) (hloc : pg.loc = intStr loc) (h0 : 0 ≤ loc)
    (hoff : offsets.get? code = none) :
    edpOf offsets pg ⟨withSub name '|' sub, some 0, some 1⟩ =
      .ok (joinChar '-' [withSub code '_' sub, pg.loc, pg.dir]) := by
  apply DemandReq.edpOf_label
  refine ⟨name, code, sub, 0, 0, loc, true, hn, hs, by simp, hloc, .inr ⟨hoff, rfl⟩, by simpa using h0, ?_⟩
  simp [hloc]

/-- Violation of C85 with the default settings, where floor accelerations and velocities have an offset of minus one: the
component that collects the excessive demands is at the locations of the demands (C83), but at each of them the demand of
the floor below is used, and at the ground it is refused. -/
theorem C85_floor_demand_shifted (offsets : Dict Str ℚ) (pg : PGid) (name code : Str) (loc : Int) (hn : HasCode name code)
    (hloc : pg.loc = intStr loc) (hoff : offsets.get? code = some (-1)) :
    (1 ≤ loc → edpOf offsets pg ⟨name, some 0, some 1⟩ = .ok (joinChar '-' [code, intStr (loc - 1), pg.dir])) ∧
    (loc ≤ 0 → edpOf offsets pg ⟨name, some 0, some 1⟩ = .error .valueError) := by
  constructor
  · intro h
    apply DemandReq.edpOf_label
    refine ⟨name, code, none, 0, -1, loc, true, hn, by simp, by simp [withSub], hloc, .inl (by simpa using hoff), by omega, ?_⟩
    simp [withSub, sub_eq_add_neg]
  · intro h
    have := DemandReq.C35_negative_location_refused offsets pg name code 0 (-1) loc (some 1) hn hloc (.inl (by simpa using hoff)) (by omega)
    simpa using this

/-! ### Placeholders -/

/-- C85: the demand of a placeholder is the constant one. -/
theorem C85_placeholder_demand (offsets : Dict Str ℚ) (cmp uid : Str) (hoff : offsets.get? (str "ONE") = none) :
    edpOf offsets ⟨cmp, str "0", str "1", uid⟩ ⟨str "One", some 0, some 1⟩ = .ok (str "ONE-0-1") := by
  have := C85_configured_demand_partial offsets ⟨cmp, str "0", str "1", uid⟩ (str "One") (str "ONE") none 0 (by unfold HasCode; decide +kernel)
    (by simp) rfl le_rfl hoff
  rw [show withSub (str "One") '|' none = str "One" from rfl] at this
  rw [this]
  rfl

open DmgEval (LSCell BlockId evaluate sortCells lsList stepLS exceeded) in
/-- C85: a placeholder never triggers: in every damage evaluation, whatever the other components are, a block whose
capacities are those of a placeholder and whose demand is the constant one stays undamaged. -/
theorem C85_placeholder_never_triggers (demand : BlockId → Option ℚ) (cells : List (LSCell ℚ)) (b : BlockId)
    (hb : ∃ c ∈ cells, c.block = b) (hcap : ∀ c ∈ cells, c.block = b → c.capacity = .fin (10 ^ 10)) (hd : demand b = some 1) :
    (evaluate demand cells).get? b = some 0 := by
  unfold evaluate
  simp only
  have hstep : ∀ ls, stepLS demand (sortCells cells) ls b 0 = 0 := by
    intro ls
    unfold stepLS
    cases hf : (sortCells cells).find? fun c => decide (c.block = b ∧ c.ls = ls) with
    | none => rfl
    | some c =>
      have h1 := List.find?_some hf
      have h2 := List.mem_of_find?_eq_some hf
      simp only [decide_eq_true_eq] at h1
      unfold sortCells at h2
      rw [mem_pySort] at h2
      have : exceeded demand c = false := by
        unfold exceeded
        rw [hcap c h2 h1.1, h1.1, hd]
        norm_num
      simp [this]
  have hmap : ∀ (d : Dict BlockId Int) ls, d.get? b = some 0 →
      Dict.get? (d.map fun e => (e.1, stepLS demand (sortCells cells) ls e.1 e.2)) b = some 0 := by
    intro d ls
    induction d with
    | nil => intro h; cases h
    | cons e d ih =>
      obtain ⟨k, v⟩ := e
      rw [List.map_cons, Dict.get?_cons, Dict.get?_cons]
      by_cases hk : k = b
      · subst hk
        simp only [if_true, Option.some.injEq]
        rintro rfl
        exact hstep ls
      · simp only [hk, if_false]
        exact ih
  have hfold : ∀ (lss : List Str) (d : Dict BlockId Int), d.get? b = some 0 →
      Dict.get? (lss.foldl (fun ds ls => ds.map fun e => (e.1, stepLS demand (sortCells cells) ls e.1 e.2)) d) b = some 0 := by
    intro lss
    induction lss with
    | nil => exact fun d h => h
    | cons ls lss ih => exact fun d h => ih _ (hmap d ls h)
  apply hfold
  have hmem : b ∈ FileIO.uniqueVals [] ((sortCells cells).map (·.block)) := by
    rw [FileIO.uniqueVals_mem]
    obtain ⟨c, hc, rfl⟩ := hb
    exact ⟨List.mem_map.2 ⟨c, by unfold sortCells; rwa [mem_pySort], rfl⟩, by simp⟩
  generalize FileIO.uniqueVals [] ((sortCells cells).map (·.block)) = l at hmem
  induction l with
  | nil => cases hmem
  | cons x l ih =>
    rw [List.map_cons, Dict.get?_cons]
    by_cases hx : x = b
    · simp [hx]
    · simp only [hx, if_false]
      exact ih ((List.mem_cons.1 hmem).resolve_left fun h => hx h.symm)

/-! ### Which of the added fragilities are used -/

/-- **C85, used.** An added fragility is used for its component if no database and not the file of the user has a row with
that name.  Missing: databases that have one, see below. -/
theorem C85_added_used_partial (header : List (Str × Str)) (files : Files) (args : Args) (cmps : List Str) (named own : List Source)
    (added : Source) (hn : Databases files args.database named) (ho : OwnFile files args.path args.dir own)
    (ha : addedSource header args cmps = .ok added) (hls : ∀ s ∈ own ++ named ++ [added], ∃ c ∈ s.cols, c.1 = str "LS1")
    (c : Str) (row : Row) (hc : c ∈ cmps) (hrow : RowIn added c row) (hcomp : row (str "Incomplete", []) = some (.num 0))
    (hno : ∀ s ∈ own ++ named, ∀ r ∈ s.rows, r.1 ≠ c) :
    ∃ params missing, damageParams header files args cmps = .ok (some params, missing) ∧ ∀ r, (c, r) ∈ params ↔ r = row := by
  obtain ⟨params, missing, h1, h2, h3, _⟩ := C85_priority header files args cmps named own added hn ho ha hls
  have hmem : (c, row) ∈ params := by
    rw [h3]
    refine ⟨hc, ⟨own ++ named.reverse, added, [], rfl, ?_, hrow⟩, by rw [hcomp]; decide⟩
    intro s hs
    apply hno s
    simpa using hs
  refine ⟨params, missing, h1, fun r => ⟨fun h => ?_, fun h => h ▸ hmem⟩⟩
  have := List.inj_on_of_nodup_map h2 h hmem rfl
  simpa using this

/-- A database with its own collapse fragility. -/
def hidingFiles : Files where
  library := fun folder _ => if folder = str "seismic/building/portfolio/Hazus v6.1/" then
    some ⟨[cT0 (str "LS1")], [(str "collapse", rowOf [(cT0 (str "LS1"), .num 7)])]⟩ else none
  user := fun _ => .error .fileNotFoundError

def hidingArgs : Args where
  lengthUnit := some (str "ft")
  database := some (str "Hazus Earthquake - Buildings")
  path := none
  dir := none
  collapse := [(str "DemandType", .text (str "SA_1.0")), (str "CapacityDistribution", .text (str "lognormal")),
    (str "CapacityMedian", .num 2), (str "Theta_1", .num (1 / 2))]
  irreparable := []
  water := false

set_option synthInstance.maxSize 4000 in
/-- Violation of C85: a row for `collapse` in a database is used instead of the collapse fragility of the configuration. -/
theorem C85_configuration_hidden :
    (damageParams [cT0 (str "LS1")] hidingFiles hidingArgs [str "collapse"]).toOption.map (fun r => r.1.map fun p => p.map fun e =>
      (e.1, e.2 (cT0 (str "LS1")), e.2 cType)) = some (some [(str "collapse", some (.num 7), none)]) ∧
    (damageParams [cT0 (str "LS1")] { hidingFiles with library := fun _ _ => none } hidingArgs [str "collapse"]).toOption.map
      (fun r => r.1.map fun p => p.map fun e => (e.1, e.2 (cT0 (str "LS1")), e.2 cType)) =
      some (some [(str "collapse", some (.num 2), some (.text (str "Spectral Acceleration|1.0")))]) := by decide +kernel

/-- Not vacuous: the hypotheses of the theorems about the configuration. -/
example : CollapseCfg hidingArgs.collapse (str "SA") (some (str "1.0")) (.text (str "lognormal")) (.num 2) (.num (1 / 2)) :=
  ⟨⟨str "Spectral Acceleration", by unfold HasCode; decide +kernel⟩, by rintro x ⟨⟩; decide, by decide +kernel, by decide +kernel,
    by decide +kernel, by decide +kernel⟩

example : Lists (str "Hazus Earthquake - Buildings, None") [str "Hazus Earthquake - Buildings", str "None"] :=
  ⟨[str "Hazus Earthquake - Buildings", str " None"], by simp, by decide +kernel, by decide +kernel, by decide +kernel⟩

example : Databases hidingFiles hidingArgs.database
    [⟨[cT0 (str "LS1")], [(str "collapse", rowOf [(cT0 (str "LS1"), .num 7)])]⟩] :=
  ⟨[str "Hazus Earthquake - Buildings"], ⟨[str "Hazus Earthquake - Buildings"], by simp, by decide +kernel, by decide +kernel, by decide +kernel⟩,
    by simp only [List.mem_singleton, forall_eq]; exact .inr ⟨str "seismic/building/portfolio/Hazus v6.1/", by decide +kernel⟩, by
      have : fileOf hidingFiles (str "Hazus Earthquake - Buildings") =
          some ⟨[cT0 (str "LS1")], [(str "collapse", rowOf [(cT0 (str "LS1"), .num 7)])]⟩ := by
        unfold fileOf
        rw [show resourcePaths.get? (str "Hazus Earthquake - Buildings") = some (str "seismic/building/portfolio/Hazus v6.1/") from by decide +kernel]
        simp [hidingFiles]
      simp [this]⟩

example : OwnFile ⟨fun _ _ => none, fun p => if p = str "/data/f.csv" then .ok ⟨[], []⟩ else .error .fileNotFoundError⟩
    (some (str "CustomDLDataFolder/f.csv")) (some (str "/data")) [⟨[], []⟩] :=
  .inr (.inr ⟨_, _, _, rfl, ⟨[], str "/f.csv", rfl⟩, rfl, by
    rw [show AsmProcess.replaceAll (str "CustomDLDataFolder") (str "/data") (str "CustomDLDataFolder/f.csv") = str "/data/f.csv" from by decide +kernel]
    simp, rfl⟩)

example : IrrCfg [(str "DriftCapacityMedian", .num (1 / 100)), (str "DriftCapacityLogStd", .num (3 / 10))]
    (some (.num (1 / 100), .num (3 / 10))) := ⟨by decide +kernel, by decide +kernel⟩

/-- The floor acceleration has the code with the default offset. -/
example : HasCode (str "Peak Floor Acceleration") (str "PFA") := by unfold HasCode; decide +kernel

/-! ### Refusals -/

/-- C85: a collapse fragility whose demand type is a number is refused with a `TypeError`. -/
theorem C85_collapse_number_refused (header : List (Str × Str)) (args : Args) (cmps : List Str) (q : ℚ)
    (h : args.collapse.get? (str "DemandType") = some (.num q)) :
    addedSource header args cmps = .error .typeError := by
  have hne : args.collapse ≠ [] := by
    intro e; rw [e] at h; cases h
  unfold addedSource collapseRows
  rw [if_neg hne]
  unfold collapseRow demandText Dict.getE
  rw [h]

/-- C85: a collapse fragility with an unknown demand, with a demand of more than two parts, without a length unit, or
without one of its parameters is refused. -/
theorem C85_collapse_refused (header : List (Str × Str)) (args : Args) (cmps : List Str) (hne : args.collapse ≠ []) :
    (args.lengthUnit = none → ∃ e, addedSource header args cmps = .error e) ∧
    (∀ key ∈ [str "DemandType", str "CapacityDistribution", str "CapacityMedian", str "Theta_1"], args.collapse.get? key = none →
      ∃ e, addedSource header args cmps = .error e) ∧
    (∀ code sub, args.collapse.get? (str "DemandType") = some (.text (withSub code '_' sub)) → '_' ∉ code →
      (∀ name, ¬ HasCode name code) → ∃ e, addedSource header args cmps = .error e) ∧
    (∀ a b c, args.collapse.get? (str "DemandType") = some (.text (a ++ '_' :: (b ++ '_' :: c))) →
      ∃ e, addedSource header args cmps = .error e) := by
  have key : (∃ e, collapseRow args.lengthUnit args.collapse = .error e) → ∃ e, addedSource header args cmps = .error e := by
    rintro ⟨e, he⟩
    refine ⟨e, ?_⟩
    unfold addedSource collapseRows
    rw [if_neg hne, he]
  refine ⟨?_, ?_, ?_, ?_⟩
  · intro hu
    apply key
    unfold collapseRow
    rw [hu]
    split
    · exact ⟨_, rfl⟩
    · split
      · exact ⟨_, rfl⟩
      · split <;> exact ⟨_, rfl⟩
  · intro k hk hnone
    apply key
    unfold collapseRow
    split
    · exact ⟨_, rfl⟩
    · rename_i d hdt
      split
      · exact ⟨_, rfl⟩
      · split
        · exact ⟨_, rfl⟩
        · split
          · exact ⟨_, rfl⟩
          · split
            · exact ⟨_, rfl⟩
            · rename_i hcap
              exfalso
              simp only [List.mem_cons, List.not_mem_nil, or_false] at hk
              rcases hk with rfl | rfl | rfl | rfl
              · unfold demandText Dict.getE at hdt
                rw [hnone] at hdt
                cases hdt
              all_goals
                unfold capacityCells Dict.getE at hcap
                rw [hnone] at hcap
                revert hcap
                cases Dict.get? args.collapse (str "CapacityDistribution") <;>
                  cases Dict.get? args.collapse (str "CapacityMedian") <;> simp
  · intro code sub hdem hcu hnc
    apply key
    unfold collapseRow demandText Dict.getE
    rw [hdem]
    simp only
    cases hsp : splitDemand (withSub code '_' sub) with
    | error e => exact ⟨e, rfl⟩
    | ok r =>
      obtain ⟨acr, sp⟩ := r
      have hacr : acr = code := by
        unfold splitDemand at hsp
        cases sub with
        | none =>
          have : hasChar '_' code = false := by simpa [hasChar] using hcu
          simp only [withSub, this, Bool.false_eq_true, if_false, Except.ok.injEq, Prod.mk.injEq] at hsp
          exact hsp.1.symm
        | some x =>
          have : hasChar '_' (code ++ '_' :: x) = true := by simp [hasChar]
          simp only [withSub, this, if_true] at hsp
          rw [splitChar_append_sep '_' code x hcu] at hsp
          split at hsp
          · rename_i a b hab
            simp only [List.cons.injEq] at hab
            simp only [Except.ok.injEq, Prod.mk.injEq] at hsp
            rw [← hsp.1, ← hab.1]
          · cases hsp
      subst hacr
      have : demandName acr = none := by
        unfold demandName
        rw [Option.map_eq_none_iff, List.find?_eq_none]
        intro e he h
        simp only [decide_eq_true_eq] at h
        subst h
        exact hnc e.1 he
      simp only [this]
      exact ⟨_, rfl⟩
  · intro a b c hdem
    apply key
    have hlen : ∀ s : Str, (splitChar '_' s).length = s.count '_' + 1 := by
      intro s
      induction s with
      | nil => rfl
      | cons x s ih =>
        unfold splitChar
        by_cases hx : x = '_'
        · subst hx
          simp [ih]
        · rw [if_neg hx, List.count_cons_of_ne hx]
          split
          · rename_i h; rw [h] at ih; simp at ih
          · rename_i w ws h; rw [h] at ih; simpa using ih
    unfold collapseRow demandText Dict.getE
    rw [hdem]
    simp only
    have : splitDemand (a ++ '_' :: (b ++ '_' :: c)) = .error .valueError := by
      unfold splitDemand
      rw [if_pos (by simp [hasChar])]
      have h2 := hlen (a ++ '_' :: (b ++ '_' :: c))
      simp only [List.count_append, List.count_cons_self] at h2
      split
      · rename_i x y hxy
        rw [hxy] at h2
        simp at h2
        omega
      · rfl
    rw [this]
    exact ⟨_, rfl⟩

end Verif.AsmDamage
