import Verif.Model.ToolJson
import Verif.Props.FileIO
import Verif.Lemmas.PyNum
import Verif.Props.Labels
import Verif.Lemmas.Lists

/-!
# C97: the JSON results have the contents of the result tables
-/

namespace Verif.ToolJson

open FileIO (uniqueVals rowsOf)

/-! ## Specification -/

/-- What a reader of the JSON file finds under a list of keys; an empty key that is not there is skipped. -/
def follow : Out → List Str → Option Out
  | o, [] => some o
  | .leaf l, k :: ks => if k = [] then follow (.leaf l) ks else none
  | .node d, k :: ks =>
    match Dict.get? d k with
    | some o => follow o ks
    | none => if k = [] then follow (.node d) ks else none

/-- The parts of a path that are not empty. -/
def parts (p : List Str) : List Str := p.filter fun l => decide (l ≠ [])

/-- The largest number of parts of a label. -/
def depth (labels : List Str) : Nat := (labels.map fun c => (splitChar '-' c).length).foldr max 0

/-- The keys of a column: its label, or the parts of its label, filled up with empty parts. -/
def path (simple : Bool) (labels : List Str) (c : Str) : List Str :=
  if simple then [c] else splitChar '-' c ++ List.replicate (depth labels - (splitChar '-' c).length) []

/-- The number that a text in a table stands for. -/
def number (s : Str) : PyFloat := if s ∈ missingTexts then .nan else (pyFloat? s).getD .nan

/-- The texts that are missing values or numbers. -/
def Numeric (s : Str) : Prop := s ∈ missingTexts ∨ pyFloat? s ≠ none

/-- A table of results: rows with names, columns with a label, a text for each row and a unit; the units
are in the last row, if there are any. -/
def table (units : Bool) (names : List Str) (cols : List (Str × List Str × Str)) : Csv :=
  ⟨names ++ (if units then [str "Units"] else []), cols.map fun c => (c.1, c.2.1 ++ if units then [c.2.2] else [])⟩

/-- The tables that are written: every column has as many texts as there are rows, no two columns have the same
keys, no column is called `Units`, and no row of data is. -/
structure Regular (simple : Bool) (names : List Str) (cols : List (Str × List Str × Str)) : Prop where
  cols_ne : cols ≠ []
  full : ∀ c ∈ cols, c.2.1.length = names.length
  distinct : ((cols.map (·.1)).map (path simple (cols.map (·.1)))).Nodup
  no_units : ∀ c ∈ cols, str "Units" ∉ path simple (cols.map (·.1)) c.1
  names : ∀ r ∈ names, r.map Char.toLower ≠ str "units"

/-! ## Lemmas -/

theorem follow_leaf (l : Leaf) : ∀ p : List Str, dropEmpty p = [] → follow (.leaf l) p = some (.leaf l) := by
  intro p
  induction p with
  | nil => intro _; rfl
  | cons k ks ih =>
    intro h
    unfold dropEmpty at h
    split at h
    · rename_i hk
      unfold follow
      rw [if_pos hk]
      exact ih h
    · simp at h

theorem follow_leaf_parts {l : Leaf} {o : Out} : ∀ {p : List Str}, follow (.leaf l) p = some o → parts p = [] ∧ o = .leaf l := by
  intro p
  induction p with
  | nil => intro h; simp only [follow, Option.some.injEq] at h; exact ⟨rfl, h.symm⟩
  | cons k ks ih =>
    intro h
    unfold follow at h
    split at h
    · rename_i hk
      obtain ⟨h1, h2⟩ := ih h
      exact ⟨by simpa [parts, hk] using h1, h2⟩
    · simp at h

theorem dropEmpty_parts (p : List Str) : parts (dropEmpty p) = parts p := by
  induction p with
  | nil => rfl
  | cons k ks ih =>
    unfold dropEmpty
    split
    · rename_i hk; rw [ih]; simp [parts, hk]
    · rfl

theorem dropEmpty_length (p : List Str) : (dropEmpty p).length ≤ p.length := by
  induction p with
  | nil => simp [dropEmpty]
  | cons k ks ih =>
    unfold dropEmpty
    split
    · simp; omega
    · simp

theorem dropEmpty_head {p : List Str} {k : Str} {ks : List Str} (h : dropEmpty p = k :: ks) : k ≠ [] := by
  induction p with
  | nil => simp [dropEmpty] at h
  | cons a p ih =>
    unfold dropEmpty at h
    split at h
    · exact ih h
    · rename_i ha; simp only [List.cons.injEq] at h; rw [← h.1]; exact ha

/-- Empty keys in front are skipped if there is no such key. -/
theorem follow_dropEmpty {d : List (Str × Out)} (h : Dict.get? d ([] : Str) = none) : ∀ p : List Str, follow (.node d) p = follow (.node d) (dropEmpty p) := by
  intro p
  induction p with
  | nil => rfl
  | cons k ks ih =>
    unfold dropEmpty
    split
    · rename_i hk
      subst hk
      rw [← ih]
      conv_lhs => unfold follow
      rw [h]
      simp
    · rfl

theorem mem_below {α : Type} {label : Str} {cols : List (List Str × α)} {p : List Str} {a : α} :
    (p, a) ∈ below label cols ↔ (label :: p, a) ∈ cols := by
  unfold below
  rw [List.mem_filterMap]
  constructor
  · rintro ⟨⟨q, b⟩, hc, h⟩
    cases q with
    | nil => simp at h
    | cons l q =>
      simp only at h
      split at h
      · rename_i hl
        simp only [Option.some.injEq, Prod.mk.injEq] at h
        rw [← h.1, ← h.2, ← hl]; exact hc
      · simp at h
  · intro h
    exact ⟨_, h, by simp⟩

theorem below_nodup {α : Type} {label : Str} {cols : List (List Str × α)} (h : (cols.map (·.1)).Nodup) : ((below label cols).map (·.1)).Nodup := by
  unfold below
  induction cols with
  | nil => simp
  | cons c cols ih =>
    simp only [List.map_cons, List.nodup_cons] at h
    rw [List.filterMap_cons]
    obtain ⟨q, b⟩ := c
    cases q with
    | nil => exact ih h.2
    | cons l q =>
      simp only
      by_cases hl : l = label
      · rw [if_pos hl]
        simp only [List.map_cons, List.nodup_cons]
        refine ⟨?_, ih h.2⟩
        intro hm
        obtain ⟨⟨q', b'⟩, hx, e⟩ := List.mem_map.1 hm
        simp only at e
        subst e
        have := (mem_below (label := label)).1 hx
        exact h.1 (List.mem_map.2 ⟨_, this, by simp [hl]⟩)
      · rw [if_neg hl]
        exact ih h.2

/-- The labels at the first level. -/
def heads {α : Type} (cols : List (List Str × α)) : List Str := uniqueVals [] (cols.filterMap fun c => c.1.head?)

theorem mem_heads {α : Type} {cols : List (List Str × α)} {k : Str} : k ∈ heads cols ↔ ∃ p a, (k :: p, a) ∈ cols := by
  unfold heads
  rw [FileIO.uniqueVals_mem]
  simp only [List.not_mem_nil, not_false_eq_true, and_true, List.mem_filterMap]
  constructor
  · rintro ⟨⟨p, a⟩, hc, h⟩
    cases p with
    | nil => simp at h
    | cons l p =>
      simp only [List.head?_cons, Option.some.injEq] at h
      exact ⟨p, a, h ▸ hc⟩
  · rintro ⟨p, a, h⟩
    exact ⟨_, h, rfl⟩

/-- One entry of the dictionary. -/
def entry {α : Type} (leaf : α → Except PyErr Leaf) (n : Nat) (cols : List (List Str × α)) (label : Str) : Except PyErr (Str × Out) :=
  match below label cols with
  | [(p, a)] =>
    match dropEmpty p with
    | [] => match leaf a with
      | .error e => .error e
      | .ok l => .ok (label, .leaf l)
    | p' => match build leaf n [(p', a)] with
      | .error e => .error e
      | .ok d => .ok (label, .node d)
  | sub =>
    if sub.all fun c => c.1.isEmpty then .error .attributeError
    else match build leaf n sub with
      | .error e => .error e
      | .ok d => .ok (label, .node d)

theorem build_succ {α : Type} (leaf : α → Except PyErr Leaf) (n : Nat) (cols : List (List Str × α)) :
    build leaf (n + 1) cols = mapE (entry leaf n cols) (heads cols) := rfl

theorem entry_key {α : Type} {leaf : α → Except PyErr Leaf} {n : Nat} {cols : List (List Str × α)} {label : Str} {x : Str × Out}
    (h : entry leaf n cols label = .ok x) : x.1 = label := by
  unfold entry at h
  split at h
  · split at h
    · split at h
      · simp at h
      · simp only [Except.ok.injEq] at h; rw [← h]
    · split at h
      · simp at h
      · simp only [Except.ok.injEq] at h; rw [← h]
  · split at h
    · simp at h
    · split at h
      · simp at h
      · simp only [Except.ok.injEq] at h; rw [← h]

theorem build_keys {α : Type} {leaf : α → Except PyErr Leaf} {n : Nat} {cols : List (List Str × α)} {d : List (Str × Out)}
    (h : build leaf n cols = .ok d) : d.map (·.1) = heads cols ∧ ∀ k ∈ heads cols, ∃ o m, n = m + 1 ∧ Dict.get? d k = some o ∧ entry leaf m cols k = .ok (k, o) := by
  cases n with
  | zero => simp [build] at h
  | succ n =>
    rw [build_succ, mapE_ok_iff] at h
    have hk : d.map (·.1) = heads cols := by
      have := forall₂_map_eq (f := fun k : Str => k) (g := fun x : Str × Out => x.1) h (fun a b hab => (entry_key hab).symm)
      rw [← this]; simp
    refine ⟨hk, ?_⟩
    intro k hkm
    obtain ⟨x, hx, hxe⟩ := forall₂_mem_left h hkm
    have := entry_key hxe
    obtain ⟨k', o⟩ := x
    simp only at this
    subst this
    refine ⟨o, n, rfl, Dict.get?_of_mem ?_ hx, hxe⟩
    unfold Dict.NoDupKeys Dict.keys
    rw [hk]
    exact FileIO.uniqueVals_nodup _ _

/-- Distinct columns are all written, each under its labels. -/
theorem build_ok {α : Type} {leaf : α → Except PyErr Leaf} : ∀ (n L : Nat) (cols : List (List Str × α)),
    (∀ c ∈ cols, c.1.length = L) → 1 ≤ L → L ≤ n → (cols.map (·.1)).Nodup → (∀ c ∈ cols, ∃ l, leaf c.2 = .ok l) →
    ∃ d, build leaf n cols = .ok d ∧ ∀ c ∈ cols, ∃ l, leaf c.2 = .ok l ∧ follow (.node d) c.1 = some (.leaf l) := by
  intro n
  induction n with
  | zero => intro L cols _ h1 h2; omega
  | succ n ih =>
    intro L cols hlen hL hLn hnd hleaf
    have hent : ∀ k ∈ heads cols, ∃ x, entry leaf n cols k = .ok x := by
      intro k hk
      unfold entry
      have hbl : ∀ c ∈ below k cols, c.1.length = L - 1 ∧ ∃ l, leaf c.2 = .ok l := by
        rintro ⟨p, a⟩ hc
        have hc' := mem_below.1 hc
        have := hlen _ hc'
        simp only [List.length_cons] at this
        exact ⟨by simp only; omega, hleaf (k :: p, a) hc'⟩
      have hbn := below_nodup (label := k) hnd
      generalize hsub : below k cols = sub at hbl hbn ⊢
      split
      · rename_i p a
        obtain ⟨hp, l, hl⟩ := hbl (p, a) (by simp)
        simp only at hp hl
        split
        · rw [hl]; exact ⟨_, rfl⟩
        · rename_i p' hp'
          have hle := dropEmpty_length p
          have hpos : dropEmpty p ≠ [] := hp'
          obtain ⟨d, hd, _⟩ := ih (dropEmpty p).length [(dropEmpty p, a)] (by simp) (List.length_pos_iff.2 hpos) (by omega) (by simp) (by simp [hl])
          rw [hd]
          exact ⟨_, rfl⟩
      · rename_i hne
        have hL2 : 2 ≤ L := by
          by_contra hc
          have h0 : ∀ c ∈ sub, c.1 = [] := fun c hc' => List.length_eq_zero_iff.1 (by have := (hbl c hc').1; omega)
          obtain ⟨p, a, hpa⟩ := mem_heads.1 hk
          have hm : (p, a) ∈ sub := hsub ▸ mem_below.2 hpa
          match sub, hm, hbn, h0, hne with
          | [c], _, _, _, hne => exact hne c.1 c.2 rfl
          | c :: c' :: _, _, hbn, h0, _ =>
            simp only [List.map_cons, List.nodup_cons, List.mem_cons, not_or] at hbn
            exact hbn.1.1 (by rw [h0 c (by simp), h0 c' (by simp)])
        obtain ⟨p, a, hpa⟩ := mem_heads.1 hk
        have hm : (p, a) ∈ sub := hsub ▸ mem_below.2 hpa
        rw [if_neg]
        · obtain ⟨d, hd, _⟩ := ih (L - 1) sub (fun c hc => (hbl c hc).1) (by omega) (by omega) hbn (fun c hc => (hbl c hc).2)
          rw [hd]
          exact ⟨_, rfl⟩
        · rw [List.all_eq_true]
          intro hall
          have := hall _ hm
          simp only [List.isEmpty_iff] at this
          have h2 := (hbl _ hm).1
          simp only [this, List.length_nil] at h2
          omega
    obtain ⟨d, hd⟩ := mapE_ok_of_forall hent
    refine ⟨d, hd, ?_⟩
    rintro ⟨q, a⟩ hc
    have hq := hlen _ hc
    simp only at hq
    match q, hq, hc with
    | [], hq, _ => simp at hq; omega
    | k :: p, hq, hc =>
      simp only [List.length_cons] at hq
      obtain ⟨l, hl⟩ := hleaf _ hc
      simp only at hl
      refine ⟨l, hl, ?_⟩
      obtain ⟨_, hget⟩ := build_keys (n := n + 1) hd
      obtain ⟨o, m, hm, ho, he⟩ := hget k (mem_heads.2 ⟨_, _, hc⟩)
      obtain rfl : m = n := by omega
      have hcb := mem_below.2 hc
      unfold follow
      rw [ho]
      simp only
      have hbl : ∀ c ∈ below k cols, c.1.length = L - 1 ∧ ∃ l, leaf c.2 = .ok l := by
        rintro ⟨p, a⟩ hc
        have hc' := mem_below.1 hc
        have := hlen _ hc'
        simp only [List.length_cons] at this
        exact ⟨by simp only; omega, hleaf (k :: p, a) hc'⟩
      have hbn := below_nodup (label := k) hnd
      unfold entry at he
      generalize hsub : below k cols = sub at hbl hbn hcb he
      split at he
      · rename_i p' a'
        simp only [List.mem_singleton, Prod.mk.injEq] at hcb
        obtain ⟨rfl, rfl⟩ := hcb
        split at he
        · rename_i hde
          rw [hl] at he
          simp only [Except.ok.injEq, Prod.mk.injEq, true_and] at he
          subst he
          exact follow_leaf l p hde
        · rename_i hde
          have hle := dropEmpty_length p
          obtain ⟨d', hd', hf⟩ := ih (dropEmpty p).length [(dropEmpty p, a)] (by simp) (List.length_pos_iff.2 hde) (by omega) (by simp) (by simp [hl])
          rw [hd'] at he
          simp only [Except.ok.injEq, Prod.mk.injEq, true_and] at he
          subst he
          obtain ⟨l', hl', hf'⟩ := hf (dropEmpty p, a) (by simp)
          simp only at hl' hf'
          rw [hl] at hl'
          simp only [Except.ok.injEq] at hl'
          subst hl'
          rw [follow_dropEmpty, hf']
          rw [Dict.get?_eq_none_iff]
          unfold Dict.keys
          rw [(build_keys hd').1, mem_heads]
          rintro ⟨p2, a2, h2⟩
          simp only [List.mem_singleton, Prod.mk.injEq] at h2
          exact dropEmpty_head h2.1.symm rfl
      · split at he
        · simp at he
        · rename_i hall
          have hL2 : 2 ≤ L := by
            by_contra hcc
            apply hall
            rw [List.all_eq_true]
            intro c hc'
            have := (hbl c hc').1
            rw [List.isEmpty_iff]
            exact List.length_eq_zero_iff.1 (by omega)
          obtain ⟨d', hd', hf⟩ := ih (L - 1) sub (fun c hc => (hbl c hc).1) (by omega) (by omega) hbn (fun c hc => (hbl c hc).2)
          rw [hd'] at he
          simp only [Except.ok.injEq, Prod.mk.injEq, true_and] at he
          subst he
          obtain ⟨l', hl', hf'⟩ := hf (p, a) hcb
          simp only at hl' hf'
          rw [hl] at hl'
          simp only [Except.ok.injEq] at hl'
          subst hl'
          exact hf'

/-- Whatever is written is the content of a column. -/
theorem build_only {α : Type} {leaf : α → Except PyErr Leaf} : ∀ (n : Nat) (cols : List (List Str × α)) (d : List (Str × Out)),
    build leaf n cols = .ok d → ∀ (p : List Str) (l : Leaf), follow (.node d) p = some (.leaf l) →
    ∃ c ∈ cols, leaf c.2 = .ok l ∧ parts c.1 = parts p := by
  intro n
  induction n with
  | zero => intro cols d h; simp [build] at h
  | succ n ih =>
    intro cols d h p
    induction p with
    | nil => intro l hf; simp [follow] at hf
    | cons k ks ihp =>
      intro l hf
      unfold follow at hf
      obtain ⟨hkeys, hget⟩ := build_keys h
      split at hf
      · rename_i o ho
        have hk : k ∈ heads cols := by
          rw [← hkeys]
          exact List.mem_map.2 ⟨_, Dict.mem_of_get? ho, rfl⟩
        obtain ⟨o', m, hm, ho', he⟩ := hget k hk
        obtain rfl : m = n := by omega
        rw [ho] at ho'
        simp only [Option.some.injEq] at ho'
        subst ho'
        have key : ∀ c ∈ below k cols, ∀ q, parts c.1 = parts q → q = ks → leaf c.2 = .ok l → ∃ c ∈ cols, leaf c.2 = .ok l ∧ parts c.1 = parts (k :: ks) := by
          rintro ⟨p, a⟩ hc q hq rfl hl
          refine ⟨_, mem_below.1 hc, hl, ?_⟩
          simp only at hq
          unfold parts at hq ⊢
          rw [List.filter_cons, List.filter_cons, hq]
        unfold entry at he
        split at he
        · rename_i p' a' hb
          split at he
          · rename_i hde
            split at he
            · simp at he
            · rename_i l' hl'
              simp only [Except.ok.injEq, Prod.mk.injEq, true_and] at he
              subst he
              obtain ⟨h1, h2⟩ := follow_leaf_parts hf
              simp only [Out.leaf.injEq] at h2
              subst h2
              refine key (p', a') (by rw [hb]; simp) ks ?_ rfl hl'
              rw [h1, ← dropEmpty_parts, hde]; rfl
          · rename_i hde
            split at he
            · simp at he
            · rename_i d' hd'
              simp only [Except.ok.injEq, Prod.mk.injEq, true_and] at he
              subst he
              obtain ⟨c, hc, hcl, hcp⟩ := ih _ _ hd' ks l hf
              simp only [List.mem_singleton] at hc
              subst hc
              refine key (p', a') (by rw [hb]; simp) ks ?_ rfl hcl
              rw [← hcp, dropEmpty_parts]
        · split at he
          · simp at he
          · split at he
            · simp at he
            · rename_i d' hd'
              simp only [Except.ok.injEq, Prod.mk.injEq, true_and] at he
              subst he
              obtain ⟨c, hc, hcl, hcp⟩ := ih _ _ hd' ks l hf
              exact key c hc ks hcp rfl hcl
      · split at hf
        · rename_i hk
          obtain ⟨c, hc, h1, h2⟩ := ihp l hf
          refine ⟨c, hc, h1, ?_⟩
          rw [h2]
          simp [parts, hk]
        · simp at hf

theorem levels_ok (simple : Bool) {labels : List Str} (hne : labels ≠ []) :
    ∃ idx, levels simple labels = .ok idx ∧ rowsOf idx = labels.map (path simple labels) ∧
      (rowsOf (Labels.toSimple idx)).map (joinChar '-') = labels.map (fun c => joinChar '-' (path simple labels c)) := by
  have hone : ∀ l : List Str, (rowsOf (Labels.toSimple (.simple l))).map (joinChar '-') = l := by
    intro l
    simp [Labels.toSimple, rowsOf, joinChar, Function.comp_def]
  unfold levels path
  cases simple with
  | true => exact ⟨.simple labels, rfl, by simp [rowsOf], by rw [hone]; simp [joinChar]⟩
  | false =>
    simp only [Bool.false_eq_true, if_false]
    have hd : Labels.maxLen (labels.map (splitChar '-')) = depth labels := by simp [Labels.maxLen, depth, Function.comp_def]
    simp only [Labels.toMulti, if_neg hne, hd]
    split
    · rename_i h1
      refine ⟨_, rfl, ?_, ?_⟩
      · simp only [rowsOf, List.map_map]; rfl
      · simp only [Labels.toSimple]
        rw [if_pos h1]
        simp only [rowsOf, List.map_map]
        apply List.map_congr_left
        intro c _
        simp [joinChar, Labels.pad]
    · rename_i h1
      have hp : ∀ c ∈ labels, splitChar '-' c ++ List.replicate (depth labels - (splitChar '-' c).length) [] = [c] := by
        intro c hc
        have h2 : (splitChar '-' c).length ≤ depth labels := by
          rw [← hd]; exact Labels.maxLen_ge _ _ (List.mem_map.2 ⟨c, hc, rfl⟩)
        have h3 := Labels.length_splitChar '-' c
        have h4 : splitChar '-' c = [c] := splitChar_no_sep '-' c (List.count_eq_zero.1 (by omega))
        have h5 : (splitChar '-' c).length = 1 := by rw [h4]; rfl
        rw [show depth labels - (splitChar '-' c).length = 0 by omega, h4]
        rfl
      refine ⟨_, rfl, ?_, ?_⟩
      · simp only [rowsOf]
        apply List.map_congr_left
        intro c hc
        rw [hp c hc]
      · rw [hone]
        conv_lhs => rw [← List.map_id labels]
        apply List.map_congr_left
        intro c hc
        rw [hp c hc]; rfl

theorem path_length (simple : Bool) (labels : List Str) : ∃ L, 1 ≤ L ∧ ∀ c ∈ labels, (path simple labels c).length = L := by
  cases simple with
  | true => exact ⟨1, le_refl _, fun c _ => rfl⟩
  | false =>
    refine ⟨max 1 (depth labels), by omega, ?_⟩
    intro c hc
    have hd : Labels.maxLen (labels.map (splitChar '-')) = depth labels := by simp [Labels.maxLen, depth, Function.comp_def]
    have h2 : (splitChar '-' c).length ≤ depth labels := by
      rw [← hd]; exact Labels.maxLen_ge _ _ (List.mem_map.2 ⟨c, hc, rfl⟩)
    have h3 := Labels.length_splitChar '-' c
    simp only [path, Bool.false_eq_true, if_false, List.length_append, List.length_replicate]
    omega

theorem foldr_max_const {L : Nat} : ∀ {l : List Nat}, l ≠ [] → (∀ x ∈ l, x = L) → l.foldr max 0 = L := by
  intro l
  induction l with
  | nil => intro h; exact absurd rfl h
  | cons a l ih =>
    intro _ h
    cases l with
    | nil => simp [h a (by simp)]
    | cons b l =>
      rw [List.foldr_cons, ih (by simp) (fun x hx => h x (List.mem_cons_of_mem _ hx)), h a (by simp)]
      simp

theorem follow_set {d : List (Str × Out)} {k : Str} {o : Out} : ∀ {p : List Str}, k ∉ p → p ≠ [] → ∀ {l : Leaf},
    (follow (.node (Dict.set d k o)) p = some (.leaf l) ↔ follow (.node d) p = some (.leaf l)) := by
  intro p
  induction p with
  | nil => intro _ h; exact absurd rfl h
  | cons a p ih =>
    intro h _ l
    simp only [List.mem_cons, not_or] at h
    unfold follow
    rw [Dict.get?_set, if_neg h.1]
    split
    · rfl
    · split
      · by_cases hp : p = []
        · subst hp; simp [follow]
        · exact ih h.2 hp
      · rfl

theorem unitsKey_names {names : List Str} (h : ∀ r ∈ names, r.map Char.toLower ≠ str "units") (units : Bool) :
    unitsKey (names ++ if units then [str "Units"] else []) = if units then some (str "Units") else none := by
  unfold unitsKey
  rw [List.find?_append]
  have : names.find? (fun r => decide (r.map Char.toLower = str "units")) = none := by
    rw [List.find?_eq_none]
    intro r hr
    simpa using h r hr
  rw [this]
  cases units <;> decide

theorem names_ne {names : List Str} (h : ∀ r ∈ names, r.map Char.toLower ≠ str "units") : ∀ r ∈ names, r ≠ str "Units" := by
  rintro r hr rfl
  exact h _ hr (by decide)

theorem rows_kept {names : List Str} (h : ∀ r ∈ names, r.map Char.toLower ≠ str "units") (units : Bool) :
    (names ++ if units then [str "Units"] else []).filter (fun r => decide (some r ≠ if units then some (str "Units") else none)) = names := by
  rw [List.filter_append]
  cases units with
  | false => simp
  | true =>
    simp only [if_true]
    rw [List.filter_eq_self.2]
    · simp
    · intro r hr; simpa using names_ne h r hr

theorem cells_kept {names : List Str} (h : ∀ r ∈ names, r.map Char.toLower ≠ str "units") (units : Bool) {v : List Val} (w : Val)
    (hv : v.length = names.length) :
    dropRow (if units then some (str "Units") else none) (names ++ if units then [str "Units"] else []) (v ++ if units then [w] else []) = v := by
  unfold dropRow
  have h1 : (names.zip v).filter (fun r => decide (some r.1 ≠ if units then some (str "Units") else none)) = names.zip v := by
    rw [List.filter_eq_self]
    intro r hr
    cases units with
    | false => simp
    | true => simpa using names_ne h r.1 (List.of_mem_zip hr).1
  cases units with
  | false =>
    simp only [Bool.false_eq_true, if_false, List.append_nil] at h1 ⊢
    rw [h1, List.map_snd_zip (by omega)]
  | true =>
    simp only [if_true] at h1 ⊢
    rw [List.zip_append hv.symm, List.filter_append, h1, List.map_append, List.map_snd_zip (by omega)]
    simp

theorem unit_found {names : List Str} (h : ∀ r ∈ names, r.map Char.toLower ≠ str "units") {v : List Val} (w : Val)
    (hv : v.length = names.length) : atRow (str "Units") (names ++ [str "Units"]) (v ++ [w]) = w := by
  unfold atRow
  rw [List.zip_append hv.symm, List.find?_append]
  have : (names.zip v).find? (fun r => decide (r.1 = str "Units")) = none := by
    rw [List.find?_eq_none]
    intro r hr
    simpa using names_ne h r.1 (List.of_mem_zip hr).1
  rw [this]
  simp

/-- The cells of a column of the table. -/
def cellsOf (units : Bool) (c : Str × List Str × Str) : List Val :=
  c.2.1.map (cellVal (isNumeric (c.2.1 ++ if units then [c.2.2] else [])))

/-- The whole conversion. -/
theorem createJson_ok (simple units : Bool) {names : List Str} {cols : List (Str × List Str × Str)} (hr : Regular simple names cols)
    (hl : ∀ c ∈ cols, ∃ l, leafOf names (cellsOf units c) = .ok l) :
    ∃ j, createJson simple (table units names cols) = .ok j ∧
      (∀ c ∈ cols, ∃ l, leafOf names (cellsOf units c) = .ok l ∧ follow (.node j) (path simple (cols.map (·.1)) c.1) = some (.leaf l)) ∧
      (∀ p l, str "Units" ∉ p → follow (.node j) p = some (.leaf l) →
        ∃ c ∈ cols, leafOf names (cellsOf units c) = .ok l ∧ parts (path simple (cols.map (·.1)) c.1) = parts p) ∧
      (units = true → Dict.get? j (str "Units") = some (.leaf (.rows (cols.map fun c =>
        (joinChar '-' (path simple (cols.map (·.1)) c.1), cellVal (isNumeric (c.2.1 ++ [c.2.2])) c.2.2))))) := by
  obtain ⟨idx, hidx, hrows, hsimple⟩ := levels_ok simple (labels := cols.map (·.1)) (by simpa using hr.cols_ne)
  obtain ⟨L, hL, hlen⟩ := path_length simple (cols.map (·.1))
  have hlab : (table units names cols).cols.map (·.1) = cols.map (·.1) := by simp [table]
  -- the columns that are converted
  have hz : (rowsOf idx).zip ((((table units names cols).cols.map fun c => c.2.map (cellVal (isNumeric c.2))).map
      (dropRow (if units then some (str "Units") else none) (table units names cols).rows))) =
      cols.map fun c => (path simple (cols.map (·.1)) c.1, cellsOf units c) := by
    rw [hrows]
    simp only [table, List.map_map]
    rw [List.zip_map']
    apply List.map_congr_left
    intro c hc
    simp only [Function.comp, Prod.mk.injEq, true_and, List.map_append]
    have := cells_kept hr.names units (v := cellsOf units c) (cellVal (isNumeric (c.2.1 ++ if units then [c.2.2] else [])) c.2.2)
      (by simp [cellsOf, hr.full c hc])
    rw [← this]
    congr 1
    unfold cellsOf
    cases units <;> simp
  have hn : ((rowsOf idx).map List.length).foldr max 0 = L := by
    rw [hrows]
    apply foldr_max_const
    · simpa using hr.cols_ne
    · intro x hx
      simp only [List.mem_map] at hx
      obtain ⟨_, ⟨_, ⟨c, hc, rfl⟩, rfl⟩, rfl⟩ := hx
      exact hlen _ (List.mem_map.2 ⟨c, hc, rfl⟩)
  obtain ⟨d, hd, hf⟩ := build_ok (leaf := leafOf names) L L (cols.map fun c => (path simple (cols.map (·.1)) c.1, cellsOf units c))
    (by
      intro x hx
      obtain ⟨c, hc, rfl⟩ := List.mem_map.1 hx
      exact hlen _ (List.mem_map.2 ⟨c, hc, rfl⟩))
    hL (le_refl _)
    (by have := hr.distinct; simpa [Function.comp_def] using this)
    (by
      intro x hx
      obtain ⟨c, hc, rfl⟩ := List.mem_map.1 hx
      exact hl c hc)
  have honly := build_only _ _ _ hd
  have hpne : ∀ c ∈ cols, path simple (cols.map (·.1)) c.1 ≠ [] := by
    intro c hc h0
    have := hlen _ (List.mem_map.2 ⟨c, hc, rfl⟩)
    rw [h0] at this
    simp at this
    omega
  have hkey : unitsKey (table units names cols).rows = if units then some (str "Units") else none := unitsKey_names hr.names units
  unfold createJson
  simp only [hlab, hidx, hkey, hz, hn]
  rw [show (table units names cols).rows.filter (fun r => decide (some r ≠ if units then some (str "Units") else none)) = names from
    rows_kept hr.names units, hd]
  simp only
  cases units with
  | false =>
    simp only [Bool.false_eq_true, if_false]
    refine ⟨d, rfl, ?_, ?_, by simp⟩
    · intro c hc
      exact hf _ (List.mem_map.2 ⟨c, hc, rfl⟩)
    · intro p l _ h
      obtain ⟨x, hx, h1, h2⟩ := honly p l h
      obtain ⟨c, hc, rfl⟩ := List.mem_map.1 hx
      exact ⟨c, hc, h1, h2⟩
  | true =>
    simp only [if_true]
    refine ⟨_, rfl, ?_, ?_, ?_⟩
    · intro c hc
      obtain ⟨l, h1, h2⟩ := hf _ (List.mem_map.2 ⟨c, hc, rfl⟩)
      exact ⟨l, h1, (follow_set (hr.no_units c hc) (hpne c hc)).2 h2⟩
    · intro p l hp h
      have hp0 : p ≠ [] := by rintro rfl; simp [follow] at h
      obtain ⟨x, hx, h1, h2⟩ := honly p l ((follow_set hp hp0).1 h)
      obtain ⟨c, hc, rfl⟩ := List.mem_map.1 hx
      exact ⟨c, hc, h1, h2⟩
    · intro _
      rw [Dict.get?_set, if_pos rfl, hsimple]
      simp only [table, List.map_map]
      rw [List.zip_map']
      simp only [Option.some.injEq, Out.leaf.injEq, Leaf.rows.injEq]
      apply List.map_congr_left
      intro c hc
      simp only [Function.comp, if_true, List.map_append, List.map_cons, List.map_nil, Prod.mk.injEq, true_and]
      exact unit_found hr.names _ (by simp [hr.full c hc])

theorem numeric_all {l : List Str} (h : ∀ s ∈ l, Numeric s) : isNumeric l = true := by
  unfold isNumeric
  rw [List.all_eq_true]
  intro s hs
  rcases h s hs with h | h
  · simp [h]
  · simp [Option.isSome_iff_ne_none, h]

theorem float_cell (b : Bool) {s : Str} (h : Numeric s) : valFloat (cellVal b s) = .ok (number s) := by
  unfold cellVal number
  split
  · rfl
  · rename_i hs
    have h' : pyFloat? s ≠ none := h.resolve_left hs
    obtain ⟨x, hx⟩ := Option.ne_none_iff_exists'.1 h'
    cases b with
    | true => simp [valFloat]
    | false => simp [valFloat, hx]

theorem numericLabel_all {names : List Str} (h : ∀ r ∈ names, ∃ n, r = decStr n) : names.all isNumericLabel = true := by
  rw [List.all_eq_true]
  intro r hr
  obtain ⟨n, rfl⟩ := h r hr
  unfold isNumericLabel
  simp only [Bool.and_eq_true, Bool.not_eq_true', List.isEmpty_eq_false_iff, List.all_eq_true]
  exact ⟨decStr_ne_nil n, fun c hc => decStr_digits n c hc⟩

/-! ## C97 -/

/-- C97: a sample, with one row for each realization, becomes for each column a list of its numbers, under the parts of its label;
there are no other lists of numbers, and the units are listed by column. -/
theorem C97_sample (simple units : Bool) {names : List Str} {cols : List (Str × List Str × Str)} (hr : Regular simple names cols)
    (hn : ∀ r ∈ names, ∃ n, r = decStr n) (hnum : ∀ c ∈ cols, ∀ s ∈ c.2.1, Numeric s) (hu : ∀ c ∈ cols, ¬ Numeric c.2.2) :
    ∃ j, createJson simple (table units names cols) = .ok j ∧
      (∀ c ∈ cols, follow (.node j) (path simple (cols.map (·.1)) c.1) = some (.leaf (.values (c.2.1.map number)))) ∧
      (∀ p l, str "Units" ∉ p → follow (.node j) p = some (.leaf l) →
        ∃ c ∈ cols, l = .values (c.2.1.map number) ∧ parts (path simple (cols.map (·.1)) c.1) = parts p) ∧
      (units = true → Dict.get? j (str "Units") = some (.leaf (.rows (cols.map fun c =>
        (joinChar '-' (path simple (cols.map (·.1)) c.1), Val.text c.2.2))))) := by
  have hleaf : ∀ c ∈ cols, leafOf names (cellsOf units c) = .ok (.values (c.2.1.map number)) := by
    intro c hc
    unfold leafOf cellsOf
    rw [if_pos (numericLabel_all hn)]
    have : mapE valFloat (c.2.1.map (cellVal (isNumeric (c.2.1 ++ if units then [c.2.2] else [])))) = .ok (c.2.1.map number) := by
      have h : ∀ (b : Bool) (l : List Str), (∀ s ∈ l, Numeric s) → mapE valFloat (l.map (cellVal b)) = .ok (l.map number) := by
        intro b l
        induction l with
        | nil => intro _; rfl
        | cons s l ih =>
          intro h
          rw [List.map_cons, List.map_cons, mapE_ok_iff]
          exact .cons (float_cell b (h s (by simp))) (mapE_ok_iff.1 (ih fun t ht => h t (by simp [ht])))
      exact h _ _ (hnum c hc)
    rw [this]
  obtain ⟨j, hj, h1, h2, h3⟩ := createJson_ok simple units hr (fun c hc => ⟨_, hleaf c hc⟩)
  refine ⟨j, hj, ?_, ?_, ?_⟩
  · intro c hc
    obtain ⟨l, e, hf⟩ := h1 c hc
    rw [hleaf c hc] at e
    simp only [Except.ok.injEq] at e
    rw [e]; exact hf
  · intro p l hp hf
    obtain ⟨c, hc, e, hpp⟩ := h2 p l hp hf
    rw [hleaf c hc] at e
    simp only [Except.ok.injEq] at e
    exact ⟨c, hc, e.symm, hpp⟩
  · intro he
    rw [h3 he]
    congr 3
    apply List.map_congr_left
    intro c hc
    have := hu c hc
    unfold Numeric at this
    simp only [not_or, not_not] at this
    rw [Prod.mk.injEq]
    refine ⟨rfl, ?_⟩
    unfold cellVal
    rw [if_neg this.1, if_neg]
    unfold isNumeric
    rw [List.all_eq_true]
    intro hall
    have := hall c.2.2 (by simp)
    simp_all

/-- The statistics of a table without units are numbers, by name. -/
theorem C97_statistics_partial (simple : Bool) {names : List Str} {cols : List (Str × List Str × Str)} (hr : Regular simple names cols)
    (hn : ∃ r ∈ names, isNumericLabel r = false) (hnum : ∀ c ∈ cols, ∀ s ∈ c.2.1, Numeric s) :
    ∃ j, createJson simple (table false names cols) = .ok j ∧
      (∀ c ∈ cols, follow (.node j) (path simple (cols.map (·.1)) c.1) =
        some (.leaf (.rows (names.zip (c.2.1.map fun s => Val.num (number s)))))) := by
  have hleaf : ∀ c ∈ cols, leafOf names (cellsOf false c) = .ok (.rows (names.zip (c.2.1.map fun s => Val.num (number s)))) := by
    intro c hc
    unfold leafOf cellsOf
    rw [if_neg]
    · simp only [Bool.false_eq_true, if_false, List.append_nil, numeric_all (hnum c hc), Except.ok.injEq, Leaf.rows.injEq]
      congr 1
      apply List.map_congr_left
      intro s _
      unfold cellVal number
      split <;> simp
    · rw [List.all_eq_true]
      intro h
      obtain ⟨r, hr', h0⟩ := hn
      rw [h r hr'] at h0
      simp at h0
  obtain ⟨j, hj, h1, _⟩ := createJson_ok simple false hr (fun c hc => ⟨_, hleaf c hc⟩)
  refine ⟨j, hj, ?_⟩
  intro c hc
  obtain ⟨l, e, hf⟩ := h1 c hc
  rw [hleaf c hc] at e
  simp only [Except.ok.injEq] at e
  rw [e]; exact hf

/-- C97 does not hold for statistics with units, which are those of demands, components, damages and losses: the numbers are
written as texts. -/
theorem C97_statistics_text (simple : Bool) {names : List Str} {cols : List (Str × List Str × Str)} (hr : Regular simple names cols)
    (hn : ∃ r ∈ names, isNumericLabel r = false) (hu : ∀ c ∈ cols, ¬ Numeric c.2.2) :
    ∃ j, createJson simple (table true names cols) = .ok j ∧
      (∀ c ∈ cols, follow (.node j) (path simple (cols.map (·.1)) c.1) =
        some (.leaf (.rows (names.zip (c.2.1.map fun s => if s ∈ missingTexts then Val.num .nan else .text s))))) := by
  have hleaf : ∀ c ∈ cols, leafOf names (cellsOf true c) =
      .ok (.rows (names.zip (c.2.1.map fun s => if s ∈ missingTexts then Val.num .nan else .text s))) := by
    intro c hc
    have h0 : isNumeric (c.2.1 ++ [c.2.2]) = false := by
      have := hu c hc
      unfold Numeric at this
      simp only [not_or, not_not] at this
      unfold isNumeric
      rw [List.all_eq_false]
      exact ⟨c.2.2, by simp, by simp [this]⟩
    unfold leafOf cellsOf
    rw [if_neg]
    · simp only [if_true, h0, Except.ok.injEq, Leaf.rows.injEq]
      congr 1
    · rw [List.all_eq_true]
      intro h
      obtain ⟨r, hr', h1⟩ := hn
      rw [h r hr'] at h1
      simp at h1
  obtain ⟨j, hj, h1, _⟩ := createJson_ok simple true hr (fun c hc => ⟨_, hleaf c hc⟩)
  refine ⟨j, hj, ?_⟩
  intro c hc
  obtain ⟨l, e, hf⟩ := h1 c hc
  rw [hleaf c hc] at e
  simp only [Except.ok.injEq] at e
  rw [e]; exact hf

/-! ## Concrete cases -/

def demands : List (Str × List Str × Str) :=
  [(str "PFA-1-1", [str "0.5", str "1.25"], str "g"), (str "PFA-2-1", [str "0.25", str "1e-1"], str "g"),
   (str "PID-1-1", [str "0.01", str ""], str "unitless")]

theorem demands_regular (simple : Bool) {names : List Str} (h : names.length = 2) (hn : ∀ r ∈ names, r.map Char.toLower ≠ str "units") :
    Regular simple names demands where
  cols_ne := by decide
  full := by rw [h]; decide
  distinct := by cases simple <;> decide +kernel
  no_units := by cases simple <;> decide +kernel
  names := hn

instance (s : Str) : Decidable (Numeric s) := by unfold Numeric; infer_instance

/-- The sample of the demands, with units. -/
example : ∃ j, createJson false (table true [str "0", str "1"] demands) = .ok j ∧
    follow (.node j) [str "PFA", str "2", str "1"] = some (.leaf (.values [.fin (1/4), .fin (1/10)])) ∧
    follow (.node j) [str "PID", str "1", str "1"] = some (.leaf (.values [.fin (1/100), .nan])) ∧
    Dict.get? j (str "Units") = some (.leaf (.rows [(str "PFA-1-1", .text (str "g")), (str "PFA-2-1", .text (str "g")),
      (str "PID-1-1", .text (str "unitless"))])) := by
  obtain ⟨j, hj, h1, _, h3⟩ := C97_sample false true (demands_regular false (names := [str "0", str "1"]) rfl (by decide))
    (by
      intro r hr
      simp only [List.mem_cons, List.not_mem_nil, or_false] at hr
      rcases hr with rfl | rfl
      · exact ⟨0, by decide⟩
      · exact ⟨1, by decide⟩) (by decide +kernel) (by decide +kernel)
  refine ⟨j, hj, ?_, ?_, ?_⟩
  · have := h1 (str "PFA-2-1", [str "0.25", str "1e-1"], str "g") (by decide)
    rw [show path false (demands.map (·.1)) (str "PFA-2-1") = [str "PFA", str "2", str "1"] by decide +kernel,
      show [str "0.25", str "1e-1"].map number = [.fin (1/4), .fin (1/10)] by decide +kernel] at this
    exact this
  · have := h1 (str "PID-1-1", [str "0.01", str ""], str "unitless") (by decide)
    rw [show path false (demands.map (·.1)) (str "PID-1-1") = [str "PID", str "1", str "1"] by decide +kernel,
      show [str "0.01", str ""].map number = [.fin (1/100), .nan] by decide +kernel] at this
    exact this
  · rw [h3 rfl]
    congr 3

/-- The statistics of the demands: the mean acceleration is the text `0.5`. -/
example : ∃ j, createJson false (table true [str "mean", str "std"] demands) = .ok j ∧
    follow (.node j) [str "PFA", str "1", str "1"] =
      some (.leaf (.rows [(str "mean", .text (str "0.5")), (str "std", .text (str "1.25"))])) := by
  obtain ⟨j, hj, h1⟩ := C97_statistics_text false (demands_regular false (names := [str "mean", str "std"]) rfl (by decide))
    ⟨str "mean", by decide, by decide⟩ (by decide +kernel)
  refine ⟨j, hj, ?_⟩
  have := h1 (str "PFA-1-1", [str "0.5", str "1.25"], str "g") (by decide)
  rw [show path false (demands.map (·.1)) (str "PFA-1-1") = [str "PFA", str "1", str "1"] by decide +kernel] at this
  rw [this]
  refine congrArg (fun l => some (Out.leaf l)) ?_
  decide +kernel

/-- The summary has labels of different depths and no units. -/
def summary : List (Str × List Str × Str) :=
  [(str "repair_cost-", [str "10", str "3"], []), (str "repair_time-parallel", [str "2", str "1"], []), (str "collapse", [str "0", str "0"], [])]

example : ∃ j, createJson false (table false [str "mean", str "std"] summary) = .ok j ∧
    follow (.node j) [str "collapse", str ""] = some (.leaf (.rows [(str "mean", .num (.fin 0)), (str "std", .num (.fin 0))])) := by
  obtain ⟨j, hj, h1⟩ := C97_statistics_partial false (names := [str "mean", str "std"]) (cols := summary)
    ⟨by decide, by decide, by decide +kernel, by decide +kernel, by decide⟩ ⟨str "mean", by decide, by decide⟩ (by decide +kernel)
  refine ⟨j, hj, ?_⟩
  have := h1 (str "collapse", [str "0", str "0"], []) (by decide)
  rw [show path false (summary.map (·.1)) (str "collapse") = [str "collapse", str ""] by decide +kernel] at this
  rw [this]
  refine congrArg (fun l => some (Out.leaf l)) ?_
  decide +kernel

end Verif.ToolJson
