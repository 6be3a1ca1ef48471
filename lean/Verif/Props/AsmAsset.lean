import Verif.Model.AsmAsset
import Verif.Props.Asset
import Verif.Props.LocDir
import Verif.Props.Labels
import Verif.Props.FileIO
import Verif.Props.DmgTasks
import Mathlib.Data.List.Nodup

/-!
# Property C83: components that an assessment adds to the component table
-/

namespace Verif.AsmAsset

open Asset LocDir

/-! ### Lists of integers read back -/

theorem loc_list (st : Option Int) (n : Int) (ns : List Int) :
    getLocations st (joinChar ',' ((n :: ns).map intStr)) = .ok ((n :: ns).map intStr) := by
  unfold getLocations
  suffices locInts st (joinChar ',' ((n :: ns).map intStr)) = .ok (n :: ns) by rw [this]
  by_cases h : ns = []
  · subst h
    change locInts st (intStr n) = _
    rw [locInts_part _ _ (intStr_hasDash2 n)]
    simp [locPart, intFloat_intStr]
  · obtain ⟨h1, h2, h3, h4⟩ := list_facts n ns h
    rw [locInts_part _ _ h2, locPart, intFloat_of_none h1]
    simp only [locNoRange, h3, h4, if_true]
    exact intArray_intStr (n :: ns)

theorem dir_list (n : Int) (ns : List Int) :
    getDirections (some (joinChar ',' ((n :: ns).map intStr))) = .ok ((n :: ns).map intStr) := by
  unfold getDirections
  suffices dirInts (joinChar ',' ((n :: ns).map intStr)) = .ok (n :: ns) by simp only [this]
  by_cases h : ns = []
  · subst h
    change dirInts (intStr n) = _
    simp [dirInts, intFloat_intStr]
  · obtain ⟨h1, h2, h3, h4⟩ := list_facts n ns h
    rw [dirInts, intFloat_of_none h1]
    simp only [h3, h4, if_true]
    exact intArray_intStr (n :: ns)

theorem ints_of {l : List Str} (h : ∀ s ∈ l, ∃ n, s = intStr n) : ∃ ns : List Int, l = ns.map intStr := by
  induction l with
  | nil => exact ⟨[], rfl⟩
  | cons a l ih =>
    obtain ⟨n, hn⟩ := h a List.mem_cons_self
    obtain ⟨ns, hns⟩ := ih fun s hs => h s (List.mem_cons_of_mem _ hs)
    exact ⟨n :: ns, by rw [hn, hns]; rfl⟩

/-! ### A table followed by rows of other components -/

theorem cmpUnit_left {rows extra : List CmpRow} {c : Str} (h : ∀ r ∈ extra, r.cmp ≠ c) :
    cmpUnit (rows ++ extra) c = cmpUnit rows c := by
  unfold cmpUnit
  have : extra.filter (fun r => decide (r.cmp = c)) = [] :=
    List.filter_eq_nil_iff.2 fun r hr => by simp [h r hr]
  rw [List.filter_append, this, List.append_nil]

theorem cmpUnit_right {rows extra : List CmpRow} {c : Str} (h : ∀ r ∈ rows, r.cmp ≠ c) :
    cmpUnit (rows ++ extra) c = cmpUnit extra c := by
  unfold cmpUnit
  have : rows.filter (fun r => decide (r.cmp = c)) = [] :=
    List.filter_eq_nil_iff.2 fun r hr => by simp [h r hr]
  rw [List.filter_append, this, List.nil_append]

theorem mapE_congr' {α β : Type} {f g : α → Except PyErr β} {l : List α} (h : ∀ a ∈ l, f a = g a) : mapE f l = mapE g l := by
  induction l with
  | nil => rfl
  | cons a l ih =>
    simp only [mapE]
    rw [h a List.mem_cons_self, ih fun b hb => h b (List.mem_cons_of_mem _ hb)]

theorem expand_congr {st : Option Int} {rows rows' : List CmpRow} {row : CmpRow}
    (h : cmpUnit rows row.cmp = cmpUnit rows' row.cmp) : expandRow st rows row = expandRow st rows' row := by
  simp only [expandRow, h]

theorem withUid_append {κ ρ : Type} [DecidableEq κ] (a b : List (κ × ρ)) : ∀ seen : List κ,
    (∀ e ∈ b, ∀ e' ∈ a, e.1 ≠ e'.1) →
    Labels.withUid seen (a ++ b) = Labels.withUid seen a ++ Labels.withUid seen b := by
  have cong : ∀ (b : List (κ × ρ)) (s s' : List κ), (∀ e ∈ b, s.count e.1 = s'.count e.1) →
      Labels.withUid s b = Labels.withUid s' b := by
    intro b
    induction b with
    | nil => intros; rfl
    | cons e b ih =>
      intro s s' h
      obtain ⟨k, r⟩ := e
      simp only [Labels.withUid]
      rw [show s.count k = s'.count k from h (k, r) List.mem_cons_self, ih (k :: s) (k :: s')]
      intro e he
      rw [List.count_cons, List.count_cons, h e (List.mem_cons_of_mem _ he)]
  induction a with
  | nil => intro seen _; rfl
  | cons e a ih =>
    intro seen h
    obtain ⟨k, r⟩ := e
    simp only [List.cons_append, Labels.withUid]
    rw [ih (k :: seen) fun e he e' he' => h e he e' (List.mem_cons_of_mem _ he')]
    rw [cong b (k :: seen) seen]
    intro e he
    have := h e he (k, r) List.mem_cons_self
    rw [List.count_cons_of_ne (Ne.symm this)]

theorem withUid_nodup {κ ρ : Type} [DecidableEq κ] (b : List (κ × ρ)) : ∀ seen : List κ,
    (b.map Prod.fst).Nodup → (∀ e ∈ b, e.1 ∉ seen) →
    Labels.withUid seen b = b.map fun e => ((e.1, str "0"), e.2) := by
  induction b with
  | nil => intros; rfl
  | cons e b ih =>
    intro seen hnd hs
    obtain ⟨k, r⟩ := e
    simp only [List.map_cons, List.nodup_cons] at hnd
    simp only [Labels.withUid, List.map_cons]
    rw [List.count_eq_zero.2 (hs (k, r) List.mem_cons_self), ih (k :: seen) hnd.2]
    · rfl
    · intro e he hm
      rcases List.mem_cons.1 hm with h | h
      · exact hnd.1 (h ▸ List.mem_map.2 ⟨e, he, rfl⟩)
      · exact hs e (List.mem_cons_of_mem _ he) h

theorem expand_label {st : Option Int} {rows : List CmpRow} {row : CmpRow} {g : List ((Str × Str × Str) × PG)}
    (h : expandRow st rows row = .ok g) : ∀ e ∈ g, e.1.1 = row.cmp := by
  obtain ⟨⟨⟨locs, dirs, _, _, _, hc⟩, _⟩, _⟩ := expandRow_groups h
  intro e he
  have hmem : (e.1.1, e.1.2.1, e.1.2.2) ∈ g.map Prod.fst := List.mem_map.2 ⟨e, he, rfl⟩
  have := List.count_pos_iff.2 hmem
  rw [hc] at this
  by_contra hne
  rw [if_neg hne] at this
  omega

theorem groups_label {st : Option Int} {rows sub : List CmpRow} {gs : List (List ((Str × Str × Str) × PG))}
    (h : mapE (expandRow st rows) sub = .ok gs) : ∀ e ∈ gs.flatten, ∃ row ∈ sub, e.1.1 = row.cmp := by
  intro e he
  obtain ⟨g, hg, heg⟩ := List.mem_flatten.1 he
  obtain ⟨row, hrow, hx⟩ := forall₂_mem_right (mapE_ok_iff.1 h) hg
  exact ⟨row, hrow, expand_label hx e heg⟩

theorem mapE_some_error {α β : Type} {f : α → Except PyErr β} {l : List α} {a : α} (ha : a ∈ l) {e : PyErr}
    (h : f a = .error e) : ∃ e', mapE f l = .error e' := by
  cases hm : mapE f l with
  | error e' => exact ⟨e', rfl⟩
  | ok r =>
    obtain ⟨b, _, hb⟩ := forall₂_mem_left (mapE_ok_iff.1 hm) ha
    rw [h] at hb; cases hb

/-- Rows of other components with distinct labels, after a table. -/
theorem load_append (table : Dict Str ℚ) (st : Option Int) (rows extra : List CmpRow)
    (hdis : ∀ a ∈ rows, ∀ b ∈ extra, a.cmp ≠ b.cmp)
    (gx : List (List ((Str × Str × Str) × PG))) (hx : mapE (expandRow st extra) extra = .ok gx)
    (hnm : ∀ e ∈ gx.flatten, missingTheta0 e.2.params = false)
    (hnd : (gx.flatten.map Prod.fst).Nodup)
    (hconv : ∀ e ∈ gx.flatten, convertParams table e.2.unit e.2.params = .ok e.2.params) :
    (∃ r, loadCmpModel table st rows = .ok r ∧ ∃ r', loadCmpModel table st (rows ++ extra) = .ok r' ∧
      r'.Perm (r ++ gx.flatten.map fun e => ((e.1, str "0"), e.2))) ∨
    (∃ e e', loadCmpModel table st rows = .error e ∧ loadCmpModel table st (rows ++ extra) = .error e') := by
  have e1 : mapE (expandRow st (rows ++ extra)) rows = mapE (expandRow st rows) rows := by
    apply mapE_congr'
    intro a ha
    exact expand_congr (cmpUnit_left fun b hb => (hdis a ha b hb).symm)
  have e2 : mapE (expandRow st (rows ++ extra)) extra = .ok gx := by
    rw [← hx]
    apply mapE_congr'
    intro b hb
    exact expand_congr (cmpUnit_right fun a ha => hdis a ha b hb)
  unfold loadCmpModel
  rw [DmgTasks.mapE_append, e1, e2]
  cases hg : mapE (expandRow st rows) rows with
  | error e => right; exact ⟨e, e, rfl, rfl⟩
  | ok gs =>
    simp only
    rw [List.flatten_append, List.any_append]
    have hno : (gx.flatten.any fun e => missingTheta0 e.2.params) = false := by
      rw [List.any_eq_false]; intro e he; simp [hnm e he]
    rw [hno, Bool.or_false]
    by_cases hmiss : (gs.flatten.any fun e => missingTheta0 e.2.params) = true
    · right; simp only [hmiss, if_true]; exact ⟨_, _, rfl, rfl⟩
    · simp only [if_neg hmiss]
      have hlab := groups_label hg
      have hlab' := groups_label hx
      have hw : Labels.withUid [] (gs.flatten ++ gx.flatten) =
          Labels.withUid [] gs.flatten ++ gx.flatten.map fun e => ((e.1, str "0"), e.2) := by
        rw [withUid_append, withUid_nodup _ _ hnd (by simp)]
        intro e he e' he' heq
        obtain ⟨b, hb, hbe⟩ := hlab' e he
        obtain ⟨a, ha, hae⟩ := hlab e' he'
        exact hdis a ha b hb (by rw [← hae, ← hbe, heq])
      have hxc : mapE (convertPG table) (gx.flatten.map fun e => ((e.1, str "0"), e.2)) =
          .ok (gx.flatten.map fun e => ((e.1, str "0"), e.2)) := by
        rw [mapE_pure (g := id)]
        · simp
        · intro a ha
          obtain ⟨e, he, rfl⟩ := List.mem_map.1 ha
          simp only [convertPG, hconv e he, id]
      have hp : (Labels.dedupeIndex labelLe (gs.flatten ++ gx.flatten)).Perm
          (Labels.dedupeIndex labelLe gs.flatten ++ gx.flatten.map fun e => ((e.1, str "0"), e.2)) := by
        unfold Labels.dedupeIndex
        refine (pySort_perm _ _).trans ?_
        rw [hw]
        exact (pySort_perm _ _).symm.append_right _
      cases hr : mapE (convertPG table) (Labels.dedupeIndex labelLe gs.flatten) with
      | ok r =>
        left
        refine ⟨r, rfl, ?_⟩
        have : mapE (convertPG table) (Labels.dedupeIndex labelLe gs.flatten ++ gx.flatten.map fun e => ((e.1, str "0"), e.2)) =
            .ok (r ++ gx.flatten.map fun e => ((e.1, str "0"), e.2)) := by
          rw [DmgTasks.mapE_append, hr, hxc]
        obtain ⟨r', h1, h2⟩ := mapE_perm hp.symm this
        exact ⟨r', h1, h2.symm⟩
      | error e =>
        right
        cases hr' : mapE (convertPG table) (Labels.dedupeIndex labelLe (gs.flatten ++ gx.flatten)) with
        | error e' => exact ⟨e, e', rfl, rfl⟩
        | ok r' =>
          exfalso
          obtain ⟨r'', h1, _⟩ := mapE_perm hp hr'
          rw [DmgTasks.mapE_append, hr] at h1
          simp at h1

/-! ### The added rows -/

/-- One block of one piece. -/
def onePiece : PG := ⟨1, some (str "ea"), ⟨.deterministic, false, [.num 1], none, none⟩⟩

def rowFor (q : Str × List Str × List Str) : CmpRow := newRow q.1 (joinChar ',' q.2.1) (joinChar ',' q.2.2)

def groupsFor (q : Str × List Str × List Str) : List ((Str × Str × Str) × PG) :=
  q.2.1.flatMap fun l => q.2.2.map fun d => ((q.1, l, d), onePiece)

structure Fine (q : Str × List Str × List Str) : Prop where
  locs : q.2.1 ≠ [] ∧ q.2.1.Nodup ∧ ∀ s ∈ q.2.1, ∃ n, s = intStr n
  dirs : q.2.2 ≠ [] ∧ q.2.2.Nodup ∧ ∀ s ∈ q.2.2, ∃ n, s = intStr n

theorem cmpUnit_rows (Q : List (Str × List Str × List Str)) (q : Str × List Str × List Str) (hq : q ∈ Q) :
    cmpUnit (Q.map rowFor) q.1 = some (str "ea") := by
  unfold cmpUnit
  have : ∀ l : List CmpRow, (∀ r ∈ l, r.unit = some (str "ea")) → l ≠ [] → l.findSome? (·.unit) = some (str "ea") := by
    intro l h hne
    cases l with
    | nil => exact absurd rfl hne
    | cons a l => simp [List.findSome?_cons, h a List.mem_cons_self]
  apply this
  · intro r hr
    obtain ⟨q', _, rfl⟩ := List.mem_map.1 (List.mem_filter.1 hr).1
    rfl
  · apply List.ne_nil_of_mem (a := rowFor q)
    exact List.mem_filter.2 ⟨List.mem_map.2 ⟨q, hq, rfl⟩, by simp [rowFor, newRow]⟩

theorem expand_rows (st : Option Int) (Q : List (Str × List Str × List Str)) (h : ∀ q ∈ Q, Fine q) :
    mapE (expandRow st (Q.map rowFor)) (Q.map rowFor) = .ok (Q.map groupsFor) := by
  have key : ∀ q ∈ Q, expandRow st (Q.map rowFor) (rowFor q) = .ok (groupsFor q) := by
    intro q hq
    obtain ⟨⟨l1, l2, l3⟩, ⟨d1, d2, d3⟩⟩ := h q hq
    obtain ⟨ns, hns⟩ := ints_of l3
    obtain ⟨ms, hms⟩ := ints_of d3
    cases ns with
    | nil => exact absurd hns l1
    | cons n ns =>
      cases ms with
      | nil => exact absurd hms d1
      | cons m ms =>
        unfold expandRow
        have e1 : getLocations st (rowFor q).location = .ok q.2.1 := by
          change getLocations st (joinChar ',' q.2.1) = _
          rw [hns]; exact loc_list st n ns
        have e2 : getDirections (some (rowFor q).direction) = .ok q.2.2 := by
          change getDirections (some (joinChar ',' q.2.2)) = _
          rw [hms]; exact dir_list m ms
        rw [e1, e2]
        simp only
        rw [show (rowFor q).cmp = q.1 from rfl, cmpUnit_rows Q q hq]
        rfl
  clear h
  generalize hR : expandRow st (Q.map rowFor) = f at key
  clear hR
  induction Q with
  | nil => rfl
  | cons q Q ih =>
    simp only [List.map_cons, mapE]
    rw [key q List.mem_cons_self, ih fun q' hq' => key q' (List.mem_cons_of_mem _ hq')]

theorem groups_nodup (Q : List (Str × List Str × List Str)) (h : ∀ q ∈ Q, Fine q) (hnd : (Q.map Prod.fst).Nodup) :
    (((Q.map groupsFor).flatten).map Prod.fst).Nodup := by
  rw [List.map_flatten, List.map_map, ← List.flatMap_def, List.nodup_flatMap]
  constructor
  · intro q hq
    obtain ⟨⟨l1, l2, l3⟩, ⟨d1, d2, d3⟩⟩ := h q hq
    simp only [Function.comp, groupsFor, List.map_flatMap, List.map_map]
    rw [List.nodup_flatMap]
    constructor
    · intro l _
      refine d2.map ?_
      intro a b hab
      simpa using hab
    · refine l2.imp ?_
      intro a b hab
      simp only [Function.onFun, List.Disjoint, List.mem_map, Function.comp]
      rintro x ⟨d, _, rfl⟩ ⟨d', _, he⟩
      simp only [Prod.mk.injEq] at he
      exact hab he.2.1.symm
  · rw [List.Nodup, List.pairwise_map] at hnd
    refine hnd.imp ?_
    intro a b hab
    simp only [Function.onFun, List.Disjoint, Function.comp, groupsFor, List.map_flatMap, List.map_map, List.mem_flatMap,
      List.mem_map]
    rintro x ⟨l, _, d, _, rfl⟩ ⟨l', _, d', _, he⟩
    simp only [Prod.mk.injEq] at he
    exact hab he.1.symm

theorem ea_plain (table : Dict Str ℚ) (h : table.get? (str "ea") = some 1) :
    calcUnitScaleFactor table (str "ea") = .ok (.fin 1) := by
  have := C62_plain_unit table (str "ea") [] [] 1 (by decide) (by simp) (by simp) (by decide) h
  simpa using this

theorem convert_onePiece (table : Dict Str ℚ) (h : table.get? (str "ea") = some 1) :
    convertParams table onePiece.unit onePiece.params = .ok onePiece.params := by
  simp only [convertParams, onePiece, ea_plain table h]
  rw [show UQ.scaleDistribution (1 : ℚ) .deterministic [.num 1] (some (none, none)) =
    .ok ([.num 1], some (none, none)) from by decide +kernel]
  rfl

theorem load_with (table : Dict Str ℚ) (hea : table.get? (str "ea") = some 1) (st : Option Int) (rows : List CmpRow)
    (Q : List (Str × List Str × List Str)) (hQ : ∀ q ∈ Q, Fine q) (hnd : (Q.map Prod.fst).Nodup)
    (hdis : ∀ a ∈ rows, ∀ q ∈ Q, a.cmp ≠ q.1) :
    ∃ x : List (((Str × Str × Str) × Str) × PG), x.Nodup ∧
      (∀ e, e ∈ x ↔ ∃ q ∈ Q, ∃ l ∈ q.2.1, ∃ d ∈ q.2.2, e = (((q.1, l, d), str "0"), onePiece)) ∧
    ((∃ r, loadCmpModel table st rows = .ok r ∧ ∃ r', loadCmpModel table st (rows ++ Q.map rowFor) = .ok r' ∧
      r'.Perm (r ++ x)) ∨
    (∃ e e', loadCmpModel table st rows = .error e ∧ loadCmpModel table st (rows ++ Q.map rowFor) = .error e')) := by
  have hmem : ∀ e ∈ (Q.map groupsFor).flatten, ∃ q ∈ Q, ∃ l ∈ q.2.1, ∃ d ∈ q.2.2, e = ((q.1, l, d), onePiece) := by
    intro e he
    obtain ⟨g, hg, heg⟩ := List.mem_flatten.1 he
    obtain ⟨q, hq, rfl⟩ := List.mem_map.1 hg
    obtain ⟨l, hl, h2⟩ := List.mem_flatMap.1 heg
    obtain ⟨d, hd, rfl⟩ := List.mem_map.1 h2
    exact ⟨q, hq, l, hl, d, hd, rfl⟩
  have hndf := groups_nodup Q hQ hnd
  refine ⟨(Q.map groupsFor).flatten.map fun e => ((e.1, str "0"), e.2), ?_, ?_, ?_⟩
  · apply (List.Nodup.of_map Prod.fst hndf).map
    rintro ⟨a, b⟩ ⟨a', b'⟩ h
    simpa using h
  · intro e
    constructor
    · intro he
      obtain ⟨e', he', rfl⟩ := List.mem_map.1 he
      obtain ⟨q, hq, l, hl, d, hd, rfl⟩ := hmem e' he'
      exact ⟨q, hq, l, hl, d, hd, rfl⟩
    · rintro ⟨q, hq, l, hl, d, hd, rfl⟩
      exact List.mem_map.2 ⟨((q.1, l, d), onePiece), List.mem_flatten.2 ⟨groupsFor q, List.mem_map.2 ⟨q, hq, rfl⟩,
        List.mem_flatMap.2 ⟨l, hl, List.mem_map.2 ⟨d, hd, rfl⟩⟩⟩, rfl⟩
  · apply load_append table st rows (Q.map rowFor) ?_ _ (expand_rows st Q hQ) ?_ hndf ?_
    · intro a ha b hb
      obtain ⟨q, hq, rfl⟩ := List.mem_map.1 hb
      exact hdis a ha q hq
    · intro e he
      obtain ⟨q, _, l, _, d, _, rfl⟩ := hmem e he
      rfl
    · intro e he
      obtain ⟨q, _, l, _, d, _, rfl⟩ := hmem e he
      exact convert_onePiece table hea

/-! ### Specification -/

/-- The names of the components that an assessment adds. -/
def reserved : List Str := [str "excessive.coll.DEM", str "collapse", str "excessiveRID", str "irreparable"]

/-- Some demand of type `t` is at location `l`. -/
def LocOf (cols : List (Str × Str × Str)) (t l : Str) : Prop := ∃ d, (t, l, d) ∈ cols

/-- Some demand of type `t` has the direction `d`. -/
def DirOf (cols : List (Str × Str × Str)) (t d : Str) : Prop := ∃ l, (t, l, d) ∈ cols

/-- The components that are added, with their locations and directions: `collapse` in any case, a component that
collects excessive demands of the type that collapse depends on, unless it is a spectral acceleration, and two for
irreparable damage if it is asked for and there are residual drifts. -/
def Added (cols : List (Str × Str × Str)) (coll : Option Str) (irr : Bool) (name l d : Str) : Prop :=
  (name = str "collapse" ∧ l = str "0" ∧ d = str "1") ∨
  (name = str "excessive.coll.DEM" ∧ ∃ t, coll = some t ∧ ¬ str "SA" <+: t ∧ LocOf cols t l ∧ DirOf cols t d) ∨
  (name = str "excessiveRID" ∧ irr = true ∧ LocOf cols (str "RID") l ∧ DirOf cols (str "RID") d) ∨
  (name = str "irreparable" ∧ irr = true ∧ (∃ l d, (str "RID", l, d) ∈ cols) ∧ l = str "0" ∧ d = str "1")

theorem isSA_iff (t : Str) : isSA t = true ↔ str "SA" <+: t := by
  rw [show str "SA" = ['S', 'A'] from by decide]
  match t with
  | [] => simp [isSA]
  | [a] =>
    simp only [isSA, Bool.false_eq_true, false_iff]
    intro h; have := h.length_le; simp at this
  | a :: b :: t =>
    simp only [List.cons_prefix_cons, List.nil_prefix, and_true]
    by_cases h : 'S' = a ∧ 'A' = b
    · obtain ⟨rfl, rfl⟩ := h; simp [isSA]
    · simp only [h, iff_false]
      intro hs
      unfold isSA at hs
      split at hs
      · rename_i heq; cases heq; exact h ⟨rfl, rfl⟩
      · exact absurd hs (by simp)

theorem setRow_new {name loc dir : Str} {rows : List CmpRow} (h : ∀ r ∈ rows, r.cmp ≠ name) :
    setRow name loc dir rows = rows ++ [newRow name loc dir] := by
  unfold setRow
  rw [if_neg]
  simp only [List.any_eq_true, decide_eq_true_eq, not_exists, not_and]
  exact h

theorem mem_locsOf {cols : List (Str × Str × Str)} {t l : Str} : l ∈ locsOf cols t ↔ LocOf cols t l := by
  simp only [locsOf, FileIO.uniqueVals_mem, List.mem_map, List.mem_filter, decide_eq_true_eq, LocOf]
  constructor
  · rintro ⟨⟨⟨a, b, c⟩, ⟨h1, h2⟩, h3⟩, _⟩
    simp only at h2 h3; subst h2 h3; exact ⟨c, h1⟩
  · rintro ⟨d, h⟩; exact ⟨⟨(t, l, d), ⟨h, rfl⟩, rfl⟩, by simp⟩

theorem mem_dirsOf {cols : List (Str × Str × Str)} {t d : Str} : d ∈ dirsOf cols t ↔ DirOf cols t d := by
  simp only [dirsOf, FileIO.uniqueVals_mem, List.mem_map, List.mem_filter, decide_eq_true_eq, DirOf]
  constructor
  · rintro ⟨⟨⟨a, b, c⟩, ⟨h1, h2⟩, h3⟩, _⟩
    simp only at h2 h3; subst h2 h3; exact ⟨b, h1⟩
  · rintro ⟨l, h⟩; exact ⟨⟨(t, l, d), ⟨h, rfl⟩, rfl⟩, by simp⟩

/-- The demands whose locations and directions are used are labelled with integers. -/
def IntLabels (cols : List (Str × Str × Str)) (t : Str) : Prop :=
  ∀ l d, (t, l, d) ∈ cols → (∃ n, l = intStr n) ∧ ∃ n, d = intStr n

theorem fine_everywhere {cols : List (Str × Str × Str)} {name t : Str} (h : IntLabels cols t) (hex : hasType cols t = true) :
    Fine (name, locsOf cols t, dirsOf cols t) := by
  simp only [hasType, List.any_eq_true, decide_eq_true_eq] at hex
  obtain ⟨⟨t', l, d⟩, hc, ht⟩ := hex
  simp only at ht
  subst ht
  refine ⟨⟨?_, FileIO.uniqueVals_nodup _ _, ?_⟩, ⟨?_, FileIO.uniqueVals_nodup _ _, ?_⟩⟩
  · exact List.ne_nil_of_mem (mem_locsOf.2 ⟨d, hc⟩)
  · intro s hs; obtain ⟨d, hd⟩ := mem_locsOf.1 hs; exact (h _ _ hd).1
  · exact List.ne_nil_of_mem (mem_dirsOf.2 ⟨l, hc⟩)
  · intro s hs; obtain ⟨d, hd⟩ := mem_dirsOf.1 hs; exact (h _ _ hd).2

theorem fine_global (name : Str) : Fine (name, [str "0"], [str "1"]) :=
  ⟨⟨by simp, by simp, by intro s hs; rw [List.mem_singleton] at hs; exact ⟨0, by rw [hs]; decide +kernel⟩⟩,
   ⟨by simp, by simp, by intro s hs; rw [List.mem_singleton] at hs; exact ⟨1, by rw [hs]; decide +kernel⟩⟩⟩

def collPart (cols : List (Str × Str × Str)) (coll : Option Str) : List (Str × List Str × List Str) :=
  match coll with
  | none => []
  | some t => if isSA t then [] else if hasType cols t then [(str "excessive.coll.DEM", locsOf cols t, dirsOf cols t)] else []

def irrPart (cols : List (Str × Str × Str)) (irr : Bool) : List (Str × List Str × List Str) :=
  if irr then if hasType cols (str "RID") then
    [(str "excessiveRID", locsOf cols (str "RID"), dirsOf cols (str "RID")), (str "irreparable", [str "0"], [str "1"])] else [] else []

def allParts (cols : List (Str × Str × Str)) (coll : Option Str) (irr : Bool) : List (Str × List Str × List Str) :=
  collPart cols coll ++ (str "collapse", [str "0"], [str "1"]) :: irrPart cols irr

theorem collPart_names (cols : List (Str × Str × Str)) (coll : Option Str) :
    (collPart cols coll).map Prod.fst = [] ∨ (collPart cols coll).map Prod.fst = [str "excessive.coll.DEM"] := by
  unfold collPart
  cases coll with
  | none => exact .inl rfl
  | some t => simp only; split <;> [exact .inl rfl; split <;> [exact .inr rfl; exact .inl rfl]]

theorem irrPart_names (cols : List (Str × Str × Str)) (irr : Bool) :
    (irrPart cols irr).map Prod.fst = [] ∨ (irrPart cols irr).map Prod.fst = [str "excessiveRID", str "irreparable"] := by
  unfold irrPart
  split <;> [split <;> [exact .inr rfl; exact .inl rfl]; exact .inl rfl]

theorem parts_nodup (cols : List (Str × Str × Str)) (coll : Option Str) (irr : Bool) :
    ((allParts cols coll irr).map Prod.fst).Nodup ∧ ∀ q ∈ allParts cols coll irr, q.1 ∈ reserved := by
  have h : (allParts cols coll irr).map Prod.fst = (collPart cols coll).map Prod.fst ++ str "collapse" :: (irrPart cols irr).map Prod.fst := by
    simp [allParts]
  have hs : ((allParts cols coll irr).map Prod.fst).Nodup ∧ ∀ n ∈ (allParts cols coll irr).map Prod.fst, n ∈ reserved := by
    rw [h]
    rcases collPart_names cols coll with h1 | h1 <;> rcases irrPart_names cols irr with h2 | h2 <;> rw [h1, h2] <;> decide
  exact ⟨hs.1, fun q hq => hs.2 _ (List.mem_map.2 ⟨q, hq, rfl⟩)⟩

theorem extend_eq (cols : List (Str × Str × Str)) (coll : Option Str) (irr : Bool) (rows : List CmpRow)
    (h : ∀ r ∈ rows, r.cmp ∉ reserved) :
    extendTable cols coll irr rows = rows ++ (allParts cols coll irr).map rowFor := by
  have h1 : addCollapseDemand cols coll rows = rows ++ (collPart cols coll).map rowFor := by
    unfold addCollapseDemand collPart
    cases coll with
    | none => simp
    | some t =>
      simp only
      split
      · simp
      · split
        · rw [setEverywhere, setRow_new]
          · rfl
          · intro r hr he; exact h r hr (he ▸ by decide)
        · simp
  unfold extendTable
  rw [h1, setRow_new]
  · have h2 : ∀ rs : List CmpRow, (∀ r ∈ rs, r.cmp ≠ str "excessiveRID") → (∀ r ∈ rs, r.cmp ≠ str "irreparable") →
        addIrreparable cols irr rs = rs ++ (irrPart cols irr).map rowFor := by
      intro rs a1 a2
      unfold addIrreparable irrPart
      split
      · split
        · rw [setEverywhere, setRow_new a1, setRow_new]
          · simp [rowFor, joinChar]
          · intro r hr
            rcases List.mem_append.1 hr with hr | hr
            · exact a2 r hr
            · rw [List.mem_singleton] at hr; subst hr; change str "excessiveRID" ≠ _; decide
        · simp
      · simp
    have key : ∀ r ∈ rows ++ (collPart cols coll).map rowFor ++ [newRow (str "collapse") (str "0") (str "1")],
        r.cmp ∉ reserved ∨ r.cmp = str "excessive.coll.DEM" ∨ r.cmp = str "collapse" := by
      intro r hr
      rcases List.mem_append.1 hr with hr | hr
      · rcases List.mem_append.1 hr with hr | hr
        · exact .inl (h r hr)
        · obtain ⟨q, hq, rfl⟩ := List.mem_map.1 hr
          right; left
          have hn : q.1 ∈ (collPart cols coll).map Prod.fst := List.mem_map.2 ⟨q, hq, rfl⟩
          rcases collPart_names cols coll with h1 | h1
          · rw [h1] at hn; simp at hn
          · rw [h1, List.mem_singleton] at hn; exact hn
      · rw [List.mem_singleton] at hr; subst hr; exact .inr (.inr rfl)
    rw [h2]
    · simp [allParts, rowFor, joinChar]
    · intro r hr he
      rcases key r hr with hk | hk | hk <;> rw [he] at hk <;> revert hk <;> decide
    · intro r hr he
      rcases key r hr with hk | hk | hk <;> rw [he] at hk <;> revert hk <;> decide
  · intro r hr he
    rcases List.mem_append.1 hr with hr | hr
    · exact h r hr (he ▸ by decide)
    · obtain ⟨q, hq, rfl⟩ := List.mem_map.1 hr
      have hn : q.1 ∈ (collPart cols coll).map Prod.fst := List.mem_map.2 ⟨q, hq, rfl⟩
      rcases collPart_names cols coll with h1 | h1
      · rw [h1] at hn; simp at hn
      · rw [h1, List.mem_singleton] at hn
        change q.1 = _ at he
        rw [he] at hn; revert hn; decide

theorem parts_added (cols : List (Str × Str × Str)) (coll : Option Str) (irr : Bool) (name l d : Str) :
    (∃ q ∈ allParts cols coll irr, q.1 = name ∧ l ∈ q.2.1 ∧ d ∈ q.2.2) ↔ Added cols coll irr name l d := by
  have hT : ∀ t, hasType cols t = true ↔ ∃ l d, (t, l, d) ∈ cols := by
    intro t
    simp only [hasType, List.any_eq_true, decide_eq_true_eq]
    constructor
    · rintro ⟨⟨a, b, c⟩, h1, h2⟩; simp only at h2; subst h2; exact ⟨b, c, h1⟩
    · rintro ⟨l, d, h⟩; exact ⟨_, h, rfl⟩
  have hc : (∃ q ∈ collPart cols coll, q.1 = name ∧ l ∈ q.2.1 ∧ d ∈ q.2.2) ↔
      (name = str "excessive.coll.DEM" ∧ ∃ t, coll = some t ∧ ¬ str "SA" <+: t ∧ LocOf cols t l ∧ DirOf cols t d) := by
    unfold collPart
    cases coll with
    | none => simp
    | some t =>
      simp only [Option.some.injEq, exists_eq_left', ← isSA_iff]
      cases hs : isSA t with
      | true => simp
      | false =>
        cases ht : hasType cols t with
        | true =>
          simp only [Bool.false_eq_true, if_false, if_true, List.mem_singleton, exists_eq_left, mem_locsOf, mem_dirsOf, not_false_eq_true, true_and]
          constructor <;> rintro ⟨rfl, h⟩ <;> exact ⟨rfl, h⟩
        | false =>
          simp only [Bool.false_eq_true, if_false, List.not_mem_nil, false_and, exists_false, false_iff, not_false_eq_true, true_and]
          rintro ⟨_, ⟨d', h⟩, _⟩
          have := (hT t).2 ⟨_, _, h⟩
          rw [ht] at this; cases this
  have hi : (∃ q ∈ irrPart cols irr, q.1 = name ∧ l ∈ q.2.1 ∧ d ∈ q.2.2) ↔
      ((name = str "excessiveRID" ∧ irr = true ∧ LocOf cols (str "RID") l ∧ DirOf cols (str "RID") d) ∨
      (name = str "irreparable" ∧ irr = true ∧ (∃ l d, (str "RID", l, d) ∈ cols) ∧ l = str "0" ∧ d = str "1")) := by
    unfold irrPart
    cases irr with
    | false => simp
    | true =>
      rw [← hT]
      cases ht : hasType cols (str "RID") with
      | true =>
        simp only [if_true, List.mem_cons, List.not_mem_nil, or_false, exists_eq_or_imp, exists_eq_left, mem_locsOf, mem_dirsOf, true_and]
        constructor
        · rintro (⟨rfl, h⟩ | ⟨rfl, h⟩)
          · exact .inl ⟨rfl, h⟩
          · exact .inr ⟨rfl, h⟩
        · rintro (⟨rfl, h⟩ | ⟨rfl, h⟩)
          · exact .inl ⟨rfl, h⟩
          · exact .inr ⟨rfl, h⟩
      | false =>
        simp only [if_true, Bool.false_eq_true, if_false, List.not_mem_nil, false_and, exists_false, false_iff, true_and, and_false, or_false]
        rintro ⟨_, ⟨d', h⟩, _⟩
        have := (hT _).2 ⟨_, _, h⟩
        rw [ht] at this; cases this
  unfold Added
  rw [← hc, ← hi]
  simp only [allParts, List.mem_append, List.mem_cons, or_and_right, exists_or, exists_eq_left, List.not_mem_nil, or_false]
  constructor
  · rintro (h | ⟨rfl, h⟩ | h)
    · exact .inr (.inl h)
    · exact .inl ⟨rfl, h⟩
    · exact .inr (.inr h)
  · rintro (⟨rfl, h⟩ | h | h)
    · exact .inr (.inl ⟨rfl, h⟩)
    · exact .inl h
    · exact .inr (.inr h)

/-! ### C83 -/

/-- C83, for a component table that has none of the reserved names and demands labelled with integers: the assessment
accepts the table exactly when it can be loaded by itself, and then the component model has the groups of the table as
they are plus, each once, the added components at their locations and directions with a quantity of one piece. -/
theorem C83_added_components_partial (table : Dict Str ℚ) (hea : table.get? (str "ea") = some 1) (old : Option Int) (n : Int)
    (cols : List (Str × Str × Str)) (coll : Option Str) (irr : Bool) (rows : List CmpRow)
    (hres : ∀ r ∈ rows, r.cmp ∉ reserved) (hrid : IntLabels cols (str "RID")) (hcoll : ∀ t, coll = some t → IntLabels cols t) :
    ∃ x : List (((Str × Str × Str) × Str) × PG), x.Nodup ∧
      (∀ e, e ∈ x ↔ ∃ name l d, Added cols coll irr name l d ∧
        e = (((name, l, d), str "0"), ⟨1, some (str "ea"), ⟨.deterministic, false, [.num 1], none, none⟩⟩)) ∧
      ((∃ r r', loadCmpModel table (if n = 0 then old else some n) rows = .ok r ∧
          calculateAsset table old n cols coll irr (some rows) false = .ok (.model r') ∧ r'.Perm (r ++ x)) ∨
       (∃ e e', loadCmpModel table (if n = 0 then old else some n) rows = .error e ∧
          calculateAsset table old n cols coll irr (some rows) false = .error e')) := by
  have hst : storiesOf old n = if n = 0 then old else some n := by
    unfold storiesOf; by_cases h : n = 0 <;> simp [h]
  have hfine : ∀ q ∈ allParts cols coll irr, Fine q := by
    intro q hq
    simp only [allParts, List.mem_append, List.mem_cons] at hq
    rcases hq with hq | rfl | hq
    · unfold collPart at hq
      cases coll with
      | none => simp at hq
      | some t =>
        simp only at hq
        split at hq
        · simp at hq
        · split at hq
          · rename_i ht
            rw [List.mem_singleton] at hq; subst hq
            exact fine_everywhere (hcoll t rfl) ht
          · simp at hq
    · exact fine_global _
    · unfold irrPart at hq
      split at hq
      · split at hq
        · rename_i ht
          simp only [List.mem_cons, List.not_mem_nil, or_false] at hq
          rcases hq with rfl | rfl
          · exact fine_everywhere hrid ht
          · exact fine_global _
        · simp at hq
      · simp at hq
  obtain ⟨hnd, hnames⟩ := parts_nodup cols coll irr
  obtain ⟨x, hx1, hx2, hx3⟩ := load_with table hea (storiesOf old n) rows (allParts cols coll irr) hfine hnd
    (fun a ha q hq he => hres a ha (he ▸ hnames q hq))
  refine ⟨x, hx1, ?_, ?_⟩
  · intro e
    rw [hx2]
    constructor
    · rintro ⟨q, hq, l, hl, d, hd, rfl⟩
      exact ⟨q.1, l, d, (parts_added cols coll irr q.1 l d).1 ⟨q, hq, rfl, hl, hd⟩, rfl⟩
    · rintro ⟨name, l, d, ha, rfl⟩
      obtain ⟨q, hq, rfl, hl, hd⟩ := (parts_added cols coll irr name l d).2 ha
      exact ⟨q, hq, l, hl, d, hd, rfl⟩
  · rw [← extend_eq cols coll irr rows hres] at hx3
    rw [← hst]
    rcases hx3 with ⟨r, h1, r', h2, h3⟩ | ⟨e, e', h1, h2⟩
    · left; exact ⟨r, r', h1, by simp [calculateAsset, h2], h3⟩
    · right; exact ⟨e, e', h1, by simp [calculateAsset, h2]⟩

theorem setRow_other (name loc dir : Str) (rows : List CmpRow) (p : CmpRow → Bool)
    (hp : ∀ r : CmpRow, r.cmp = name → p r = false) :
    (setRow name loc dir rows).filter p = rows.filter p := by
  unfold setRow
  split
  · rename_i hany
    clear hany
    induction rows with
    | nil => rfl
    | cons a rows ih =>
      simp only [List.map_cons]
      by_cases h : a.cmp = name
      · rw [if_pos h, List.filter_cons_of_neg (by simp [hp (overwrite loc dir a) h]),
          List.filter_cons_of_neg (by simp [hp a h]), ih]
      · rw [if_neg h, List.filter_cons, List.filter_cons, ih]
  · rw [List.filter_append]
    simp [hp (newRow name loc dir) rfl]

/-- C83, any table: rows of other components are passed on as they are and in their order. -/
theorem C83_other_rows_kept (cols : List (Str × Str × Str)) (coll : Option Str) (irr : Bool) (rows : List CmpRow) :
    (extendTable cols coll irr rows).filter (fun r => decide (r.cmp ∉ reserved)) =
      rows.filter fun r => decide (r.cmp ∉ reserved) := by
  have hp : ∀ name ∈ reserved, ∀ r : CmpRow, r.cmp = name → (fun r : CmpRow => decide (r.cmp ∉ reserved)) r = false := by
    intro name hn r hr; simp [hr, hn]
  have h1 : (addCollapseDemand cols coll rows).filter (fun r => decide (r.cmp ∉ reserved)) =
      rows.filter fun r => decide (r.cmp ∉ reserved) := by
    unfold addCollapseDemand
    cases coll with
    | none => rfl
    | some t =>
      simp only
      split
      · rfl
      · split
        · exact setRow_other _ _ _ _ _ (hp _ (by decide))
        · rfl
  unfold extendTable addIrreparable
  split
  · split
    · rw [setRow_other _ _ _ _ _ (hp _ (by decide)), setEverywhere, setRow_other _ _ _ _ _ (hp _ (by decide)),
        setRow_other _ _ _ _ _ (hp _ (by decide)), h1]
    · rw [setRow_other _ _ _ _ _ (hp _ (by decide)), h1]
  · rw [setRow_other _ _ _ _ _ (hp _ (by decide)), h1]

/-- C83: a table and a sample of components at once are refused. -/
theorem C83_both_refused (table : Dict Str ℚ) (old : Option Int) (n : Int) (cols : List (Str × Str × Str)) (coll : Option Str)
    (irr : Bool) (rows : List CmpRow) :
    calculateAsset table old n cols coll irr (some rows) true = .error .valueError := rfl

/-- C83: nothing is added to a sample of components that is read from a file. -/
theorem C83_sample_file (table : Dict Str ℚ) (old : Option Int) (n : Int) (cols : List (Str × Str × Str)) (coll : Option Str)
    (irr : Bool) :
    calculateAsset table old n cols coll irr none true = .ok .sampleFile ∧
    calculateAsset table old n cols coll irr none false = .ok .unchanged := ⟨rfl, rfl⟩

/-- A table with a row of its own for `collapse`. -/
def ownCollapse : List CmpRow :=
  [⟨str "collapse", str "all", str "1,2", some 4, some (str "sqft"),
    ⟨.lognormal, false, [.num 7, .num (1 / 2)], none, none⟩⟩]

/-- Violation of C83: a row of the table named `collapse` is merged with the added one: location, direction and unit are
replaced and so is the median, but the distribution and the number of blocks stay.  The quantity is then not one
piece. -/
theorem C83_own_row_merged :
    calculateAsset [(str "ea", 1), (str "sqft", 929 / 10000)] none 3 [] none false (some ownCollapse) false =
      .ok (.model [(((str "collapse", str "0", str "1"), str "0"),
        ⟨4, some (str "ea"), ⟨.lognormal, false, [.num 1, .num (1 / 2)], none, none⟩⟩)]) := by decide +kernel

/-- Residual drifts that are not available for every combination of a location and a direction. -/
def ridPairs : List (Str × Str × Str) := [(str "RID", str "1", str "1"), (str "RID", str "2", str "2")]

/-- Violation of C83: the added component is placed at combinations of a location and a direction for which there is no
demand. -/
theorem C83_group_without_demand :
    ∃ r, calculateAsset [(str "ea", 1)] none 2 ridPairs none true (some []) false = .ok (.model r) ∧
      (((str "excessiveRID", str "1", str "2"), str "0"), onePiece) ∈ r ∧ (str "RID", str "1", str "2") ∉ ridPairs := by
  refine ⟨_, rfl, ?_, ?_⟩ <;> decide +kernel

/-- A frame with drifts at two stories and in two directions. -/
def exCols : List (Str × Str × Str) :=
  [(str "PID", str "1", str "1"), (str "PID", str "2", str "1"), (str "RID", str "1", str "1"), (str "RID", str "1", str "2"),
   (str "RID", str "2", str "1"), (str "RID", str "2", str "2"), (str "ONE", str "0", str "1")]

def exRows : List CmpRow :=
  [⟨str "B10", str "1--2", str "1", none, some (str "ea"), ⟨.deterministic, false, [.num 5], none, none⟩⟩]

/-- The hypotheses of `C83_added_components_partial` are met by this table; seven components are added to two groups. -/
example : (∀ r ∈ exRows, r.cmp ∉ reserved) ∧ IntLabels exCols (str "RID") ∧ IntLabels exCols (str "PID") ∧
    (calculateAsset [(str "ea", 1)] none 2 exCols (some (str "PID")) true (some exRows) false).map
      (fun o => match o with
        | .model r => r.map fun e => (e.1.1, e.2.params.theta)
        | _ => []) =
    .ok [((str "B10", str "1", str "1"), [.num 5]), ((str "B10", str "2", str "1"), [.num 5]),
      ((str "collapse", str "0", str "1"), [.num 1]),
      ((str "excessive.coll.DEM", str "1", str "1"), [.num 1]), ((str "excessive.coll.DEM", str "2", str "1"), [.num 1]),
      ((str "excessiveRID", str "1", str "1"), [.num 1]), ((str "excessiveRID", str "1", str "2"), [.num 1]),
      ((str "excessiveRID", str "2", str "1"), [.num 1]), ((str "excessiveRID", str "2", str "2"), [.num 1]),
      ((str "irreparable", str "0", str "1"), [.num 1])] := by
  have hint : ∀ t, ∀ c ∈ exCols, c.1 = t → (∃ n : Fin 3, c.2.1 = intStr n.val) ∧ ∃ n : Fin 3, c.2.2 = intStr n.val := by
    have : ∀ c ∈ exCols, (∃ n : Fin 3, c.2.1 = intStr n.val) ∧ ∃ n : Fin 3, c.2.2 = intStr n.val := by decide +kernel
    exact fun t c hc _ => this c hc
  have hlab : ∀ t, IntLabels exCols t := by
    intro t l d h
    obtain ⟨⟨a, ha⟩, ⟨b, hb⟩⟩ := hint t (t, l, d) h rfl
    exact ⟨⟨_, ha⟩, ⟨_, hb⟩⟩
  refine ⟨by decide, hlab _, hlab _, by decide +kernel⟩

end Verif.AsmAsset
