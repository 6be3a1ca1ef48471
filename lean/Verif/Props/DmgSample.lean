import Verif.Lemmas.DmgSample
import Verif.Lemmas.UQInstances

/-! # Property C89: the sample of damage states -/

namespace Verif.DmgSample

open Verif.UQ Verif.FileIO
open Verif.DmgRVs (LSDS LSRow lsds)
open Verif.DmgEval (BlockId LSCell evaluate numOf)
open Verif.DemandReq (PGid)
open Verif.DemandGen (tag rvSample toColumns sampleOf Tidy)

/-! ### Specification -/

section
variable {F : Type} [Field F] [LinearOrder F]

/-- Block `k` (from zero) of a performance group. -/
def blockId (pg : PGid) (k : Nat) : BlockId := ⟨pg.cmp, pg.loc, pg.dir, pg.uid, decStr (k + 1)⟩

/-- The number of damage states of a limit state: one, or one for each weight. -/
def states (r : LSCap F) : Nat :=
  match r.weights with
  | none => 1
  | some s => s.count '|' + 1

/-- The number of damage states of the defined limit states below `r`. -/
def statesBelow (rows : List (LSCap F)) (r : LSCap F) : Nat :=
  ((rows.filter fun a => decide (a.dist.isSome = true ∧ numOf a.id < numOf r.id)).map states).sum

/-- Limit states with distinct numbers from 1 to 9, the defined ones without gap, weights that are
not negative and capacities that are no category variables. -/
structure Component (rows : List (LSCap F)) : Prop where
  distinct : (rows.map (·.id)).Nodup
  numbered : ∀ r ∈ rows, ∃ k, 1 ≤ k ∧ k ≤ 9 ∧ r.id = decStr k
  noGap : ∀ r ∈ rows, r.dist ≠ none → ∀ j, 1 ≤ j → j ≤ numOf r.id →
    ∃ a ∈ rows, a.dist ≠ none ∧ a.id = decStr j
  weights : ∀ r ∈ rows, ∀ s, r.weights = some s → ∀ w ∈ splitChar '|' (s.filter (· ≠ ' ')),
    ∀ q, pyFloat? w = some (.fin q) → 0 ≤ q
  capacity : ∀ r ∈ rows, ∀ k, r.dist = some (.dist k) → k.isMultinomial = false

variable [FloorRing F]

/-- The capacity of limit state `r` of block `b` is `c` in realization `i`, computed from the
uniform numbers `u` (a fixed capacity needs none). -/
def CapacityAt (N : Num F) (n : Nat) (u : List F) (r : LSCap F) (b i : Nat) (c : Ext F) : Prop :=
  ∃ d k s, r.dist = some d ∧ kindAt d b = .ok k ∧
    (k.utility = false ∧ k.inverse N u = .ok (s, u) ∨ k.utility = true ∧ k.generate n = .ok s) ∧
    s[i]? = some c

/-- The demand of a performance group in realization `i` (see C35, C34 and C77). -/
def DemandIs (x : Input F) (pg : PGid) (i : Nat) (q : ℚ) : Prop :=
  ∃ key vals, DemandReq.keyOf x.nvars x.params x.offsets pg = .ok key ∧
    DemandReq.demandOf x.eval x.mults x.sample key = .ok vals ∧ vals[i]? = some (some q)

/-- The limit state is exceeded: its capacity is below the demand. -/
def Exceeded (N : Num F) (x : Input F) (u : List F) (pg : PGid) (b i : Nat) (r : LSCap F) : Prop :=
  ∃ c q, CapacityAt N x.size u r b i c ∧ DemandIs x pg i q ∧
    (c = .negInf ∨ ∃ a, c = .fin a ∧ a < (q : F))

/-- `v` is the damage state of the block in realization `i`: zero if no limit state is exceeded,
otherwise one of the damage states of the highest limit state that is. -/
def Decided (N : Num F) (x : Input F) (rows : List (LSCap F)) (u : List F) (pg : PGid) (b i : Nat)
    (v : Int) : Prop :=
  ((∀ r ∈ rows, ¬ Exceeded N x u pg b i r) → v = 0) ∧
  ∀ r ∈ rows, Exceeded N x u pg b i r →
    (∀ a ∈ rows, numOf r.id < numOf a.id → ¬ Exceeded N x u pg b i a) →
    (statesBelow rows r : Int) < v ∧ v ≤ statesBelow rows r + states r

/-- `v` is the damage state that the uniform numbers `w` pick for limit state `r` in realization
`i`: the `k`-th one if the number is from `w_1 + ... + w_(k-1)` on up to `w_1 + ... + w_k`, the last
one if there is no such `k`. -/
def StateDrawn (rows : List (LSCap F)) (w : List F) (r : LSCap F) (i : Nat) (v : Int) : Prop :=
  ∀ s ws, r.weights = some s → List.Forall₂ (fun piece q => pyFloat? piece = some (.fin q))
    (splitChar '|' (s.filter (· ≠ ' '))) ws →
    ∃ y k, w[i]? = some y ∧ k < ws.length ∧ v = statesBelow rows r + (k + 1) ∧ (((ws.take k).sum : ℚ) : F) ≤ y ∧
      (k + 1 = ws.length ∨ y < (((ws.take (k + 1)).sum : ℚ) : F))

/-! ### One batch -/

theorem evaluate_keys (demand : BlockId → Option F) (cells : List (LSCell F)) :
    (evaluate demand cells).keys = uniqueVals [] ((DmgEval.sortCells cells).map (·.block)) := by
  unfold evaluate
  have : ∀ (l : List Str) (d : Dict BlockId Int),
      Dict.keys (l.foldl (fun ds ls => ds.map fun e =>
        (e.1, DmgEval.stepLS demand (DmgEval.sortCells cells) ls e.1 e.2)) d) = d.keys := by
    intro l
    induction l with
    | nil => intro d; rfl
    | cons a l ih =>
      intro d
      rw [List.foldl_cons, ih]
      simp [Dict.keys, List.map_map, Function.comp_def]
  rw [this]
  simp [Dict.keys, List.map_map, Function.comp_def]

/-- The parts of a run of a batch. -/
theorem runBatch_ok {N : Num F} {NQ : Num F} {x : Input F} {dc : Draws F} {dl : Draws F}
    {pgb : List (PGid × Nat)} {out : List (Dict BlockId Int)} (h : runBatch N NQ x dc dl pgb = .ok out) :
    ∃ vars cap ls d, batchVars x.caps pgb = .ok vars ∧ sampleCaps N vars x.size x.method dc = .ok cap ∧
      sampleLsds NQ vars x.size x.method dl = .ok ls ∧ batchDemand x (pgb.map Prod.fst) = .ok d ∧
      (∀ pg ∈ pgb.map Prod.fst, ∃ c ∈ cap, pgOf (blockOf c.1).1 = pg) ∧
      out = (List.range x.size).map fun i => evaluate (demandAt d i) (cellsAt cap ls i) := by
  unfold runBatch at h
  split at h
  · simp at h
  · rename_i vars hv
    unfold generateBatch at h
    cases hc : sampleCaps N vars x.size x.method dc with
    | error e => rw [hc] at h; simp at h
    | ok cap =>
      rw [hc] at h
      simp only at h
      cases hl : sampleLsds NQ vars x.size x.method dl with
      | error e => rw [hl] at h; simp at h
      | ok ls =>
        rw [hl] at h
        simp only at h
        split at h
        · simp at h
        · rename_i d hd
          unfold checkColumns at h
          split at h
          · simp at h
          · rename_i hck
            split at hck
            · rename_i hall
              simp only [Except.ok.injEq] at h
              exact ⟨vars, cap, ls, d, hv, hc, hl, hd, hall, h.symm⟩
            · simp at hck

/-- The labels of performance groups have no dashes. -/
def NoDash (pgb : List (PGid × Nat)) : Prop :=
  ∀ e ∈ pgb, '-' ∉ e.1.cmp ∧ '-' ∉ e.1.loc ∧ '-' ∉ e.1.dir ∧ '-' ∉ e.1.uid

theorem decStr_no_dash (n : Nat) : '-' ∉ decStr n :=
  fun h => absurd (decStr_digits n _ h) (by decide)

theorem vars_tidy {caps : PGid → Option (List (LSCap F))} {pgb : List (PGid × Nat)}
    {vars : List (BlockVar F)} (hd : NoDash pgb) 
    (hid : ∀ e ∈ pgb, ∀ rows, caps e.1 = some rows → ∀ r ∈ rows, '-' ∉ r.id)
    (h : batchVars caps pgb = .ok vars) : Tidy 6 (vars.map (·.label)) := by
  intro l hl
  obtain ⟨v, hv, rfl⟩ := List.mem_map.1 hl
  obtain ⟨pg, n, rows, r, b, h1, h2, h3, h4⟩ := (batchVars_ok h).1 v hv
  rw [h4.label]
  obtain ⟨d1, d2, d3, d4⟩ := hd _ h1
  have hr : r ∈ rows := by
    obtain ⟨_, _, _, _, _, _, _, _, hr, _⟩ := h4
    exact hr
  refine ⟨rfl, ?_⟩
  intro p hp
  simp only [blockLabel, List.mem_cons, List.not_mem_nil, or_false] at hp
  rcases hp with rfl | rfl | rfl | rfl | rfl | rfl
  · exact d1
  · exact d2
  · exact d3
  · exact d4
  · exact decStr_no_dash _
  · exact hid _ h1 rows h2 r hr

/-- The cell of a variable in realization `i`, given the samples. -/
def cellOf (samples : Dict Str (List (Ext F))) (ls : List (Label × List Int)) (i : Nat) (v : BlockVar F) :
    LSCell F :=
  { block := (blockOf v.label).1, ls := (blockOf v.label).2,
    capacity := ((samples.get? v.cap.name).getD []).getD i .nan,
    ds := ((Dict.get? ls v.label).getD []).getD i 0 }

theorem cells_mem {samples : Dict Str (List (Ext F))} {vars : List (BlockVar F)}
    {cap : List (Label × List (Ext F))} (ls : List (Label × List Int)) (i : Nat)
    (h : cap.Perm (vars.map fun v => (v.label, (samples.get? v.cap.name).getD []))) (c : LSCell F) :
    c ∈ cellsAt cap ls i ↔ ∃ v ∈ vars, c = cellOf samples ls i v := by
  unfold cellsAt
  constructor
  · intro hc
    obtain ⟨y, hy, rfl⟩ := List.mem_map.1 hc
    obtain ⟨v, hv, rfl⟩ := List.mem_map.1 (h.mem_iff.1 hy)
    exact ⟨v, hv, rfl⟩
  · rintro ⟨v, hv, rfl⟩
    exact List.mem_map.2 ⟨_, h.mem_iff.2 (List.mem_map_of_mem hv), rfl⟩

theorem blockOf_label (pg : PGid) (b : Nat) (ls : Str) : blockOf (blockLabel pg b ls) = (blockId pg b, ls) := rfl

theorem blockId_inj {pg pg' : PGid} {b b' : Nat} (h : blockId pg b = blockId pg' b') : pg = pg' ∧ b = b' := by
  simp only [blockId, BlockId.mk.injEq] at h
  obtain ⟨h1, h2, h3, h4, h5⟩ := h
  have := decStr_inj h5
  exact ⟨by cases pg; cases pg'; simp_all, by omega⟩

/-- The rows of a batch have one entry for each block. -/
theorem runBatch_keys {N : Num F} {NQ : Num F} {x : Input F} {dc : Draws F} {dl : Draws F}
    {pgb : List (PGid × Nat)} {out : List (Dict BlockId Int)} (hd : NoDash pgb)
    (hid : ∀ e ∈ pgb, ∀ rows, x.caps e.1 = some rows → ∀ r ∈ rows, '-' ∉ r.id)
    (h : runBatch N NQ x dc dl pgb = .ok out) :
    out.length = x.size ∧ ∀ row ∈ out, row.NoDupKeys ∧
      ∀ b, b ∈ row.keys ↔ ∃ pg n k, (pg, n) ∈ pgb ∧ k < n ∧ b = blockId pg k := by
  obtain ⟨vars, cap, ls, d, h1, h2, h3, h4, h5, rfl⟩ := runBatch_ok h
  refine ⟨by simp, ?_⟩
  intro row hrow
  obtain ⟨i, _, rfl⟩ := List.mem_map.1 hrow
  have hvars := batchVars_ok h1
  have hname : ∀ v ∈ vars, v.cap.name = tag (str "FRG") v.label := by
    intro v hv
    obtain ⟨_, _, _, _, _, _, _, _, h6⟩ := hvars.1 v hv
    exact h6.name
  obtain ⟨r, r', hr, hg, hperm⟩ := sampleCaps_ok hname (vars_tidy hd hid h1) h2
  refine ⟨by unfold Dict.NoDupKeys; rw [evaluate_keys]; exact uniqueVals_nodup _ _, ?_⟩
  intro b
  rw [evaluate_keys, uniqueVals_mem]
  have hcell := cells_mem ls i hperm
  constructor
  · rintro ⟨hb, _⟩
    obtain ⟨c, hc, rfl⟩ := List.mem_map.1 hb
    obtain ⟨v, hv, rfl⟩ := (hcell c).1 (mem_pySort.1 hc)
    obtain ⟨pg, n, rows, r, k, g1, g2, g3, g4⟩ := hvars.1 v hv
    exact ⟨pg, n, k, g1, g3, by simp only [cellOf, g4.label, blockOf_label]⟩
  · rintro ⟨pg, n, k, g1, g2, rfl⟩
    refine ⟨?_, by simp⟩
    obtain ⟨c, hc, hpg⟩ := h5 pg (List.mem_map_of_mem g1)
    obtain ⟨v, hv, rfl⟩ := List.mem_map.1 (hperm.mem_iff.1 hc)
    obtain ⟨pg', n', rows, r, k', f1, f2, f3, f4⟩ := hvars.1 v hv
    have e : pg' = pg := by
      rw [← hpg]
      simp only [f4.label, blockOf_label, pgOf, blockId]
    subst e
    have hr : r ∈ rows ∧ r.dist ≠ none := by
      obtain ⟨_, _, _, _, _, _, _, _, h7, h8, _⟩ := f4
      exact ⟨h7, by simp [h8]⟩
    obtain ⟨w, hw, hw'⟩ := hvars.2 pg' n rows r k g1 f2 hr.1 hr.2 g2
    refine List.mem_map.2 ⟨cellOf r'.samples ls i w, mem_pySort.2 ((hcell _).2 ⟨w, hw, rfl⟩), ?_⟩
    simp only [cellOf, hw'.label, blockOf_label]

theorem lsds_nodup {rows : List (LSCap F)} (hnd : (rows.map (·.id)).Nodup) {out : Dict Str LSDS}
    (h : lsds (rows.map LSCap.toRow) = .ok out) : out.NoDupKeys := by
  have h1 := DmgRVs.lsdsLoop_ids _ _ _ h
  refine h1.nodup ?_
  refine ((pySort_perm _ (rows.map LSCap.toRow)).map _).nodup_iff.2 ?_
  rw [List.map_map]
  exact hnd

theorem numOf_id {rows : List (LSCap F)} (hc : Component rows) {r : LSCap F} (hr : r ∈ rows) :
    1 ≤ numOf r.id ∧ numOf r.id ≤ 9 ∧ r.id = decStr (numOf r.id) := by
  obtain ⟨k, h1, h2, h3⟩ := hc.numbered r hr
  rw [h3, DmgEval.numOf_decStr]
  exact ⟨h1, h2, rfl⟩

theorem nums_nodup {rows : List (LSCap F)} (hc : Component rows) :
    ((rows.map LSCap.toRow).map fun a => numOf a.id).Nodup := by
  rw [List.map_map]
  have : (rows.map fun a => decStr (numOf a.id)).Nodup := by
    have e : (rows.map fun a => decStr (numOf a.id)) = rows.map (·.id) :=
      List.map_congr_left fun a ha => (numOf_id hc ha).2.2.symm
    rw [e]
    exact hc.distinct
  have e : (rows.map fun a => decStr (numOf a.id)) =
      (rows.map ((fun a : LSRow => numOf a.id) ∘ LSCap.toRow)).map decStr := by
    rw [List.map_map]; rfl
  rw [e] at this
  exact List.Nodup.of_map _ this

theorem statesBelow_eq (rows : List (LSCap F)) (r : LSCap F) :
    (((DmgRVs.defined (rows.map LSCap.toRow)).filter fun a => decide (numOf a.id < numOf r.toRow.id)).map
      DmgRVs.width).sum = statesBelow rows r := by
  unfold statesBelow DmgRVs.defined
  rw [List.filter_map, List.filter_map, List.filter_filter, List.map_map]
  have e0 : (fun a : LSCap F => (decide (numOf a.toRow.id < numOf r.toRow.id)) &&
      a.toRow.theta0.isSome) = fun a => decide (a.dist.isSome = true ∧ numOf a.id < numOf r.id) := by
    funext a
    cases ha : a.dist <;> simp [LSCap.toRow, ha]
  simp only [Function.comp_def, e0]
  rfl

/-- The damage state that is drawn for a limit state with weights. -/
theorem lsds_weights [IsStrictOrderedRing F] {pg : PGid} {rows : List (LSCap F)} (hc : Component rows) {r : LSCap F} {b : Nat}
    {v : BlockVar F} (h : VarOf pg rows r b v) {s : Str} (hs : r.weights = some s) {ws : List ℚ}
    (hws : List.Forall₂ (fun piece q => pyFloat? piece = some (.fin q)) (splitChar '|' (s.filter (· ≠ ' '))) ws)
    {us : List F} (hu : ∀ u ∈ us, 0 ≤ u ∧ u ≤ 1) {i : Nat} {u : F} (hi : us[i]? = some u) :
    ∃ k, k < ws.length ∧ (DmgRVs.sampleLsds v.ds us)[i]? = some ((statesBelow rows r + (k + 1) : Nat) : F) ∧
      (((ws.take k).sum : ℚ) : F) ≤ u ∧ (k + 1 = ws.length ∨ u < (((ws.take (k + 1)).sum : ℚ) : F)) := by
  obtain ⟨head, rest, d, k, a, ds, out, h1, h2, h3, h4, h5, h6, h7, rfl⟩ := h
  obtain ⟨w, hw, hspec⟩ := DmgRVs.C39_weights_by_number_partial (F := F) (rows.map LSCap.toRow) out h6 (fun a => numOf a.id)
    (by
      intro a ha
      obtain ⟨a', ha', rfl⟩ := List.mem_map.1 ha
      exact ⟨(numOf_id hc ha').2.1, (numOf_id hc ha').2.2⟩)
    (nums_nodup hc) r.toRow (List.mem_map_of_mem h2) (by simp [LSCap.toRow, h3]) s hs ws hws (by
      intro q hq
      obtain ⟨piece, hp, hpq⟩ := forall₂_mem_right hws hq
      exact hc.weights r h2 s hs piece hp q hpq)
  have hw' : w = ds := by
    have := (Dict.get?_iff_mem (lsds_nodup hc.distinct h6)).2 hw
    rw [show (r.toRow).id = r.id from rfl, h7] at this
    exact (Option.some.inj this).symm
  subst hw'
  have := hspec us hu i u hi
  simp only [statesBelow_eq] at this
  exact this

/-- The damage states drawn for a limit state are its own. -/
theorem lsds_range [IsStrictOrderedRing F] {pg : PGid} {rows : List (LSCap F)} (hc : Component rows) {r : LSCap F} {b : Nat}
    {v : BlockVar F} (h : VarOf pg rows r b v) (us : List F) (hu : ∀ u ∈ us, 0 ≤ u ∧ u ≤ 1) :
    (DmgRVs.sampleLsds v.ds us).length = us.length ∧ ∀ y ∈ DmgRVs.sampleLsds v.ds us, ∃ n : Nat, y = (n : F) ∧
      statesBelow rows r < n ∧ n ≤ statesBelow rows r + states r := by
  obtain ⟨head, rest, d, k, a, ds, out, h1, h2, h3, h4, h5, h6, h7, rfl⟩ := h
  have hnd := nums_nodup hc
  obtain ⟨w, hw, hspec⟩ := DmgRVs.C39_by_number_partial (F := F) (rows.map LSCap.toRow) out h6 (fun a => numOf a.id)
    (by
      intro a ha
      obtain ⟨a', ha', rfl⟩ := List.mem_map.1 ha
      exact ⟨(numOf_id hc ha').2.1, (numOf_id hc ha').2.2⟩)
    hnd r.toRow (List.mem_map_of_mem h2) (by simp [LSCap.toRow, h3])
  have hw' : w = ds := by
    have := (Dict.get?_iff_mem (lsds_nodup hc.distinct h6)).2 hw
    rw [show (r.toRow).id = r.id from rfl, h7] at this
    exact (Option.some.inj this).symm
  subst hw'
  have hwt : ∀ ws o, w = .drawn ws o → ∀ q ∈ ws, 0 ≤ q := by
    intro ws o hwo
    obtain ⟨dsId, next, has⟩ : ∃ dsId next, DmgRVs.assignLsds r.weights dsId = .ok (w, next) := by
      have : ∀ (l : List LSRow) (dsId : Nat) (out : List (Str × LSDS)), DmgRVs.lsdsLoop dsId l = .ok out →
          (∀ a ∈ l, a.id = r.id → a = r.toRow) → (r.id, w) ∈ out →
          ∃ dsId next, DmgRVs.assignLsds r.weights dsId = .ok (w, next) := by
        intro l
        induction l with
        | nil => intro _ out ho _ hm; simp [DmgRVs.lsdsLoop] at ho; subst ho; simp at hm
        | cons a l ih =>
          intro dsId out ho hin hm
          simp only [DmgRVs.lsdsLoop] at ho
          split at ho
          · exact ih _ _ ho (fun a ha => hin a (List.mem_cons_of_mem _ ha)) hm
          · split at ho
            · simp at ho
            · rename_i v next hv
              split at ho
              · simp at ho
              · rename_i l' hl'
                simp only [Except.ok.injEq] at ho
                subst ho
                rcases List.mem_cons.1 hm with hm | hm
                · simp only [Prod.mk.injEq] at hm
                  have := hin a (by simp) hm.1.symm
                  subst this
                  rw [hm.2]
                  exact ⟨dsId, next, hv⟩
                · exact ih _ _ hl' (fun a ha => hin a (List.mem_cons_of_mem _ ha)) hm
      refine this _ 0 out h6 ?_ (Dict.mem_of_get? h7)
      intro a ha e
      obtain ⟨a', ha', rfl⟩ := List.mem_map.1 (mem_pySort.1 ha)
      rw [id_inj hc.distinct ha' h2 e]
    unfold DmgRVs.assignLsds at has
    split at has
    · simp only [Except.ok.injEq, Prod.mk.injEq] at has
      rw [← has.1] at hwo
      simp at hwo
    · rename_i s hs
      split at has
      · simp at has
      · rename_i ws' hp
        split at has
        · simp at has
        · rename_i ws2 hi
          simp only [Except.ok.injEq, Prod.mk.injEq] at has
          rw [← has.1] at hwo
          simp only [LSDS.drawn.injEq] at hwo
          have e : ws2 = ws' := by
            unfold multinomialInit at hi
            split at hi
            · simp at hi
            · split at hi
              · simp at hi
              · simp only [Except.ok.injEq] at hi
                exact hi.symm
          rw [← hwo.1, e]
          intro q hq
          obtain ⟨piece, hpc, hpq⟩ := forall₂_mem_right (mapE_ok_iff.1 hp) hq
          refine hc.weights r h2 s hs piece hpc q ?_
          split at hpq
          · rename_i hf
            simp only [Except.ok.injEq] at hpq
            rw [hf, hpq]
          · simp at hpq
  obtain ⟨hl, hrange⟩ := hspec us hu hwt
  refine ⟨hl, ?_⟩
  intro y hy
  obtain ⟨n, e1, e2, e3⟩ := hrange y hy
  rw [statesBelow_eq] at e2 e3
  exact ⟨n, e1, e2, e3⟩

theorem batchDemand_ok {x : Input F} {pgs : List PGid} {d : PGid → List (Option ℚ)}
    (h : batchDemand x pgs = .ok d) {pg : PGid} (hpg : pg ∈ pgs) :
    ∃ key, DemandReq.keyOf x.nvars x.params x.offsets pg = .ok key ∧
      DemandReq.demandOf x.eval x.mults x.sample key = .ok (d pg) := by
  unfold batchDemand at h
  split at h
  · simp at h
  · rename_i req hreq
    split at h
    · simp at h
    · split at h
      · simp at h
      · rename_i dd hdd
        simp only [Except.ok.injEq] at h
        subst h
        obtain ⟨p1, p2, p3⟩ := DemandReq.C35_partition _ _ _ _ _ hreq
        obtain ⟨q1, q2⟩ := DemandReq.C77_assembled _ _ _ _ _ hdd
        obtain ⟨k, hk, hkm⟩ := p2 pg hpg
        obtain ⟨⟨k', g⟩, hg, rfl⟩ := List.mem_map.1 hkm
        simp only
        cases hf : req.find? fun e => decide (pg ∈ e.2) with
        | none =>
          have := List.find?_eq_none.1 hf (k', g) hg
          simp only [decide_eq_true_eq] at this
          rw [(p3 k' g hg).2] at this
          exact absurd (List.mem_filter.2 ⟨hpg, by simpa using hk⟩) this
        | some e =>
          have h1 := List.find?_some hf
          have h2 := List.mem_of_find?_eq_some hf
          simp only [decide_eq_true_eq] at h1
          rw [(p3 e.1 e.2 h2).2] at h1
          have h3 : DemandReq.keyOf x.nvars x.params x.offsets pg = .ok e.1 := by
            simpa using (List.mem_filter.1 h1).2
          have h4 : e.1 ∈ dd.map Prod.fst := by rw [q1]; exact List.mem_map_of_mem h2
          obtain ⟨v, hv⟩ : ∃ v, Dict.get? dd e.1 = some v := by
            cases hv : Dict.get? dd e.1 with
            | none => exact absurd h4 ((Dict.get?_eq_none_iff _ _).1 hv)
            | some v => exact ⟨v, rfl⟩
          refine ⟨e.1, h3, ?_⟩
          simp only [hv, Option.getD_some]
          exact q2 _ _ (Dict.mem_of_get? hv)

theorem VarOf.mem {pg : PGid} {rows : List (LSCap F)} {r : LSCap F} {b : Nat} {v : BlockVar F}
    (h : VarOf pg rows r b v) : r ∈ rows ∧ r.dist ≠ none := by
  obtain ⟨_, _, _, _, _, _, _, _, h7, h8, _⟩ := h
  exact ⟨h7, by simp [h8]⟩

theorem VarOf.kind {pg : PGid} {rows : List (LSCap F)} {r : LSCap F} {b : Nat} {v : BlockVar F}
    (h : VarOf pg rows r b v) : ∃ d, r.dist = some d ∧ kindAt d b = .ok v.cap.kind := by
  obtain ⟨_, _, d, _, _, _, _, _, _, h3, _, h5, _, _, rfl⟩ := h
  exact ⟨d, h3, h5⟩

theorem not_multinomial {rows : List (LSCap F)} (hc : Component rows) {r : LSCap F} (hr : r ∈ rows)
    {d : CapDist F} (hd : r.dist = some d) {b : Nat} {k : RVKind F} (hk : kindAt d b = .ok k) :
    k.isMultinomial = false := by
  cases d with
  | dist k' =>
    simp only [kindAt, Except.ok.injEq] at hk
    subst hk
    exact hc.capacity r hr k' hd
  | multilinear s =>
    simp only [kindAt] at hk
    split at hk
    · unfold parsePoints at hk
      split at hk
      · split at hk
        · split at hk
          · cases hm : multilinearInit (F := F) _ none none with
            | error e => rw [hm] at hk; simp [Except.map] at hk
            | ok p =>
              rw [hm] at hk
              simp only [Except.map, Except.ok.injEq] at hk
              subst hk
              rfl
          · simp at hk
        · simp at hk
        · simp at hk
      · simp at hk
    · simp at hk

/-- The name of the variable that is drawn for a block. -/
def rootName (caps : PGid → Option (List (LSCap F))) (b : BlockId) : Str :=
  tag (str "FRG") [b.cmp, b.loc, b.dir, b.uid, b.block,
    match pySort lsLe ((caps (pgOf b)).getD []) with
    | [] => []
    | head :: _ => head.id]

variable [IsStrictOrderedRing F]

/-- What C89 says of one batch. -/
def BatchStates (N : Num F) (x : Input F) (dc : Draws F) (dl : Draws F) (pgb : List (PGid × Nat))
    (out : List (Dict BlockId Int)) (slot : BlockId → Nat) (lslot : BlockId → Str → Nat) : Prop :=
      (∀ pg n k pg' n' k', (pg, n) ∈ pgb → k < n → (pg', n') ∈ pgb → k' < n' →
        slot (blockId pg k) = slot (blockId pg' k') → blockId pg k = blockId pg' k') ∧
      (∀ pg n k pg' n' k', (pg, n) ∈ pgb → k < n → (pg', n') ∈ pgb → k' < n' →
        ∀ rows rows', x.caps pg = some rows → x.caps pg' = some rows' →
        ∀ r ∈ rows, ∀ r' ∈ rows', r.dist ≠ none → r'.dist ≠ none →
        lslot (blockId pg k) r.id = lslot (blockId pg' k') r'.id →
        blockId pg k = blockId pg' k' ∧ r.id = r'.id) ∧
      ∀ pg n k, (pg, n) ∈ pgb → k < n → ∃ rows u, x.caps pg = some rows ∧
        drawRow x.method x.size (dc.perm (slot (blockId pg k))) (dc.jitter (slot (blockId pg k))) = .ok u ∧
        ∀ i < x.size, ∃ row v, out[i]? = some row ∧ row.get? (blockId pg k) = some v ∧
          Decided N x rows u pg k i v ∧
          ∀ r ∈ rows, Exceeded N x u pg k i r →
            (∀ a ∈ rows, numOf r.id < numOf a.id → ¬ Exceeded N x u pg k i a) →
            ∃ w, drawRow x.method x.size (dl.perm (lslot (blockId pg k) r.id))
              (dl.jitter (lslot (blockId pg k) r.id)) = .ok w ∧ StateDrawn rows w r i v

/-- Which uniform numbers of a batch belong to a block: decided by the variables, not by the draws. -/
def capSlot (x : Input F) (pgb : List (PGid × Nat)) (b : BlockId) : Nat :=
  match batchVars x.caps pgb with
  | .error _ => 0
  | .ok vars =>
    match addVars (vars.map (·.cap)) {} with
    | .error _ => 0
    | .ok r => r.free.idxOf (rootName x.caps b)

/-- Which uniform numbers of a batch pick the damage state of a limit state of a block. -/
def lsdsSlot (x : Input F) (pgb : List (PGid × Nat)) (b : BlockId) (id : Str) : Nat :=
  match batchVars x.caps pgb with
  | .error _ => 0
  | .ok vars =>
    match addVars (vars.map lsdsVar) {} with
    | .error _ => 0
    | .ok r => r.free.idxOf (tag (str "LSDS") [b.cmp, b.loc, b.dir, b.uid, b.block, id])

theorem runBatch_states {N : Num F} {NQ : Num F} {x : Input F} {dc : Draws F} {dl : Draws F}
    {pgb : List (PGid × Nat)} {out : List (Dict BlockId Int)} (hd : NoDash pgb)
    (hcomp : ∀ e ∈ pgb, ∀ rows, x.caps e.1 = some rows → Component rows)
    (hdc : GoodDraws x.size dc.perm dc.jitter) (hdl : GoodDraws x.size dl.perm dl.jitter)
    (h : runBatch N NQ x dc dl pgb = .ok out) :
    BatchStates N x dc dl pgb out (capSlot x pgb) (lsdsSlot x pgb) := by
  obtain ⟨vars, cap, ls, d, h1, h2, h3, h4, h5, rfl⟩ := runBatch_ok h
  have hid : ∀ e ∈ pgb, ∀ rows, x.caps e.1 = some rows → ∀ r ∈ rows, '-' ∉ r.id := by
    intro e he rows hr r hrr
    rw [(numOf_id (hcomp e he rows hr) hrr).2.2]
    exact decStr_no_dash _
  have hvars := batchVars_ok h1
  have hname : ∀ v ∈ vars, v.cap.name = tag (str "FRG") v.label := by
    intro v hv
    obtain ⟨_, _, _, _, _, _, _, _, h6⟩ := hvars.1 v hv
    exact h6.name
  have htidy := vars_tidy hd hid h1
  obtain ⟨r, r', hr, hg, hperm⟩ := sampleCaps_ok hname htidy h2
  have hnd := vars_labels_nodup hname hr
  obtain ⟨rl, rl', hrl, hgl, hlsk, hlsv⟩ := sampleLsds_ok hnd htidy h3
  obtain ⟨hinv, hsets, _⟩ := addVars_vars hr
  have hsnd := addVars_snd hr
  -- the root of every variable of a block
  have hroot : ∀ {pg n rows q b v}, (pg, n) ∈ pgb → x.caps pg = some rows → b < n → v ∈ vars →
      VarOf pg rows q b v → v.cap.root.name = rootName x.caps (blockId pg b) ∧
        ∃ w ∈ vars, w.cap = v.cap.root := by
    intro pg n rows q b v g1 g2 g3 g4 g5
    have hc := hcomp _ g1 rows g2
    obtain ⟨head, dd, k, ⟨rest, e1⟩, e2, e3, e4⟩ := g5.root hc.distinct
    have hh : head ∈ rows := by
      have : head ∈ pySort lsLe rows := by rw [e1]; simp
      exact mem_pySort.1 this
    constructor
    · rw [e4]
      have epg : pgOf (blockId pg b) = pg := rfl
      simp only [RV.name, rootName, epg, g2, Option.getD_some, e1]
      rfl
    · obtain ⟨w, hw, hw'⟩ := hvars.2 pg n rows head b g1 g2 hh (by simp [e2]) g3
      refine ⟨w, hw, ?_⟩
      obtain ⟨head', rest', d', k', a', ds', out', f1, f2, f3, f4, f5, f6, f7, rfl⟩ := hw'
      rw [e1] at f1
      obtain ⟨rfl, rfl⟩ := List.cons.inj f1
      rw [e2] at f3
      obtain rfl := Option.some.inj f3
      rw [e3] at f5
      simp only [Except.ok.injEq] at f5
      subst f5
      simp only [anchorOf, if_true, Except.ok.injEq] at f4
      subst f4
      rw [e4]
  have hclosed : Closed r := addVars_root_closed hr (by
    intro v hv
    obtain ⟨pg, n, rows, q, b, g1, g2, g3, g4⟩ := hvars.1 v hv
    exact (hroot g1 g2 g3 hv g4).2)
  have hmul : ∀ w ∈ r.vars.map Prod.snd, w.kind.isMultinomial = false := by
    intro w hw
    rw [hsnd] at hw
    obtain ⟨v, hv, rfl⟩ := List.mem_map.1 hw
    obtain ⟨pg, n, rows, q, b, g1, g2, g3, g4⟩ := hvars.1 v hv
    obtain ⟨dd, e1, e2⟩ := g4.kind
    exact not_multinomial (hcomp _ g1 rows g2) g4.mem.1 e1 e2
  have hval : ∀ v ∈ vars, v.cap.root.name ∈ r.free ∧ ∃ u s,
      drawRow x.method x.size (dc.perm (r.free.idxOf v.cap.root.name))
        (dc.jitter (r.free.idxOf v.cap.root.name)) = .ok u ∧
      (v.cap.kind.utility = false ∧ v.cap.kind.inverse N u = .ok (s, u) ∨
        v.cap.kind.utility = true ∧ v.cap.kind.generate x.size = .ok s) ∧
      r'.samples.get? v.cap.name = some s := by
    intro v hv
    exact caps_values hinv hsets hclosed hmul hg (by rw [hsnd]; exact List.mem_map_of_mem hv)
  -- a block has a variable
  have hex : ∀ {pg n k}, (pg, n) ∈ pgb → k < n → ∃ rows q v, x.caps pg = some rows ∧ v ∈ vars ∧
      VarOf pg rows q k v := by
    intro pg n k g1 g2
    obtain ⟨c, hc, hpg⟩ := h5 pg (List.mem_map_of_mem g1)
    obtain ⟨v, hv, rfl⟩ := List.mem_map.1 (hperm.mem_iff.1 hc)
    obtain ⟨pg', n', rows, q, k', f1, f2, f3, f4⟩ := hvars.1 v hv
    have e : pg' = pg := by
      rw [← hpg]
      simp only [f4.label, blockOf_label, pgOf, blockId]
    subst e
    obtain ⟨w, hw, hw'⟩ := hvars.2 pg' n rows q k g1 f2 f4.mem.1 f4.mem.2 g2
    exact ⟨rows, q, w, f2, hw, hw'⟩
  have hs1 : capSlot x pgb = fun b => r.free.idxOf (rootName x.caps b) := by
    funext b
    simp only [capSlot, h1, hr]
  have hs2 : lsdsSlot x pgb =
      fun b id => rl.free.idxOf (tag (str "LSDS") [b.cmp, b.loc, b.dir, b.uid, b.block, id]) := by
    funext b id
    simp only [lsdsSlot, h1, hrl]
  rw [hs1, hs2]
  refine ⟨?_, ?_, ?_⟩
  · intro pg n k pg' n' k' g1 g2 g3 g4 he
    obtain ⟨rows, q, v, f1, f2, f3⟩ := hex g1 g2
    obtain ⟨rows', q', v', f1', f2', f3'⟩ := hex g3 g4
    have m1 := (hval v f2).1
    have m2 := (hval v' f2').1
    rw [(hroot g1 f1 g2 f2 f3).1] at m1
    rw [(hroot g3 f1' g4 f2' f3').1] at m2
    have hn := (List.idxOf_inj m1).1 he
    have hnod : ∀ {pg n k rows}, (pg, n) ∈ pgb → x.caps pg = some rows → ∀ p ∈
        [(blockId pg k).cmp, (blockId pg k).loc, (blockId pg k).dir, (blockId pg k).uid, (blockId pg k).block,
          match pySort lsLe ((x.caps (pgOf (blockId pg k))).getD []) with
          | [] => []
          | head :: _ => head.id], '-' ∉ p := by
      intro pg n k rows t1 t2 p hp
      obtain ⟨d1, d2, d3, d4⟩ := hd _ t1
      simp only [List.mem_cons, List.not_mem_nil, or_false] at hp
      rcases hp with rfl | rfl | rfl | rfl | rfl | rfl
      · exact d1
      · exact d2
      · exact d3
      · exact d4
      · exact decStr_no_dash _
      · have epg : pgOf (blockId pg k) = pg := rfl
        rw [epg, t2, Option.getD_some]
        split
        · simp
        · rename_i head rest hs
          refine hid _ t1 rows t2 head ?_
          have : head ∈ pySort lsLe rows := by rw [hs]; simp
          exact mem_pySort.1 this
    have := DemandGen.tag_inj (str "FRG") (by decide) (hnod g1 f1) (hnod g3 f1') hn
    simp only [List.cons.injEq] at this
    obtain ⟨e1, e2, e3, e4, e5, _⟩ := this
    cases hb : blockId pg k
    cases hb' : blockId pg' k'
    simp_all
  · intro pg n k pg' n' k' g1 g2 g3 g4 rows rows' c1 c2 q hq q' hq' hdq hdq' he
    obtain ⟨v, hv, hvo⟩ := hvars.2 pg n rows q k g1 c1 hq hdq g2
    obtain ⟨v', hv', hvo'⟩ := hvars.2 pg' n' rows' q' k' g3 c2 hq' hdq' g4
    have m1 := (lsds_values hdl hrl hgl hv).1
    have hn := (List.idxOf_inj (by simpa [lsdsVar, RV.name, hvo.label, blockLabel, blockId] using m1)).1 he
    have hnod : ∀ {pg n k rows q}, (pg, n) ∈ pgb → x.caps pg = some rows → q ∈ rows → ∀ p ∈
        [(blockId pg k).cmp, (blockId pg k).loc, (blockId pg k).dir, (blockId pg k).uid, (blockId pg k).block,
          q.id], '-' ∉ p := by
      intro pg n k rows q t1 t2 t3 p hp
      obtain ⟨d1, d2, d3, d4⟩ := hd _ t1
      simp only [List.mem_cons, List.not_mem_nil, or_false] at hp
      rcases hp with rfl | rfl | rfl | rfl | rfl | rfl
      · exact d1
      · exact d2
      · exact d3
      · exact d4
      · exact decStr_no_dash _
      · exact hid _ t1 rows t2 q t3
    have := DemandGen.tag_inj (str "LSDS") (by decide) (hnod g1 c1 hq) (hnod g3 c2 hq') hn
    simp only [List.cons.injEq] at this
    obtain ⟨e1, e2, e3, e4, e5, e6, _⟩ := this
    refine ⟨?_, e6⟩
    cases hb : blockId pg k
    cases hb' : blockId pg' k'
    simp_all
  · intro pg n k g1 g2
    obtain ⟨rows, q0, v0, f1, f2, f3⟩ := hex g1 g2
    have hc := hcomp _ g1 rows f1
    obtain ⟨hfree, u, _, hu, _, _⟩ := hval v0 f2
    rw [(hroot g1 f1 g2 f2 f3).1] at hu
    refine ⟨rows, u, f1, hu, ?_⟩
    intro i hi
    have hulen := (drawRow_unit hdc _ hu).1
    obtain ⟨key, hkey, hdem⟩ := batchDemand_ok h4 (List.mem_map_of_mem g1)
    have hcell := cells_mem ls i hperm
    -- exceedance in a cell
    have hlink : ∀ q v, v ∈ vars → VarOf pg rows q k v →
        (DmgEval.IsExceeded (demandAt d i) (cellOf r'.samples ls i v) ↔ Exceeded N x u pg k i q) := by
      intro q v hv hvo
      obtain ⟨_, u', s, e1, e2, e3⟩ := hval v hv
      rw [(hroot g1 f1 g2 hv hvo).1, hu] at e1
      simp only [Except.ok.injEq] at e1
      subst e1
      have hslen : s.length = x.size := by
        rcases e2 with ⟨_, e2⟩ | ⟨_, e2⟩
        · rw [(inverse_length N _ _ _ _ e2).1, hulen]
        · exact generate_length _ _ _ e2
      obtain ⟨dd, k1, k2⟩ := hvo.kind
      have hcap : ∀ c, CapacityAt N x.size u q k i c ↔ s.getD i .nan = c := by
        intro c
        have hget : s[i]? = some (s.getD i .nan) := by
          rw [List.getD_eq_getElem?_getD, List.getElem?_eq_getElem (by omega)]
          rfl
        constructor
        · rintro ⟨d', k', s', t1, t2, t3, t4⟩
          rw [k1] at t1
          obtain rfl := Option.some.inj t1
          rw [k2] at t2
          simp only [Except.ok.injEq] at t2
          subst t2
          have : s' = s := by
            rcases e2 with ⟨b1, e2⟩ | ⟨b1, e2⟩ <;> rcases t3 with ⟨b2, t3⟩ | ⟨b2, t3⟩
            · rw [e2] at t3
              simp only [Except.ok.injEq, Prod.mk.injEq] at t3
              exact t3.1.symm
            · rw [b1] at b2; simp at b2
            · rw [b1] at b2; simp at b2
            · rw [e2] at t3
              simp only [Except.ok.injEq] at t3
              exact t3.symm
          subst this
          rw [hget] at t4
          exact Option.some.inj t4
        · rintro rfl
          exact ⟨dd, _, s, k1, k2, e2, hget⟩
      have hdemand : ∀ y : F, demandAt d i (blockId pg k) = some y ↔ ∃ q : ℚ, DemandIs x pg i q ∧ y = (q : F) := by
        intro y
        have epg : pgOf (blockId pg k) = pg := rfl
        simp only [demandAt, epg, Option.map_eq_some_iff]
        constructor
        · rintro ⟨a, ha, rfl⟩
          refine ⟨a, ⟨key, d pg, hkey, hdem, ?_⟩, rfl⟩
          rw [List.getD_eq_getElem?_getD] at ha
          cases hh : (d pg)[i]? with
          | none => rw [hh] at ha; simp at ha
          | some z => rw [hh, Option.getD_some] at ha; rw [ha]
        · rintro ⟨a, ⟨key', vals, t1, t2, t3⟩, rfl⟩
          rw [hkey] at t1
          simp only [Except.ok.injEq] at t1
          subst t1
          rw [hdem] at t2
          simp only [Except.ok.injEq] at t2
          subst t2
          exact ⟨a, by rw [List.getD_eq_getElem?_getD, t3]; rfl, rfl⟩
      have hblock : (cellOf r'.samples ls i v).block = blockId pg k := by
        simp only [cellOf, hvo.label, blockOf_label]
      have hcapv : (cellOf r'.samples ls i v).capacity = s.getD i .nan := by
        simp only [cellOf, e3, Option.getD_some]
      unfold DmgEval.IsExceeded Exceeded
      rw [hblock, hcapv]
      constructor
      · rintro ⟨y, hy, hlt⟩
        obtain ⟨a, ha, rfl⟩ := (hdemand y).1 hy
        exact ⟨_, a, (hcap _).2 rfl, ha, hlt⟩
      · rintro ⟨c, a, hca, ha, hlt⟩
        rw [(hcap c).1 hca]
        have hy := (hdemand (a : F)).2 ⟨a, ha, rfl⟩
        exact ⟨_, hy, hlt⟩
    -- only the variables of this block matter
    have hcellb : ∀ c ∈ cellsAt cap ls i, c.block = blockId pg k → ∃ q v, v ∈ vars ∧ VarOf pg rows q k v ∧
        c = cellOf r'.samples ls i v := by
      intro c hc hcb
      obtain ⟨v, hv, rfl⟩ := (hcell c).1 hc
      obtain ⟨pg', n', rows', q, k', t1, t2, t3, t4⟩ := hvars.1 v hv
      simp only [cellOf, t4.label, blockOf_label] at hcb
      obtain ⟨rfl, rfl⟩ := blockId_inj hcb
      rw [f1] at t2
      obtain rfl := Option.some.inj t2
      exact ⟨q, v, hv, t4, rfl⟩
    have hlsn : ∀ {q v}, VarOf pg rows q k v → (cellOf r'.samples ls i v).ls = q.id := by
      intro q v t
      simp only [cellOf, t.label, blockOf_label]
    have hwell : DmgEval.WellNumbered (cellsAt cap ls i) := by
      refine ⟨?_, ?_, ?_⟩
      · intro a ha b hb e1 e2
        obtain ⟨v, hv, rfl⟩ := (hcell a).1 ha
        obtain ⟨w, hw, rfl⟩ := (hcell b).1 hb
        obtain ⟨p1, n1, rows1, q1, k1, s1, s2, s3, s4⟩ := hvars.1 v hv
        obtain ⟨p2, n2, rows2, q2, k2, t1, t2, t3, t4⟩ := hvars.1 w hw
        simp only [cellOf, s4.label, t4.label, blockOf_label] at e1 e2
        obtain ⟨rfl, rfl⟩ := blockId_inj e1
        have : v = w := List.inj_on_of_nodup_map hnd hv hw (by rw [s4.label, t4.label, e2])
        rw [this]
      · intro a ha
        obtain ⟨v, hv, rfl⟩ := (hcell a).1 ha
        obtain ⟨p1, n1, rows1, q1, k1, s1, s2, s3, s4⟩ := hvars.1 v hv
        obtain ⟨j, t1, t2, t3⟩ := (hcomp _ s1 rows1 s2).numbered q1 s4.mem.1
        exact ⟨j, t1, t2, by simp only [cellOf, s4.label, blockOf_label, t3]⟩
      · intro a ha m j e1 e2 e3
        obtain ⟨v, hv, rfl⟩ := (hcell a).1 ha
        obtain ⟨p1, n1, rows1, q1, k1, s1, s2, s3, s4⟩ := hvars.1 v hv
        simp only [cellOf, s4.label, blockOf_label] at e1
        obtain ⟨q2, t1, t2, t3⟩ := (hcomp _ s1 rows1 s2).noGap q1 s4.mem.1 s4.mem.2 j e2
          (by rw [e1, DmgEval.numOf_decStr]; exact e3)
        obtain ⟨w, hw, hw'⟩ := hvars.2 p1 n1 rows1 q2 k1 s1 s2 t1 t2 s3
        refine ⟨_, (hcell _).2 ⟨w, hw, rfl⟩, ?_, ?_⟩
        · simp only [cellOf, s4.label, hw'.label, blockOf_label]
        · simp only [cellOf, hw'.label, blockOf_label, t3]
    obtain ⟨z, hz, hz0, hz1⟩ := DmgEval.C37_highest_exceeded_partial (demandAt d i) (cellsAt cap ls i) hwell
      (blockId pg k) ⟨_, (hcell _).2 ⟨v0, f2, rfl⟩, by simp only [cellOf, f3.label, blockOf_label]⟩
    have hstate : ∀ q ∈ rows, Exceeded N x u pg k i q →
        (∀ a ∈ rows, numOf q.id < numOf a.id → ¬ Exceeded N x u pg k i a) →
        ((statesBelow rows q : Int) < z ∧ z ≤ statesBelow rows q + states q) ∧
        ∃ w, drawRow x.method x.size
            (dl.perm (rl.free.idxOf (tag (str "LSDS") (blockLabel pg k q.id))))
            (dl.jitter (rl.free.idxOf (tag (str "LSDS") (blockLabel pg k q.id)))) = .ok w ∧
          StateDrawn rows w q i z := by
      intro q hq hqe hmax
      have hqd : q.dist ≠ none := by
        obtain ⟨c, y, ⟨dd, _, _, t, _⟩, _⟩ := hqe
        simp [t]
      obtain ⟨v, hv, hvo⟩ := hvars.2 pg n rows q k g1 f1 hq hqd g2
      have hzv := hz1 (cellOf r'.samples ls i v) ((hcell _).2 ⟨v, hv, rfl⟩)
        (by simp only [cellOf, hvo.label, blockOf_label]) ((hlink q v hv hvo).2 hqe) (by
          intro c hc hcb hlt
          obtain ⟨q', v', hv', hvo', rfl⟩ := hcellb c hc hcb
          rw [hlink q' v' hv' hvo']
          rw [hlsn hvo, hlsn hvo'] at hlt
          exact hmax q' hvo'.mem.1 hlt)
      -- the damage state of the limit state
      obtain ⟨l, hl, hl2⟩ := hlsv v hv
      obtain ⟨_, us, w0, w1, w2, w3⟩ := lsds_values hdl hrl hgl hv
      rw [w3] at hl2
      obtain ⟨r1, r2⟩ := lsds_range hc hvo us w2
      have hnodl : Dict.NoDupKeys ls := (hlsk.nodup_iff).2 hnd
      have hget : Dict.get? ls v.label = some l := (Dict.get?_iff_mem hnodl).2 hl
      have hllen : l.length = x.size := by
        rw [← hl2.length_eq, List.length_map, r1, w1]
      have hi' : i < l.length := by omega
      have hzi : z = l[i] := by
        rw [hzv]
        simp only [cellOf, hget, Option.getD_some]
        rw [List.getD_eq_getElem?_getD, List.getElem?_eq_getElem hi']
        rfl
      have his : i < (DmgRVs.sampleLsds v.ds us).length := by rw [r1, w1]; exact hi
      have hyi : toInt (.fin (DmgRVs.sampleLsds v.ds us)[i]) = .ok l[i] := by
        have := (List.forall₂_iff_get.1 hl2).2 i (by simpa using his) hi'
        simpa using this
      obtain ⟨m, hm0, m1, m2⟩ := r2 _ (List.getElem_mem his)
      have htr : ∀ m : Nat, pyTrunc ((m : F)) = (m : Int) := by
        intro m
        simp [pyTrunc]
      have hzm : z = m := by
        rw [hm0] at hyi
        simp only [toInt, Except.ok.injEq, htr] at hyi
        rw [hzi, ← hyi]
      refine ⟨⟨by rw [hzm]; exact_mod_cast m1, by rw [hzm]; exact_mod_cast m2⟩, us, ?_, ?_⟩
      · simpa [lsdsVar, RV.name, hvo.label] using w0
      · intro s ws hs hws
        have hiu : us[i]? = some us[i] := List.getElem?_eq_getElem (by rw [w1]; exact hi)
        obtain ⟨j, j1, j2, j3, j4⟩ := lsds_weights hc hvo hs hws w2 hiu
        refine ⟨_, j, hiu, j1, ?_, j3, j4⟩
        rw [List.getElem?_eq_getElem his, hm0] at j2
        have : m = statesBelow rows q + (j + 1) := by
          have := Option.some.inj j2
          exact_mod_cast this
        rw [hzm, this]
        push_cast
        ring
    refine ⟨_, z, ?_, hz, ⟨?_, ?_⟩, ?_⟩
    · rw [List.getElem?_map, List.getElem?_range hi]
      rfl
    · intro hnone
      refine hz0 ?_
      intro c hc hcb
      obtain ⟨q, v, hv, hvo, rfl⟩ := hcellb c hc hcb
      rw [hlink q v hv hvo]
      exact hnone q hvo.mem.1
    · intro q hq hqe hmax
      exact (hstate q hq hqe hmax).1
    · intro q hq hqe hmax
      exact (hstate q hq hqe hmax).2

end

/-! ### All batches -/

section
variable {F : Type} [Field F] [LinearOrder F]

/-- A performance group of a component with parameters that is not missing, and its number of
blocks. -/
def Group (available missing : List Str) (table : List (PGid × Int)) (pg : PGid) (n : Nat) : Prop :=
  (∃ k, (pg, k) ∈ DmgBatch.Relevant available missing table) ∧
    (n : Int) = (((DmgBatch.Relevant available missing table).filter fun e => e.1 = pg).map Prod.snd).sum

/-- The groups of the batches: everything once. -/
theorem groups_spec {available missing : List Str} {table : List (PGid × Int)} {size : Int}
    (hz : 0 ≤ size) (hpos : ∀ e ∈ table, 0 < e.2) :
    ∃ l, DmgBatch.pgBatches available missing table size = .ok l ∧
      (∀ pg n, (∃ g ∈ groupBatches l, (pg, n) ∈ g) ↔ Group available missing table pg n) ∧
      ∀ (j j' : Nat) g g' pg n n', (groupBatches l)[j]? = some g → (groupBatches l)[j']? = some g' →
        (pg, n) ∈ g → (pg, n') ∈ g' → j = j' := by
  obtain ⟨l, h1, h2, h3, _, _⟩ := DmgBatch.C36_batches available missing table size hz hpos
  have hrel : ∀ e ∈ DmgBatch.Relevant available missing table, 0 < e.2 := by
    intro e he
    exact hpos e (List.mem_filter.1 he).1
  have hnn : ∀ pg, 0 ≤ (((DmgBatch.Relevant available missing table).filter fun e => e.1 = pg).map Prod.snd).sum := by
    intro pg
    refine List.sum_nonneg ?_
    intro z hz
    obtain ⟨e, he, rfl⟩ := List.mem_map.1 hz
    exact (hrel e (List.mem_filter.1 he).1).le
  refine ⟨l, h1, ?_, ?_⟩
  · intro pg n
    constructor
    · rintro ⟨g, hg, hpg⟩
      obtain ⟨b, _, rfl⟩ := List.mem_map.1 hg
      obtain ⟨e, he, hep⟩ := List.mem_map.1 hpg
      obtain ⟨he, _⟩ := List.mem_filter.1 he
      simp only [Prod.mk.injEq] at hep
      obtain ⟨rfl, rfl⟩ := hep
      obtain ⟨g1, g2⟩ := (h3 e.2.1 e.2.2).1 ⟨e.1, he⟩
      refine ⟨g1, ?_⟩
      have := hnn e.2.1
      omega
    · rintro ⟨g1, g2⟩
      obtain ⟨b, hb⟩ := (h3 pg n).2 ⟨g1, g2⟩
      refine ⟨_, List.mem_map.2 ⟨b, (uniqueVals_mem _ _ _).2 ⟨List.mem_map.2 ⟨_, hb, rfl⟩, by simp⟩, rfl⟩, ?_⟩
      refine List.mem_map.2 ⟨(b, pg, (n : Int)), List.mem_filter.2 ⟨hb, by simp⟩, by simp⟩
  · intro j j' g g' pg n n' hj hj' hg hg'
    unfold groupBatches at hj hj'
    rw [List.getElem?_map, Option.map_eq_some_iff] at hj hj'
    obtain ⟨b, hb, rfl⟩ := hj
    obtain ⟨b', hb', rfl⟩ := hj'
    obtain ⟨e, he, hep⟩ := List.mem_map.1 hg
    obtain ⟨e', he', hep'⟩ := List.mem_map.1 hg'
    obtain ⟨he, hbe⟩ := List.mem_filter.1 he
    obtain ⟨he', hbe'⟩ := List.mem_filter.1 he'
    simp only [Prod.mk.injEq, decide_eq_true_eq] at hep hep' hbe hbe'
    have : e = e' := List.inj_on_of_nodup_map h2 he he' (by rw [hep.1, hep'.1])
    subst this
    have hbb : b = b' := by rw [← hbe, ← hbe']
    subst hbb
    have hnd := uniqueVals_nodup [] (l.map (·.1))
    exact (List.getElem?_inj (List.getElem?_eq_some_iff.1 hb).1 hnd).1 (by rw [hb, hb'])

variable [FloorRing F]

/-- The parts of a run. -/
theorem obtainDs_ok {N : Num F} {NQ : Num F} {x : Input F} {available missing : List Str}
    {table : List (PGid × Int)} {size : Int} {dc : Nat → Draws F} {dl : Nat → Draws F}
    {out : List (Dict BlockId Int)} (h : obtainDs N NQ x available missing table size dc dl = .ok out)
    {l : List (Nat × PGid × Int)} (hl : DmgBatch.pgBatches available missing table size = .ok l) :
    ∃ rows : List (List (Dict BlockId Int)), rows.length = (groupBatches l).length ∧
      (∀ (j : Nat) g, (groupBatches l)[j]? = some g → ∃ r, rows[j]? = some r ∧
        runBatch N NQ x (dc j) (dl j) g = .ok r) ∧
      out = (List.range x.size).map fun i => rows.flatMap fun r => r.getD i [] := by
  unfold obtainDs at h
  rw [hl] at h
  simp only at h
  split at h
  · simp at h
  · rename_i rows hrows
    have hall := mapE_ok_iff.1 hrows
    refine ⟨rows, ?_, ?_, ?_⟩
    · rw [← hall.length_eq, List.length_zipIdx]
    · intro j g hj
      have hz : (groupBatches l).zipIdx[j]? = some (g, j) := by
        rw [List.getElem?_zipIdx, hj]
        simp
      obtain ⟨hlt, hget⟩ := List.getElem?_eq_some_iff.1 hz
      have hlt' : j < rows.length := by rw [← hall.length_eq]; exact hlt
      have := (List.forall₂_iff_get.1 hall).2 j hlt hlt'
      simp only [List.get_eq_getElem, hget] at this
      exact ⟨rows[j], List.getElem?_eq_getElem hlt', this⟩
    · cases rows with
      | nil => simp [concatBatches] at h
      | cons r rest =>
        simp only [concatBatches, Except.ok.injEq] at h
        exact h.symm

/-- Labels without dashes. -/
def Dashless (x : Input F) (table : List (PGid × Int)) : Prop :=
  (∀ e ∈ table, '-' ∉ e.1.cmp ∧ '-' ∉ e.1.loc ∧ '-' ∉ e.1.dir ∧ '-' ∉ e.1.uid) ∧
  ∀ e ∈ table, ∀ rows, x.caps e.1 = some rows → ∀ r ∈ rows, '-' ∉ r.id

theorem group_mem {available missing : List Str} {table : List (PGid × Int)} {pg : PGid} {n : Nat}
    (h : Group available missing table pg n) : ∃ e ∈ table, e.1 = pg := by
  obtain ⟨⟨k, hk⟩, _⟩ := h
  exact ⟨(pg, k), (List.mem_filter.1 hk).1, rfl⟩

theorem obtain_keys {N : Num F} {NQ : Num F} {x : Input F} {available missing : List Str}
    {table : List (PGid × Int)} {dc : Nat → Draws F} {dl : Nat → Draws F}
    {l : List (Nat × PGid × Int)}
    (hgroups : ∀ pg n, (∃ g ∈ groupBatches l, (pg, n) ∈ g) ↔ Group available missing table pg n)
    (huniq : ∀ (j j' : Nat) g g' pg n n', (groupBatches l)[j]? = some g → (groupBatches l)[j']? = some g' →
        (pg, n) ∈ g → (pg, n') ∈ g' → j = j')
    (hx : Dashless x table) {rows : List (List (Dict BlockId Int))}
    (hlen : rows.length = (groupBatches l).length)
    (hrows : ∀ (j : Nat) g, (groupBatches l)[j]? = some g → ∃ r, rows[j]? = some r ∧
        runBatch N NQ x (dc j) (dl j) g = .ok r) (i : Nat) (hi : i < x.size) :
    Dict.NoDupKeys (rows.flatMap fun r => r.getD i []) ∧
    ∀ b, b ∈ Dict.keys (rows.flatMap fun r => r.getD i []) ↔
      ∃ pg n k, Group available missing table pg n ∧ k < n ∧ b = blockId pg k := by
  have hbatch : ∀ (j : Nat) r, rows[j]? = some r → ∃ g, (groupBatches l)[j]? = some g ∧
      Dict.NoDupKeys (r.getD i []) ∧
      ∀ b, b ∈ Dict.keys (r.getD i []) ↔ ∃ pg n k, (pg, n) ∈ g ∧ k < n ∧ b = blockId pg k := by
    intro j r hj
    have hlt := (List.getElem?_eq_some_iff.1 hj).1
    have hg : (groupBatches l)[j]? = some (groupBatches l)[j] := List.getElem?_eq_getElem _
    obtain ⟨r', hr', hrun⟩ := hrows j _ hg
    rw [hj] at hr'
    obtain rfl := Option.some.inj hr'
    have htab : ∀ e ∈ (groupBatches l)[j], ∃ e' ∈ table, e'.1 = e.1 := by
      intro e he
      exact group_mem ((hgroups e.1 e.2).1 ⟨_, List.getElem_mem _, he⟩)
    obtain ⟨h1, h2⟩ := runBatch_keys (fun e he => by
        obtain ⟨e', he', hee⟩ := htab e he
        rw [← hee]
        exact hx.1 e' he') (fun e he rs hrs => by
        obtain ⟨e', he', hee⟩ := htab e he
        rw [← hee] at hrs
        exact hx.2 e' he' rs hrs) hrun
    have hi' : i < r.length := by omega
    have hget : r.getD i [] = r[i] := by
      rw [List.getD_eq_getElem?_getD, List.getElem?_eq_getElem hi']
      rfl
    rw [hget]
    exact ⟨_, hg, h2 _ (List.getElem_mem _)⟩
  have hkeys : Dict.keys (rows.flatMap fun r => r.getD i []) = rows.flatMap fun r => Dict.keys (r.getD i []) := by
    simp only [Dict.keys, List.map_flatMap]
  constructor
  · unfold Dict.NoDupKeys
    rw [hkeys, List.nodup_flatMap]
    constructor
    · intro r hr
      obtain ⟨j, hj⟩ := List.getElem?_of_mem hr
      obtain ⟨_, _, h1, _⟩ := hbatch j r hj
      exact h1
    · rw [List.pairwise_iff_getElem]
      intro j j' hj hj' hlt b hb hb'
      obtain ⟨g, g1, _, g2⟩ := hbatch j _ (List.getElem?_eq_getElem hj)
      obtain ⟨g', g1', _, g2'⟩ := hbatch j' _ (List.getElem?_eq_getElem hj')
      obtain ⟨pg, n, k, e1, e2, rfl⟩ := (g2 b).1 hb
      obtain ⟨pg', n', k', e1', e2', e3⟩ := (g2' _).1 hb'
      obtain ⟨rfl, rfl⟩ := blockId_inj e3
      have := huniq j j' g g' _ _ _ g1 g1' e1 e1'
      omega
  · intro b
    rw [hkeys, List.mem_flatMap]
    constructor
    · rintro ⟨r, hr, hb⟩
      obtain ⟨j, hj⟩ := List.getElem?_of_mem hr
      obtain ⟨g, g1, _, g2⟩ := hbatch j r hj
      obtain ⟨pg, n, k, e1, e2, rfl⟩ := (g2 b).1 hb
      exact ⟨pg, n, k, (hgroups pg n).1 ⟨g, List.mem_of_getElem? g1, e1⟩, e2, rfl⟩
    · rintro ⟨pg, n, k, e1, e2, rfl⟩
      obtain ⟨g, hg, e3⟩ := (hgroups pg n).2 e1
      obtain ⟨j, hj⟩ := List.getElem?_of_mem hg
      obtain ⟨r, hr, _⟩ := hrows j g hj
      obtain ⟨g', g1, _, g2⟩ := hbatch j r hr
      rw [hj] at g1
      obtain rfl := Option.some.inj g1
      exact ⟨r, List.mem_of_getElem? hr, (g2 _).2 ⟨pg, n, k, e3, e2, rfl⟩⟩

/-- C89: the sample has a row for each realization, and each row has exactly one damage state for
each block of each performance group that has damage parameters and is not missing. -/
theorem C89_one_state_per_block (N : Num F) (NQ : Num F) (x : Input F) (available missing : List Str)
    (table : List (PGid × Int)) (size : Int) (dc : Nat → Draws F) (dl : Nat → Draws F)
    (hz : 0 ≤ size) (hpos : ∀ e ∈ table, 0 < e.2) (hx : Dashless x table)
    (out : List (Dict BlockId Int)) (h : obtainDs N NQ x available missing table size dc dl = .ok out) :
    out.length = x.size ∧ ∀ row ∈ out, row.keys.Nodup ∧
      ∀ b, b ∈ row.keys ↔ ∃ pg n k, Group available missing table pg n ∧ k < n ∧ b = blockId pg k := by
  obtain ⟨l, hl, hgroups, huniq⟩ := groups_spec (available := available) (missing := missing) hz hpos
  obtain ⟨rows, h1, h2, rfl⟩ := obtainDs_ok h hl
  refine ⟨by simp, ?_⟩
  intro row hrow
  obtain ⟨i, hi, rfl⟩ := List.mem_map.1 hrow
  exact obtain_keys hgroups huniq hx h1 h2 i (List.mem_range.1 hi)

/-- C89: each block has uniform numbers of its own, drawn for no other block (which ones does not
depend on their values), and its damage state
in a realization is decided by the capacities these numbers give for all its limit states and by the
demand: zero if no limit state is exceeded, otherwise a damage state of the highest one that is.  If
that limit state has several damage states, the one that occurs is picked by other uniform numbers,
drawn for this block and limit state only, with the weights of the limit state.
Missing: components with ten or more limit states or with a gap between the defined ones, where the
claim is false (C37, C39). -/
theorem C89_highest_exceeded_partial [IsStrictOrderedRing F] (N : Num F) (NQ : Num F) (x : Input F)
    (available missing : List Str) (table : List (PGid × Int)) (size : Int)
    (hz : 0 ≤ size) (hpos : ∀ e ∈ table, 0 < e.2) (hx : Dashless x table)
    (hcomp : ∀ e ∈ table, ∀ rows, x.caps e.1 = some rows → Component rows) :
    ∃ (slot : BlockId → Nat × Nat) (lslot : BlockId → Str → Nat × Nat),
      ∀ dc dl : Nat → Draws F, (∀ j, GoodDraws x.size (dc j).perm (dc j).jitter) →
      (∀ j, GoodDraws x.size (dl j).perm (dl j).jitter) →
      ∀ out : List (Dict BlockId Int), obtainDs N NQ x available missing table size dc dl = .ok out →
      (∀ pg n k pg' n' k', Group available missing table pg n → k < n →
        Group available missing table pg' n' → k' < n' →
        slot (blockId pg k) = slot (blockId pg' k') → blockId pg k = blockId pg' k') ∧
      (∀ pg n k pg' n' k', Group available missing table pg n → k < n →
        Group available missing table pg' n' → k' < n' →
        ∀ rows rows', x.caps pg = some rows → x.caps pg' = some rows' →
        ∀ r ∈ rows, ∀ r' ∈ rows', r.dist ≠ none → r'.dist ≠ none →
        lslot (blockId pg k) r.id = lslot (blockId pg' k') r'.id →
        blockId pg k = blockId pg' k' ∧ r.id = r'.id) ∧
      ∀ pg n k, Group available missing table pg n → k < n → ∃ rows u, x.caps pg = some rows ∧
        drawRow x.method x.size ((dc (slot (blockId pg k)).1).perm (slot (blockId pg k)).2)
          ((dc (slot (blockId pg k)).1).jitter (slot (blockId pg k)).2) = .ok u ∧
        ∀ i < x.size, ∃ row v, out[i]? = some row ∧ row.get? (blockId pg k) = some v ∧
          Decided N x rows u pg k i v ∧
          ∀ r ∈ rows, Exceeded N x u pg k i r →
            (∀ a ∈ rows, numOf r.id < numOf a.id → ¬ Exceeded N x u pg k i a) →
            ∃ w, drawRow x.method x.size
                ((dl (lslot (blockId pg k) r.id).1).perm (lslot (blockId pg k) r.id).2)
                ((dl (lslot (blockId pg k) r.id).1).jitter (lslot (blockId pg k) r.id).2) = .ok w ∧
              StateDrawn rows w r i v := by
  obtain ⟨l, hl, hgroups, huniq⟩ := groups_spec (available := available) (missing := missing) hz hpos
  -- the batch of a block
  have hwhere : ∀ b : BlockId, ∃ j : Nat, ∀ pg n k, Group available missing table pg n → k < n →
      b = blockId pg k → ∃ g, (groupBatches l)[j]? = some g ∧ (pg, n) ∈ g := by
    intro b
    by_cases hb : ∃ pg n k, Group available missing table pg n ∧ k < n ∧ b = blockId pg k
    · obtain ⟨pg, n, k, e1, e2, rfl⟩ := hb
      obtain ⟨g, hg, hpg⟩ := (hgroups pg n).2 e1
      obtain ⟨j, hj⟩ := List.getElem?_of_mem hg
      refine ⟨j, ?_⟩
      intro pg' n' k' e1' e2' e3
      obtain ⟨rfl, rfl⟩ := blockId_inj e3
      have : n' = n := by
        have := e1.2; have := e1'.2; omega
      subst this
      exact ⟨g, hj, hpg⟩
    · exact ⟨0, fun pg n k e1 e2 e3 => absurd ⟨pg, n, k, e1, e2, e3⟩ hb⟩
  choose jb hjb using hwhere
  refine ⟨fun b => (jb b, capSlot x ((groupBatches l)[jb b]?.getD []) b),
    fun b id => (jb b, lsdsSlot x ((groupBatches l)[jb b]?.getD []) b id), ?_⟩
  intro dc dl hdc hdl out h
  obtain ⟨rows, h1, h2, rfl⟩ := obtainDs_ok h hl
  have hkeys := obtain_keys hgroups huniq hx h1 h2
  have hsl : ∀ (j : Nat) g, (groupBatches l)[j]? = some g → ∃ r, rows[j]? = some r ∧ r.length = x.size ∧
      BatchStates N x (dc j) (dl j) g r (capSlot x ((groupBatches l)[j]?.getD []))
        (lsdsSlot x ((groupBatches l)[j]?.getD [])) := by
    intro j g hg
    obtain ⟨r, hr, hrun⟩ := h2 j g hg
    have htab : ∀ e ∈ g, ∃ e' ∈ table, e'.1 = e.1 := by
      intro e he
      exact group_mem ((hgroups e.1 e.2).1 ⟨_, List.mem_of_getElem? hg, he⟩)
    have hnd : NoDash g := fun e he => by
      obtain ⟨e', he', hee⟩ := htab e he
      rw [← hee]
      exact hx.1 e' he'
    refine ⟨r, hr, (runBatch_keys hnd (fun e he rs hrs => by
        obtain ⟨e', he', hee⟩ := htab e he
        rw [← hee] at hrs
        exact hx.2 e' he' rs hrs) hrun).1, ?_⟩
    rw [hg, Option.getD_some]
    exact runBatch_states hnd (fun e he rs hrs => by
        obtain ⟨e', he', hee⟩ := htab e he
        rw [← hee] at hrs
        exact hcomp e' he' rs hrs) (hdc j) (hdl j) hrun
  refine ⟨?_, ?_, ?_⟩
  · intro pg n k pg' n' k' g1 g2 g3 g4 he
    simp only [Prod.mk.injEq] at he
    obtain ⟨g, hg, hpg⟩ := hjb (blockId pg k) pg n k g1 g2 rfl
    obtain ⟨g', hg', hpg'⟩ := hjb (blockId pg' k') pg' n' k' g3 g4 rfl
    rw [← he.1] at hg'
    rw [hg] at hg'
    obtain rfl := Option.some.inj hg'
    obtain ⟨r, _, _, e3, _⟩ := hsl _ g hg
    exact e3 pg n k pg' n' k' hpg g2 hpg' g4 (by rw [he.2, ← he.1])
  · intro pg n k pg' n' k' g1 g2 g3 g4 rs rs' c1 c2 r hr r' hr' hd hd' he
    simp only [Prod.mk.injEq] at he
    obtain ⟨g, hg, hpg⟩ := hjb (blockId pg k) pg n k g1 g2 rfl
    obtain ⟨g', hg', hpg'⟩ := hjb (blockId pg' k') pg' n' k' g3 g4 rfl
    rw [← he.1] at hg'
    rw [hg] at hg'
    obtain rfl := Option.some.inj hg'
    obtain ⟨_, _, _, _, e3, _⟩ := hsl _ g hg
    exact e3 pg n k pg' n' k' hpg g2 hpg' g4 rs rs' c1 c2 r hr r' hr' hd hd' (by rw [he.2, ← he.1])
  · intro pg n k g1 g2
    obtain ⟨g, hg, hpg⟩ := hjb (blockId pg k) pg n k g1 g2 rfl
    obtain ⟨r, hr, hrl, _, _, e4⟩ := hsl _ g hg
    obtain ⟨rs, u, e5, e6, e7⟩ := e4 pg n k hpg g2
    refine ⟨rs, u, e5, e6, ?_⟩
    intro i hi
    obtain ⟨row, v, e8, e9, e10, e11⟩ := e7 i hi
    refine ⟨_, v, by rw [List.getElem?_map, List.getElem?_range hi]; rfl, ?_, e10, e11⟩
    refine (Dict.get?_iff_mem (hkeys i hi).1).2 ?_
    refine List.mem_flatMap.2 ⟨r, List.mem_of_getElem? hr, ?_⟩
    rw [List.getD_eq_getElem?_getD, e8]
    exact Dict.mem_of_get? e9

/-! ### Fragility -/

/-- The capacity is below the demand `q`. -/
def Below (c : Ext F) (q : F) : Prop := c = .negInf ∨ ∃ a, c = .fin a ∧ a < q

/-- `p` is the value of the fragility curve of a limit state at the demand `q`: the capacity is
below `q` for the uniform numbers below `p`, and only for these. -/
def Fragility (N : Num F) (n : Nat) (r : LSCap F) (b : Nat) (q p : F) : Prop :=
  0 ≤ p ∧ p ≤ 1 ∧ ∀ u : List F, u.length = n → (∀ y ∈ u, 0 ≤ y ∧ y < 1) → ∀ i y, u[i]? = some y →
    ((∃ c, CapacityAt N n u r b i c ∧ Below c q) ↔ y < p)

/-- The damage state of a block is above `s`. -/
def stateAbove (b : BlockId) (s : Nat) (row : Dict BlockId Int) : Bool :=
  (row.get? b).any fun v => decide ((s : Int) < v)

theorem countP_forall₂ {α β : Type} {f : α → Bool} {g : β → Bool} {l : List α} {l' : List β}
    (h : List.Forall₂ (fun a b => f a = g b) l l') : l.countP f = l'.countP g := by
  induction h with
  | nil => rfl
  | cons hab _ ih => simp [List.countP_cons, hab, ih]

theorem statesBelow_le {rows : List (LSCap F)} {r a : LSCap F} (h : numOf r.id ≤ numOf a.id) :
    statesBelow rows r ≤ statesBelow rows a := by
  unfold statesBelow
  refine List.Sublist.sum_le_sum ?_ (fun _ _ => Nat.zero_le _)
  refine List.Sublist.map _ ?_
  refine List.monotone_filter_right _ ?_
  intro c hc
  simp only [decide_eq_true_eq] at hc ⊢
  exact ⟨hc.1, by omega⟩

theorem statesBelow_add {rows : List (LSCap F)} {r a : LSCap F} (hr : r ∈ rows) (hd : r.dist ≠ none)
    (h : numOf r.id < numOf a.id) : statesBelow rows r + states r ≤ statesBelow rows a := by
  unfold statesBelow
  induction rows with
  | nil => simp at hr
  | cons c l ih =>
    rw [List.filter_cons, List.filter_cons]
    have hsub : ((l.filter fun a => decide (a.dist.isSome = true ∧ numOf a.id < numOf r.id)).map states).sum ≤
        ((l.filter fun c => decide (c.dist.isSome = true ∧ numOf c.id < numOf a.id)).map states).sum :=
      statesBelow_le (rows := l) h.le
    rcases List.mem_cons.1 hr with rfl | hr
    · have h1 : decide (r.dist.isSome = true ∧ numOf r.id < numOf r.id) = false := by simp
      have h2 : decide (r.dist.isSome = true ∧ numOf r.id < numOf a.id) = true := by
        simp [Option.isSome_iff_ne_none, hd, h]
      rw [h1, h2]
      simp only [Bool.false_eq_true, if_false, if_true, List.map_cons, List.sum_cons]
      omega
    · have := ih hr
      by_cases h1 : c.dist.isSome = true ∧ numOf c.id < numOf r.id
      · have h2 : c.dist.isSome = true ∧ numOf c.id < numOf a.id := ⟨h1.1, by omega⟩
        simp only [h1, h2, and_self, decide_true, if_true, List.map_cons, List.sum_cons]
        omega
      · simp only [h1, decide_false, Bool.false_eq_true, if_false]
        split
        · simp only [List.map_cons, List.sum_cons]
          omega
        · exact this

theorem exists_highest (P : LSCap F → Prop) (rows : List (LSCap F)) {r : LSCap F} (hr : r ∈ rows) (hp : P r) :
    ∃ a ∈ rows, P a ∧ numOf r.id ≤ numOf a.id ∧ ∀ c ∈ rows, numOf a.id < numOf c.id → ¬ P c := by
  classical
  induction h : (rows.filter fun c => numOf r.id < numOf c.id ∧ P c).length using Nat.strong_induction_on
    generalizing r with
  | _ m ih =>
    by_cases hex : ∃ c ∈ rows, numOf r.id < numOf c.id ∧ P c
    · obtain ⟨c, hc, hlt, hpc⟩ := hex
      have hsub : (rows.filter fun e => numOf c.id < numOf e.id ∧ P e).Sublist
          (rows.filter fun e => numOf r.id < numOf e.id ∧ P e) := by
        refine List.monotone_filter_right _ ?_
        intro e he
        simp only [decide_eq_true_eq] at he ⊢
        exact ⟨by omega, he.2⟩
      have hlt' : (rows.filter fun e => numOf c.id < numOf e.id ∧ P e).length < m := by
        rw [← h]
        refine lt_of_le_of_ne hsub.length_le ?_
        intro heq
        have := hsub.eq_of_length heq
        have hmem : c ∈ rows.filter fun e => numOf r.id < numOf e.id ∧ P e :=
          List.mem_filter.2 ⟨hc, by simp [hlt, hpc]⟩
        rw [← this] at hmem
        simp at hmem
      obtain ⟨a, h1, h2, h3, h4⟩ := ih _ hlt' hc hpc rfl
      exact ⟨a, h1, h2, by omega, h4⟩
    · exact ⟨r, hr, hp, le_refl _, fun c hc hlt hpc => hex ⟨c, hc, hlt, hpc⟩⟩

theorem DemandIs.unique {x : Input F} {pg : PGid} {i : Nat} {q q' : ℚ} (h : DemandIs x pg i q)
    (h' : DemandIs x pg i q') : q = q' := by
  obtain ⟨key, vals, h1, h2, h3⟩ := h
  obtain ⟨key', vals', h1', h2', h3'⟩ := h'
  rw [h1] at h1'
  obtain rfl := Except.ok.inj h1'
  rw [h2] at h2'
  obtain rfl := Except.ok.inj h2'
  rw [h3] at h3'
  simpa using h3'

/-- The damage state is one of a limit state or of a higher one exactly if one of these is
exceeded. -/
theorem Decided.above_iff {N : Num F} {x : Input F} {rows : List (LSCap F)} {u : List F} {pg : PGid}
    {b i : Nat} {v : Int} (h : Decided N x rows u pg b i v) (r : LSCap F) :
    (statesBelow rows r : Int) < v ↔
      ∃ a ∈ rows, numOf r.id ≤ numOf a.id ∧ Exceeded N x u pg b i a := by
  constructor
  · intro hv
    by_contra hno
    by_cases hex : ∃ a ∈ rows, Exceeded N x u pg b i a
    · obtain ⟨a, ha, hea⟩ := hex
      obtain ⟨c, hc, hec, _, hmax⟩ := exists_highest (Exceeded N x u pg b i) rows ha hea
      have hlt : numOf c.id < numOf r.id := by
        by_contra hge
        exact hno ⟨c, hc, by omega, hec⟩
      have h2 := (h.2 c hc hec hmax).2
      have hd : c.dist ≠ none := by
        obtain ⟨_, _, ⟨d, _, _, hd, _⟩, _⟩ := hec
        rw [hd]
        simp
      have := statesBelow_add hc hd hlt
      omega
    · have := h.1 fun a ha he => hex ⟨a, ha, he⟩
      omega
  · rintro ⟨a, ha, hle, hea⟩
    obtain ⟨c, hc, hec, hac, hmax⟩ := exists_highest (Exceeded N x u pg b i) rows ha hea
    have h2 := (h.2 c hc hec hmax).1
    have := statesBelow_le (rows := rows) (hle.trans hac)
    omega

/-- C89: with Latin hypercube sampling and the same demand in every realization, the damage states
of a block follow the fragility curves: the share of realizations with a damage state of limit
state `r` or a higher one is the largest value of their fragility curves at the demand, up to the
rounding to whole realizations. -/
theorem C89_fragility [IsStrictOrderedRing F] (N : Num F) (NQ : Num F) (x : Input F)
    (available missing : List Str) (table : List (PGid × Int)) (size : Int) (dc : Nat → Draws F)
    (dl : Nat → Draws F) (hz : 0 ≤ size) (hpos : ∀ e ∈ table, 0 < e.2) (hx : Dashless x table)
    (hcomp : ∀ e ∈ table, ∀ rows, x.caps e.1 = some rows → Component rows)
    (hdc : ∀ j, GoodDraws x.size (dc j).perm (dc j).jitter)
    (hdl : ∀ j, GoodDraws x.size (dl j).perm (dl j).jitter)
    (hm : x.method = .lhs ∨ x.method = .lhsMidpoint) (hn : 0 < x.size)
    (out : List (Dict BlockId Int)) (h : obtainDs N NQ x available missing table size dc dl = .ok out)
    (pg : PGid) (n k : Nat) (hg : Group available missing table pg n) (hk : k < n)
    (q : ℚ) (hq : ∀ i < x.size, DemandIs x pg i q)
    (rows : List (LSCap F)) (hrows : x.caps pg = some rows) (curve : LSCap F → F)
    (hcurve : ∀ r ∈ rows, r.dist ≠ none → Fragility N x.size r k q (curve r))
    (r : LSCap F) (p : F)
    (hp : IsGreatest {y | ∃ a ∈ rows, a.dist ≠ none ∧ numOf r.id ≤ numOf a.id ∧ y = curve a} p) :
    ⌊x.size * p⌋₊ ≤ out.countP (stateAbove (blockId pg k) (statesBelow rows r)) ∧
      out.countP (stateAbove (blockId pg k) (statesBelow rows r)) ≤ ⌈x.size * p⌉₊ := by
  obtain ⟨hlen, _⟩ := C89_one_state_per_block N NQ x available missing table size dc dl hz hpos hx out h
  obtain ⟨slot, _, hslots⟩ := C89_highest_exceeded_partial N NQ x available missing table size hz hpos hx hcomp
  obtain ⟨_, _, hst⟩ := hslots dc dl hdc hdl out h
  obtain ⟨rows', u, e1, e2, e3⟩ := hst pg n k hg hk
  rw [hrows] at e1
  obtain rfl := Option.some.inj e1
  obtain ⟨d1, d2, d3⟩ := hdc (slot (blockId pg k)).1 (slot (blockId pg k)).2
  have hstrat := (drawRow_stratified hn hm d1 d2 d3 e2).1
  have hunit := DemandGen.stratified_nonneg hn hstrat
  obtain ⟨⟨a0, ha0, hd0, hle0, hpa0⟩, hub⟩ := hp
  obtain ⟨hp0, hp1, _⟩ := hcurve a0 ha0 hd0
  rw [← hpa0] at hp0 hp1
  have hcount : out.countP (stateAbove (blockId pg k) (statesBelow rows r)) =
      u.countP fun y => decide (y < p) := by
    refine countP_forall₂ (List.forall₂_iff_get.2 ⟨by rw [hlen, hstrat.1], ?_⟩)
    intro i hi hi'
    obtain ⟨row, v, g1, g2, g3, _⟩ := e3 i (by rw [← hlen]; exact hi)
    have hrow : out.get ⟨i, hi⟩ = row := by
      rw [List.get_eq_getElem, ← Option.some_inj, ← List.getElem?_eq_getElem hi, g1]
    have hy : u[i]? = some (u.get ⟨i, hi'⟩) := List.getElem?_eq_getElem hi'
    rw [hrow]
    unfold stateAbove
    rw [g2]
    simp only [Option.any_some]
    rw [decide_eq_decide, g3.above_iff r]
    constructor
    · rintro ⟨a, ha, hle, c, q', hc, hq', hb⟩
      have hda : a.dist ≠ none := by
        obtain ⟨d, _, _, hd, _⟩ := hc
        rw [hd]
        simp
      obtain rfl := hq'.unique (hq i (by rw [← hlen]; exact hi))
      have := ((hcurve a ha hda).2.2 u hstrat.1 hunit i _ hy).1 ⟨c, hc, hb⟩
      exact lt_of_lt_of_le this (hub ⟨a, ha, hda, hle, rfl⟩)
    · intro hlt
      rw [hpa0] at hlt
      obtain ⟨c, hc, hb⟩ := ((hcurve a0 ha0 hd0).2.2 u hstrat.1 hunit i _ hy).2 hlt
      exact ⟨a0, ha0, hle0, c, q, hc, hq i (by rw [← hlen]; exact hi), hb⟩
  rw [hcount]
  exact stratified_count hn hstrat hp0 hp1

theorem transformRows_const {m sd : F} {g : F → F → F → Except PyErr (Ext F)} {f : F → Ext F}
    (h : ∀ y, g m sd y = .ok (f y)) (u : List F) : transformRows (.const m sd) g u = .ok (u.map f) := by
  unfold transformRows Par.expand
  simp only
  induction u with
  | nil => rfl
  | cons y u ih =>
    simp only [List.length_cons, List.replicate_succ, List.zip_cons_cons, mapE, h, ih, List.map_cons]

theorem fragility_of {N : Num F} {n : Nat} {r : LSCap F} {kd : RVKind F} (hd : r.dist = some (.dist kd))
    (hu : kd.utility = false) {f : F → Ext F} (hf : ∀ u, kd.inverse N u = .ok (u.map f, u)) {q p : F}
    (hp0 : 0 ≤ p) (hp1 : p ≤ 1) (h : ∀ y, 0 ≤ y → y < 1 → (Below (f y) q ↔ y < p)) (b : Nat) :
    Fragility N n r b q p := by
  refine ⟨hp0, hp1, ?_⟩
  intro u _ hu01 i y hy
  obtain ⟨h0, h1⟩ := hu01 y (List.mem_of_getElem? hy)
  rw [← h y h0 h1]
  constructor
  · rintro ⟨c, ⟨d, k, s, e1, e2, e3, e4⟩, hb⟩
    rw [hd] at e1
    obtain rfl := Option.some.inj e1
    simp only [kindAt, Except.ok.injEq] at e2
    subst e2
    rcases e3 with ⟨_, e3⟩ | ⟨e3, _⟩
    · rw [hf u] at e3
      simp only [Except.ok.injEq, Prod.mk.injEq, and_true] at e3
      subst e3
      rw [List.getElem?_map, hy] at e4
      obtain rfl := Option.some.inj e4
      exact hb
    · rw [hu] at e3
      simp at e3
  · intro hb
    exact ⟨f y, ⟨.dist kd, kd, u.map f, hd, rfl, Or.inl ⟨hu, hf u⟩, by rw [List.getElem?_map, hy]; rfl⟩, hb⟩

theorem below_normPpf [IsStrictOrderedRing F] (D : StdDist F) {mu sig : F} (hs : 0 < sig) (q y : F)
    (h0 : 0 ≤ y) (h1 : y < 1) :
    Below (normPpf D (some y) (.fin mu) sig) q ↔ y < D.cdf ((q - mu) / sig) := by
  rw [normPpf_eq D hs h0 h1.le]
  by_cases hy : y = 0
  · subst hy
    simp [Below, D.cdf_pos]
  · have hy0 : 0 < y := lt_of_le_of_ne h0 (Ne.symm hy)
    rw [if_neg hy, if_pos h1]
    simp only [Below, reduceCtorEq, false_or, Ext.fin.injEq, exists_eq_left']
    have hz : mu + sig * D.ppf y < q ↔ D.ppf y < (q - mu) / sig := by
      rw [lt_div_iff₀ hs]
      constructor <;> intro h <;> linarith
    rw [hz]
    conv_rhs => rw [← D.cdf_ppf hy0 h1]
    constructor
    · exact fun h => D.cdf_strictMono h
    · intro h
      by_contra hno
      rcases (not_lt.1 hno).eq_or_lt with e | e
      · rw [e] at h
        exact absurd h (lt_irrefl _)
      · exact absurd h (not_lt.2 (D.cdf_strictMono e).le)

/-- C89: the fragility curve of a limit state with normally distributed capacity. -/
theorem C89_curve_normal [IsStrictOrderedRing F] (N : Num F) (n : Nat) (r : LSCap F) (mu sig : F)
    (hr : r.dist = some (.dist (.normal (.const mu sig) none none))) (hs : 0 < sig) (b : Nat) (q : F) :
    Fragility N n r b q (N.D.cdf ((q - mu) / sig)) := by
  refine fragility_of hr rfl (f := fun y => normPpf N.D (some y) (.fin mu) sig) ?_ (N.D.cdf_pos _).le
    (N.D.cdf_lt_one _).le (fun y h0 h1 => below_normPpf N.D hs q y h0 h1) b
  intro u
  simp only [RVKind.inverse]
  rw [transformRows_const (f := fun y => normPpf N.D (some y) (.fin mu) sig)]
  · rfl
  · intro y
    rfl

/-- C89: the fragility curve of a limit state with lognormally distributed capacity: the
distribution function of the logarithm of the demand over the median, and zero if the demand is not
positive. -/
theorem C89_curve_lognormal [IsStrictOrderedRing F] (N : Num F) (n : Nat) (r : LSCap F) (theta beta : F)
    (hr : r.dist = some (.dist (.lognormal (.const theta beta) none none))) (ht : 0 < theta)
    (hb : 0 < beta) (b : Nat) (q : F) :
    Fragility N n r b q (if 0 < q then N.D.cdf ((N.E.log q - N.E.log theta) / beta) else 0) := by
  refine fragility_of hr rfl (f := fun y => (normPpf N.D (some y) (.fin (N.E.log theta)) beta).exp N.E)
    ?_ ?_ ?_ ?_ b
  · intro u
    simp only [RVKind.inverse]
    rw [transformRows_const (f := fun y => (normPpf N.D (some y) (.fin (N.E.log theta)) beta).exp N.E)]
    · rfl
    · intro y
      unfold lognormalInverse
      simp [Ext.log, ht, truncated]
  · split
    · exact (N.D.cdf_pos _).le
    · exact le_refl _
  · split
    · exact (N.D.cdf_lt_one _).le
    · exact zero_le_one
  · intro y h0 h1
    by_cases hq : 0 < q
    · rw [if_pos hq, ← below_normPpf N.D hb (N.E.log q) y h0 h1]
      have hne : normPpf N.D (some y) (.fin (N.E.log theta)) beta ≠ .posInf := by
        rw [normPpf_eq N.D hb h0 h1.le, if_pos h1]
        split <;> simp
      cases hc : normPpf N.D (some y) (.fin (N.E.log theta)) beta with
      | negInf => simp [Ext.exp, Below, hq]
      | posInf => exact absurd hc hne
      | nan => exact absurd hc (normPpf_ne_nan N.D hb h0 h1.le)
      | fin c =>
        simp only [Ext.exp, Below, reduceCtorEq, false_or, Ext.fin.injEq, exists_eq_left']
        conv_lhs => rw [← N.E.exp_log hq]
        constructor
        · intro h
          by_contra hno
          rcases (not_lt.1 hno).eq_or_lt with e | e
          · rw [e] at h
            exact absurd h (lt_irrefl _)
          · exact absurd h (not_lt.2 (N.E.exp_strictMono e).le)
        · exact fun h => N.E.exp_strictMono h
    · rw [if_neg hq]
      constructor
      · intro hbel
        exfalso
        cases hc : normPpf N.D (some y) (.fin (N.E.log theta)) beta with
        | negInf => rw [hc] at hbel; simp [Ext.exp, Below, hq] at hbel
        | posInf => rw [hc] at hbel; simp [Ext.exp, Below] at hbel
        | nan => rw [hc] at hbel; simp [Ext.exp, Below] at hbel
        | fin c =>
          rw [hc] at hbel
          simp only [Ext.exp, Below, reduceCtorEq, false_or, Ext.fin.injEq, exists_eq_left'] at hbel
          exact hq (lt_trans (N.E.exp_pos c) hbel)
      · intro h
        exact absurd h (not_lt.2 h0)

/-- C89: the fragility curve of a limit state with a fixed capacity is a step. -/
theorem C89_curve_fixed [IsStrictOrderedRing F] (N : Num F) (n : Nat) (r : LSCap F) (c : F)
    (hr : r.dist = some (.dist (.deterministic [c]))) (b : Nat) (q : F) :
    Fragility N n r b q (if c < q then 1 else 0) := by
  refine ⟨by split <;> simp, by split <;> simp, ?_⟩
  intro u hl hu01 i y hy
  obtain ⟨h0, h1⟩ := hu01 y (List.mem_of_getElem? hy)
  have hi : i < n := by
    rw [← hl]
    exact (List.getElem?_eq_some_iff.1 hy).1
  have hgen : (RVKind.deterministic [c]).generate n = .ok (List.replicate n (.fin c)) := by
    simp [RVKind.generate, deterministicInverse, Except.map]
  have : (∃ e, CapacityAt N n u r b i e ∧ Below e q) ↔ c < q := by
    constructor
    · rintro ⟨e, ⟨d, k, s, e1, e2, e3, e4⟩, hb⟩
      rw [hr] at e1
      obtain rfl := Option.some.inj e1
      simp only [kindAt, Except.ok.injEq] at e2
      subst e2
      rcases e3 with ⟨e3, _⟩ | ⟨_, e3⟩
      · simp [RVKind.utility] at e3
      · rw [hgen] at e3
        obtain rfl := Except.ok.inj e3
        rw [List.getElem?_replicate, if_pos hi] at e4
        obtain rfl := Option.some.inj e4
        simpa [Below] using hb
    · intro hc
      exact ⟨.fin c, ⟨_, _, _, hr, rfl, Or.inr ⟨rfl, hgen⟩, by rw [List.getElem?_replicate, if_pos hi]⟩,
        Or.inr ⟨c, rfl, hc⟩⟩
  rw [this]
  by_cases hc : c < q
  · simp [hc, h1]
  · simp [hc, h0]

/-- `p` is the value at `q` of the function through the points: zero before the first one, one from
the last one on, on the straight line between neighbours otherwise. -/
def Interpolated (pts : List (F × F)) (q p : F) : Prop :=
  (∃ a, pts.head? = some a ∧ q < a.1 ∧ p = 0) ∨ (∃ z, pts.getLast? = some z ∧ z.1 ≤ q ∧ p = 1) ∨
    ∃ i a b, pts[i]? = some a ∧ pts[i + 1]? = some b ∧ a.1 ≤ q ∧ q < b.1 ∧
      p = a.2 + (b.2 - a.2) / (b.1 - a.1) * (q - a.1)

/-- A distribution function: from zero to one, both coordinates increasing (by more than the
smallest difference that the code tells apart). -/
def Rising (pts : List (F × F)) : Prop :=
  (∃ p ∈ pts.head?, p.2 = 0) ∧ (∃ p ∈ pts.getLast?, p.2 = 1) ∧
    ∀ (i : Nat) (p q : F × F), pts[i]? = some p → pts[i + 1]? = some q →
      1 / 10 ^ 8 < q.1 - p.1 ∧ 1 / 10 ^ 8 < q.2 - p.2

theorem interpFrom_seg [IsStrictOrderedRing F] : ∀ (pts : List (F × F)), XAsc pts →
    ∀ (i : Nat) (a b : F × F) (q : F), pts[i]? = some a → pts[i + 1]? = some b → a.1 ≤ q → q < b.1 →
      interpFrom pts q = a.2 + (b.2 - a.2) / (b.1 - a.1) * (q - a.1) := by
  intro pts
  induction pts with
  | nil => intro _ i a b q h; simp at h
  | cons p pts ih =>
    intro hx i a b q ha hb h1 h2
    cases pts with
    | nil => simp at hb
    | cons p' pts =>
      obtain ⟨x0, y0⟩ := p
      obtain ⟨x1, y1⟩ := p'
      cases i with
      | zero =>
        simp only [List.getElem?_cons_zero, Option.some.injEq, zero_add, List.getElem?_cons_succ] at ha hb
        subst ha hb
        simp only at h1 h2
        simp [interpFrom, h2]
      | succ i =>
        simp only [List.getElem?_cons_succ] at ha hb
        have hx' : XAsc ((x1, y1) :: pts) := by
          simp only [XAsc, List.map_cons, List.pairwise_cons] at hx ⊢
          exact hx.2
        have hle : x1 ≤ a.1 := by
          cases i with
          | zero =>
            simp only [List.getElem?_cons_zero, Option.some.injEq] at ha
            subst ha
            exact le_refl _
          | succ i =>
            simp only [List.getElem?_cons_succ] at ha
            simp only [XAsc, List.map_cons, List.pairwise_cons] at hx'
            exact (hx'.1 _ (List.mem_map_of_mem (List.mem_of_getElem? ha))).le
        simp only [interpFrom]
        rw [if_neg (not_lt.2 (hle.trans h1))]
        exact ih hx' i a b q ha hb h1 h2

theorem cdf_interpolated [IsStrictOrderedRing F] {pts : List (F × F)}
    (h : multilinearInit pts none none = .ok pts) {q p : F} (hi : Interpolated pts q p) :
    p = multilinearCdf pts q := by
  obtain ⟨hx, hy, hne, hf, hl⟩ := multilinear_ok h
  obtain ⟨z, hz⟩ : ∃ z, pts.getLast? = some z := ⟨_, List.getLast?_eq_some_getLast hne⟩
  obtain ⟨a, t, rfl⟩ := List.exists_cons_of_ne_nil hne
  unfold multilinearCdf
  rw [hz]
  simp only [List.head?_cons]
  have hfirst : ∀ c ∈ a :: t, a.1 ≤ c.1 := by
    intro c hc
    rcases List.mem_cons.1 hc with rfl | hc
    · exact le_refl _
    · simp only [XAsc, List.map_cons, List.pairwise_cons] at hx
      exact (hx.1 _ (List.mem_map_of_mem hc)).le
  have hstep : ∀ (i : Nat) (c : F × F), (a :: t)[i]? = some c → c.1 ≤ z.1 := by
    intro i c hc
    have hlast : (a :: t)[(a :: t).length - 1]? = some z := by
      rw [← List.getLast?_eq_getElem?]
      exact hz
    obtain ⟨hi1, hi2⟩ := List.getElem?_eq_some_iff.1 hc
    obtain ⟨hj1, hj2⟩ := List.getElem?_eq_some_iff.1 hlast
    rcases Nat.lt_or_ge i ((a :: t).length - 1) with hlt | hge
    · have := List.pairwise_iff_getElem.1 hx i ((a :: t).length - 1) (by simpa using hi1)
        (by simpa using hj1) hlt
      simp only [List.getElem_map, hi2, hj2] at this
      exact this.le
    · have : i = (a :: t).length - 1 := by omega
      subst this
      rw [hc] at hlast
      obtain rfl := Option.some.inj hlast
      exact le_refl _
  rcases hi with ⟨c, hc, hlt, rfl⟩ | ⟨c, hc, hle, rfl⟩ | ⟨i, c, d, hc, hd, h1, h2, rfl⟩
  · simp only [List.head?_cons, Option.some.injEq] at hc
    subst hc
    rw [if_pos hlt]
  · rw [hz] at hc
    obtain rfl := Option.some.inj hc
    have haq : a.1 ≤ q := (hstep 0 a rfl).trans hle
    rw [if_neg (not_lt.2 haq)]
    rcases hle.lt_or_eq with hlt | heq
    · rw [if_pos hlt]
    · rw [if_neg (by rw [heq]; exact lt_irrefl _)]
      obtain ⟨x0, y0⟩ := a
      simp only [interp]
      rw [if_neg (not_lt.2 haq), interpFrom_last _ _ _ hx (by intro w hw; rw [hz] at hw; cases hw; exact hle)
        z (by rw [hz]; rfl)]
      exact (hl z (by rw [hz]; rfl)).symm
  · have haq : a.1 ≤ q := (hfirst c (List.mem_of_getElem? hc)).trans h1
    have hqz : q < z.1 := lt_of_lt_of_le h2 (hstep _ d hd)
    rw [if_neg (not_lt.2 haq), if_neg (not_lt.2 hqz.le)]
    obtain ⟨x0, y0⟩ := a
    simp only [interp]
    rw [if_neg (not_lt.2 haq)]
    exact (interpFrom_seg _ hx i c d q hc hd h1 h2).symm

theorem below_multilinear [IsStrictOrderedRing F] {pts : List (F × F)}
    (h : multilinearInit pts none none = .ok pts) (q y : F) (h0 : 0 ≤ y) (h1 : y < 1) :
    (0 ≤ multilinearCdf pts q ∧ multilinearCdf pts q ≤ 1) ∧
      (multilinearInverse pts y < q ↔ y < multilinearCdf pts q) := by
  obtain ⟨hx, hy, hne, hf, hl⟩ := multilinear_ok h
  obtain ⟨z, hz⟩ : ∃ z, pts.getLast? = some z := ⟨_, List.getLast?_eq_some_getLast hne⟩
  obtain ⟨a, ha⟩ : ∃ a, pts.head? = some a := by
    cases pts with
    | nil => exact absurd rfl hne
    | cons p r => exact ⟨p, rfl⟩
  obtain ⟨r1, r2⟩ := C23_inverse_range h y a z ha hz
  by_cases hqa : q < a.1
  · have : multilinearCdf pts q = 0 := by unfold multilinearCdf; rw [ha, hz]; simp [hqa]
    rw [this]
    exact ⟨⟨le_refl _, zero_le_one⟩, ⟨fun hh => absurd (hh.trans hqa) (not_lt.2 r1),
      fun hh => absurd hh (not_lt.2 h0)⟩⟩
  by_cases hqz : z.1 < q
  · have : multilinearCdf pts q = 1 := by unfold multilinearCdf; rw [ha, hz]; simp [hqa, hqz]
    rw [this]
    exact ⟨⟨zero_le_one, le_refl _⟩, ⟨fun _ => h1, fun _ => lt_of_le_of_lt r2 hqz⟩⟩
  have hq := C23_inverse_cdf h a z ha hz (not_lt.1 hqa) (not_lt.1 hqz)
  have hc : 0 ≤ multilinearCdf pts q ∧ multilinearCdf pts q ≤ 1 := by
    unfold multilinearCdf
    rw [ha, hz]
    simp only [hqa, hqz, if_false]
    refine interp_range hne hx 0 1 q ?_
    intro c hc
    obtain ⟨i, hi⟩ := List.getElem?_of_mem hc
    obtain ⟨hi1, hi2⟩ := List.getElem?_eq_some_iff.1 hi
    have hlast : pts[pts.length - 1]? = some z := by rw [← List.getLast?_eq_getElem?]; exact hz
    have hhead : pts[0]? = some a := by rw [← List.head?_eq_getElem?]; exact ha
    obtain ⟨hj1, hj2⟩ := List.getElem?_eq_some_iff.1 hlast
    obtain ⟨hk1, hk2⟩ := List.getElem?_eq_some_iff.1 hhead
    constructor
    · rw [← hf a (by rw [ha]; rfl)]
      rcases Nat.eq_zero_or_pos i with rfl | hpos
      · rw [hhead] at hi
        obtain rfl := Option.some.inj hi
        exact le_refl _
      · have := List.pairwise_iff_getElem.1 hy 0 i (by simpa using hk1) (by simpa using hi1) hpos
        simp only [List.getElem_map, hi2, hk2] at this
        exact this.le
    · rw [← hl z (by rw [hz]; rfl)]
      rcases Nat.lt_or_ge i (pts.length - 1) with hlt | hge
      · have := List.pairwise_iff_getElem.1 hy i (pts.length - 1) (by simpa using hi1)
          (by simpa using hj1) hlt
        simp only [List.getElem_map, hi2, hj2] at this
        exact this.le
      · have : i = pts.length - 1 := by omega
        subst this
        rw [hlast] at hi
        obtain rfl := Option.some.inj hi
        exact le_refl _
  refine ⟨hc, ?_⟩
  constructor
  · intro hlt
    by_contra hno
    have := C23_inverse_monotone h (not_lt.1 hno)
    rw [hq] at this
    exact absurd hlt (not_lt.2 this)
  · intro hlt
    have hle := C23_inverse_monotone h hlt.le
    rw [hq] at hle
    refine lt_of_le_of_ne hle ?_
    intro he
    have e1 := C23_cdf_inverse h h0 h1.le
    rw [he] at e1
    exact absurd hlt (by rw [e1]; exact lt_irrefl _)

theorem parseFloats_ok {ts : List (Str × ℚ)} (hne : ts ≠ [])
    (h : ∀ t ∈ ts, ',' ∉ t.1 ∧ pyFloat? t.1 = some (.fin t.2)) :
    parseFloats (F := F) (joinChar ',' (ts.map Prod.fst)) = .ok (ts.map fun t => ((t.2 : ℚ) : F)) := by
  unfold parseFloats
  rw [split_join ',' _ (by simpa using hne) (by
    intro w hw
    obtain ⟨t, ht, rfl⟩ := List.mem_map.1 hw
    exact (h t ht).1)]
  clear hne
  induction ts with
  | nil => rfl
  | cons t ts ih =>
    simp only [List.map_cons, mapE, (h t (by simp)).2]
    rw [ih (fun t ht => h t (by simp [ht]))]

/-- C89: the fragility curve of a limit state given by the text `x1,x2,...|y1,y2,...` of a
multilinear distribution function: the demand is interpolated between the points (single block;
with several blocks, the calculation fails). -/
theorem C89_curve_multilinear [IsStrictOrderedRing F] (N : Num F) (n : Nat) (r : LSCap F)
    (tx ty : List (Str × ℚ)) (hlen : tx.length = ty.length)
    (htx : ∀ t ∈ tx, ',' ∉ t.1 ∧ '|' ∉ t.1 ∧ pyFloat? t.1 = some (.fin t.2))
    (hty : ∀ t ∈ ty, ',' ∉ t.1 ∧ '|' ∉ t.1 ∧ pyFloat? t.1 = some (.fin t.2))
    (hr : r.dist = some (.multilinear
      (joinChar ',' (tx.map Prod.fst) ++ '|' :: joinChar ',' (ty.map Prod.fst))))
    (pts : List (F × F)) (hpts : pts = (tx.zip ty).map fun t => (((t.1.2 : ℚ) : F), ((t.2.2 : ℚ) : F)))
    (hrise : Rising pts) (q p : F) (hp : Interpolated pts q p) : Fragility N n r 0 q p := by
  have hok : multilinearInit pts none none = .ok pts := (C23_accepted_iff pts).2 hrise
  have hne : pts ≠ [] := (multilinear_ok hok).2.2.1
  have hnx : tx ≠ [] := by
    rintro rfl
    simp at hpts
    exact hne hpts
  have hny : ty ≠ [] := by
    rintro rfl
    simp at hpts
    exact hne hpts
  have hbar : ∀ (ts : List (Str × ℚ)), (∀ t ∈ ts, ',' ∉ t.1 ∧ '|' ∉ t.1 ∧ pyFloat? t.1 = some (.fin t.2)) →
      '|' ∉ joinChar ',' (ts.map Prod.fst) := by
    intro ts
    induction ts with
    | nil => intro _; simp [joinChar]
    | cons t ts ih =>
      intro h
      have h1 := (h t (by simp)).2.1
      have h2 := ih (fun t ht => h t (by simp [ht]))
      cases ts with
      | nil => simpa [joinChar] using h1
      | cons t' ts =>
        simp only [List.map_cons, joinChar, List.mem_append, List.mem_cons, not_or] at h2 ⊢
        exact ⟨h1, by decide, h2⟩
  have hparse : parsePoints (F := F)
      (joinChar ',' (tx.map Prod.fst) ++ '|' :: joinChar ',' (ty.map Prod.fst)) = .ok (.multilinear pts) := by
    unfold parsePoints
    rw [splitChar_append_sep _ _ _ (hbar tx htx), splitChar_no_sep _ _ (hbar ty hty)]
    simp only
    rw [parseFloats_ok hnx (fun t ht => ⟨(htx t ht).1, (htx t ht).2.2⟩),
      parseFloats_ok hny (fun t ht => ⟨(hty t ht).1, (hty t ht).2.2⟩)]
    simp only [List.length_map, hlen, if_true]
    rw [List.zip_map]
    have : List.map (Prod.map (fun t : Str × ℚ => ((t.2 : ℚ) : F)) fun t : Str × ℚ => ((t.2 : ℚ) : F))
        (tx.zip ty) = pts := by
      rw [hpts]
      rfl
    rw [this, hok]
    rfl
  obtain rfl := cdf_interpolated hok hp
  have hb := fun y h0 h1 => below_multilinear hok q y h0 h1
  refine ⟨(hb 0 (le_refl _) zero_lt_one).1.1, (hb 0 (le_refl _) zero_lt_one).1.2, ?_⟩
  intro u _ hu01 i y hy
  obtain ⟨h0, h1⟩ := hu01 y (List.mem_of_getElem? hy)
  rw [← (hb y h0 h1).2]
  constructor
  · rintro ⟨c, ⟨d, k, s, e1, e2, e3, e4⟩, hbel⟩
    rw [hr] at e1
    obtain rfl := Option.some.inj e1
    simp only [kindAt, if_true] at e2
    rw [hparse] at e2
    obtain rfl := Except.ok.inj e2
    rcases e3 with ⟨_, e3⟩ | ⟨e3, _⟩
    · simp only [RVKind.inverse, Except.ok.injEq, Prod.mk.injEq, and_true] at e3
      subst e3
      rw [List.getElem?_map, hy] at e4
      obtain rfl := Option.some.inj e4
      rcases hbel with hbel | ⟨w, hw, hlt⟩
      · simp at hbel
      · obtain rfl := Ext.fin.inj hw
        exact hlt
    · simp [RVKind.utility] at e3
  · intro hlt
    exact ⟨.fin (multilinearInverse pts y), ⟨_, .multilinear pts, u.map fun y => .fin (multilinearInverse pts y),
      hr, by simp only [kindAt, if_true]; exact hparse, Or.inl ⟨rfl, rfl⟩,
      by rw [List.getElem?_map, hy]; rfl⟩, Or.inr ⟨_, rfl, hlt⟩⟩

/-- A concrete case: at the demand 3/2 the curve through (1, 0), (2, 1/2), (4, 1) has the value 1/4. -/
example (r : LSCap ℚ) (hr : r.dist = some (.multilinear (str "1,2,4|0,0.5,1"))) (n : Nat) :
    Fragility ratNum n r 0 (3 / 2) (1 / 4) :=
  C89_curve_multilinear ratNum n r [(str "1", 1), (str "2", 2), (str "4", 4)]
    [(str "0", 0), (str "0.5", 1 / 2), (str "1", 1)] rfl (by decide +kernel) (by decide +kernel) hr
    [(1, 0), (2, 1 / 2), (4, 1)] (by decide +kernel)
    (by
      refine ⟨⟨_, rfl, rfl⟩, ⟨_, rfl, rfl⟩, ?_⟩
      intro i p q hp hq
      match i with
      | 0 => cases hp; cases hq; norm_num
      | 1 => cases hp; cases hq; norm_num
      | (k + 2) => simp at hq)
    _ _ (Or.inr (Or.inr ⟨0, (1, 0), (2, 1 / 2), rfl, rfl, by norm_num, by norm_num, by norm_num⟩))

/-! ### Refused inputs -/

/-- The variables of each performance group exist in a run that succeeds. -/
theorem group_vars {N : Num F} {NQ : Num F} {x : Input F} {available missing : List Str}
    {table : List (PGid × Int)} {size : Int} {dc : Nat → Draws F} {dl : Nat → Draws F}
    (hz : 0 ≤ size) (hpos : ∀ e ∈ table, 0 < e.2)
    {out : List (Dict BlockId Int)} (h : obtainDs N NQ x available missing table size dc dl = .ok out)
    {pg : PGid} {n : Nat} (hg : Group available missing table pg n) :
    ∃ g j r, (∀ e ∈ g, Group available missing table e.1 e.2) ∧ (pg, n) ∈ g ∧
      runBatch N NQ x (dc j) (dl j) g = .ok r := by
  obtain ⟨l, hl, hgroups, _⟩ := groups_spec (available := available) (missing := missing) hz hpos
  obtain ⟨rows, _, h2, _⟩ := obtainDs_ok h hl
  obtain ⟨g, h3, h4⟩ := (hgroups pg n).2 hg
  obtain ⟨j, hj⟩ := List.getElem?_of_mem h3
  obtain ⟨r, _, hr⟩ := h2 j g hj
  exact ⟨g, j, r, fun e he => (hgroups e.1 e.2).1 ⟨g, h3, he⟩, h4, hr⟩

/-- C89: the damage calculation fails if a performance group to be evaluated has no defined limit
state. -/
theorem C89_no_limit_state (N : Num F) (NQ : Num F) (x : Input F) (available missing : List Str)
    (table : List (PGid × Int)) (size : Int) (dc : Nat → Draws F) (dl : Nat → Draws F)
    (hz : 0 ≤ size) (hpos : ∀ e ∈ table, 0 < e.2) (hx : Dashless x table) (pg : PGid) (n : Nat)
    (hg : Group available missing table pg n)
    (hno : ∀ rows, x.caps pg = some rows → ∀ r ∈ rows, r.dist = none) (out : List (Dict BlockId Int)) :
    obtainDs N NQ x available missing table size dc dl ≠ .ok out := by
  intro h
  obtain ⟨g, j, r, hgr, hmem, hrun⟩ := group_vars hz hpos h hg
  obtain ⟨vars, cap, ls, d, h1, h2, h3, h4, h5, rfl⟩ := runBatch_ok hrun
  have hvars := batchVars_ok h1
  have hname : ∀ v ∈ vars, v.cap.name = tag (str "FRG") v.label := by
    intro v hv
    obtain ⟨_, _, _, _, _, _, _, _, h6⟩ := hvars.1 v hv
    exact h6.name
  have htab : ∀ e ∈ g, ∃ e' ∈ table, e'.1 = e.1 := fun e he => group_mem (hgr e he)
  obtain ⟨_, _, _, _, hperm⟩ := sampleCaps_ok hname (vars_tidy (fun e he => by
        obtain ⟨e', he', hee⟩ := htab e he
        rw [← hee]
        exact hx.1 e' he') (fun e he rs hrs => by
        obtain ⟨e', he', hee⟩ := htab e he
        rw [← hee] at hrs
        exact hx.2 e' he' rs hrs) h1) h2
  obtain ⟨c, hc, hpg⟩ := h5 pg (List.mem_map_of_mem hmem)
  obtain ⟨v, hv, rfl⟩ := List.mem_map.1 (hperm.mem_iff.1 hc)
  obtain ⟨pg', n', rows, r, k', f1, f2, f3, f4⟩ := hvars.1 v hv
  have e : pg' = pg := by
    rw [← hpg]
    simp only [f4.label, blockOf_label, pgOf, blockId]
  subst e
  obtain ⟨_, _, _, _, _, _, _, _, h7, h8, _⟩ := f4
  rw [hno rows f2 r h7] at h8
  simp at h8

/-- C89, violated: with several blocks, a limit state given by a `multilinear_CDF` makes the damage
calculation fail, whatever the points are. -/
theorem C89_multilinear_blocks_violates (N : Num F) (NQ : Num F) (x : Input F)
    (available missing : List Str) (table : List (PGid × Int)) (size : Int) (dc : Nat → Draws F)
    (dl : Nat → Draws F) (hz : 0 ≤ size) (hpos : ∀ e ∈ table, 0 < e.2) (pg : PGid) (n : Nat)
    (hg : Group available missing table pg n) (hn : 2 ≤ n) (rows : List (LSCap F))
    (hrows : x.caps pg = some rows) (r : LSCap F) (hr : r ∈ rows) (points : Str)
    (hd : r.dist = some (.multilinear points)) (out : List (Dict BlockId Int)) :
    obtainDs N NQ x available missing table size dc dl ≠ .ok out := by
  intro h
  obtain ⟨g, j, _, _, hmem, hrun⟩ := group_vars hz hpos h hg
  obtain ⟨vars, _, _, _, h1, _⟩ := runBatch_ok hrun
  obtain ⟨v, _, hv⟩ := (batchVars_ok h1).2 pg n rows r 1 hmem hrows hr (by simp [hd]) (by omega)
  obtain ⟨_, _, d, k, _, _, _, _, _, h8, _, h9, _⟩ := hv
  rw [hd] at h8
  obtain rfl := Option.some.inj h8
  simp [kindAt] at h9

theorem head_one {rows : List (LSCap F)} (hnum : ∀ r ∈ rows, ∃ k, 1 ≤ k ∧ k ≤ 9 ∧ r.id = decStr k)
    {first head : LSCap F} {rest : List (LSCap F)} (hf : first ∈ rows) (h1 : first.id = decStr 1)
    (hs : pySort lsLe rows = head :: rest) : head.id = decStr 1 := by
  have hsorted := pySort_sorted (le := lsLe (F := F)) (fun a b => strLe_total _ _)
    (fun a b c => strLe_trans _ _ _) rows
  have hmem : first ∈ head :: rest := by rw [← hs]; exact mem_pySort.2 hf
  have hhead : head ∈ rows := by
    have : head ∈ pySort lsLe rows := by rw [hs]; simp
    exact mem_pySort.1 this
  rw [hs] at hsorted
  rcases List.mem_cons.1 hmem with rfl | hm
  · exact h1
  · have hle : lsLe head first = true := (List.pairwise_cons.1 hsorted).1 first hm
    obtain ⟨k, hk1, hk9, hk⟩ := hnum head hhead
    unfold lsLe at hle
    rw [hk, h1] at hle
    rw [hk]
    interval_cases k
    · rfl
    all_goals exact absurd hle (by decide +kernel)

/-- C89, violated: if the first limit state is not defined and another one is, the damage
calculation fails. -/
theorem C89_first_undefined_violates (N : Num F) (NQ : Num F) (x : Input F)
    (available missing : List Str) (table : List (PGid × Int)) (size : Int) (dc : Nat → Draws F)
    (dl : Nat → Draws F) (hz : 0 ≤ size) (hpos : ∀ e ∈ table, 0 < e.2) (pg : PGid) (n : Nat)
    (hg : Group available missing table pg n) (hn : 0 < n) (rows : List (LSCap F))
    (hrows : x.caps pg = some rows) (hdist : (rows.map (·.id)).Nodup)
    (hnum : ∀ r ∈ rows, ∃ k, 1 ≤ k ∧ k ≤ 9 ∧ r.id = decStr k)
    (first : LSCap F) (hf : first ∈ rows) (h1 : first.id = decStr 1) (hnone : first.dist = none)
    (r : LSCap F) (hr : r ∈ rows) (hd : r.dist ≠ none) (out : List (Dict BlockId Int)) :
    obtainDs N NQ x available missing table size dc dl ≠ .ok out := by
  intro h
  obtain ⟨g, j, _, _, hmem, hrun⟩ := group_vars hz hpos h hg
  obtain ⟨vars, _, _, _, h2, _⟩ := runBatch_ok hrun
  obtain ⟨v, _, hv⟩ := (batchVars_ok h2).2 pg n rows r 0 hmem hrows hr hd hn
  obtain ⟨head, rest, d, k, a, _, _, h7, _, h8, h9, _⟩ := hv
  have hhead : head ∈ rows := by
    have : head ∈ pySort lsLe rows := by rw [h7]; simp
    exact mem_pySort.1 this
  have e : head = first := id_inj hdist hhead hf (by rw [head_one hnum hf h1 h7, h1])
  subst e
  unfold anchorOf at h9
  rw [hnone] at h9
  split at h9
  · rename_i e
    have := id_inj hdist hr hhead e
    subst this
    exact hd hnone
  · simp at h9

/-- C89: without any performance group to evaluate, the damage calculation fails with a
`ValueError`. -/
theorem C89_nothing_to_evaluate (N : Num F) (NQ : Num F) (x : Input F) (available missing : List Str)
    (table : List (PGid × Int)) (size : Int) (dc : Nat → Draws F) (dl : Nat → Draws F)
    (hz : 0 ≤ size) (hpos : ∀ e ∈ table, 0 < e.2)
    (hno : ∀ pg n, ¬ Group available missing table pg n) :
    obtainDs N NQ x available missing table size dc dl = .error .valueError := by
  obtain ⟨l, hl, hgroups, _⟩ := groups_spec (available := available) (missing := missing) hz hpos
  have hnil : l = [] := by
    cases l with
    | nil => rfl
    | cons e t =>
      exfalso
      refine hno e.2.1 e.2.2.toNat ((hgroups _ _).1 ?_)
      refine ⟨_, List.mem_map.2 ⟨e.1, (uniqueVals_mem _ _ _).2 ⟨by simp, by simp⟩, rfl⟩, ?_⟩
      exact List.mem_map.2 ⟨e, List.mem_filter.2 ⟨by simp, by simp⟩, rfl⟩
  unfold obtainDs
  rw [hl, hnil]
  rfl

end

/-! ### A concrete case -/

/-- Limit states of a component: two normal capacities, the second one with two damage states. -/
def exA : List (LSCap ℚ) :=
  [⟨str "1", some (.dist (.normal (.const 1 (1 / 2)) none none)), none⟩,
   ⟨str "2", some (.dist (.normal (.const 2 (1 / 2)) none none)), some (str "0.25 | 0.75")⟩]

/-- A fixed capacity. -/
def exB : List (LSCap ℚ) := [⟨str "1", some (.dist (.deterministic [3])), none⟩]

/-- The same acceleration in four realizations. -/
def exInput (caps : List (LSCap ℚ)) : Input ℚ where
  caps pg := if pg.cmp = str "A" then some caps else if pg.cmp = str "B" then some exB else none
  nvars _ := .ok 1
  eval _ _ := .error .valueError
  params := [(str "A", ⟨[⟨str "Peak Floor Acceleration", some 0, some 1⟩], .absent⟩),
             (str "B", ⟨[⟨str "Peak Floor Acceleration", some 0, some 1⟩], .absent⟩)]
  offsets := []
  mults := []
  sample := [((str "PFA", str "1", str "1"), [some 2, some 2, some 2, some 2])]
  size := 4
  method := .lhs

def exTable : List (PGid × Int) :=
  [(⟨str "A", str "1", str "1", str "0"⟩, 2), (⟨str "B", str "1", str "1", str "0"⟩, 1)]

def exDraws (_ : Nat) : Draws ℚ :=
  { perm := fun i => if i = 0 then [2, 0, 3, 1] else [0, 1, 2, 3], jitter := fun _ => [1 / 2, 0, 1 / 4, 3 / 4] }

def exRun (caps : List (LSCap ℚ)) (table : List (PGid × Int)) (size : Int) :
    Except PyErr (List (Dict BlockId Int)) :=
  obtainDs ratNum ratNum (exInput caps) [str "A", str "B"] [] table size exDraws exDraws

/-- In one batch: two blocks of `A` with draws of their own, and `B`, which is never damaged. -/
example : (exRun exA exTable 10).toOption.map (fun l => l.map fun row => row.map fun e => (e.1.cmp, e.1.block, e.2)) =
    some [[(str "A", str "1", 1), (str "A", str "2", 2), (str "B", str "1", 0)],
     [(str "A", str "1", 3), (str "A", str "2", 3), (str "B", str "1", 0)],
     [(str "A", str "1", 1), (str "A", str "2", 1), (str "B", str "1", 0)],
     [(str "A", str "1", 3), (str "A", str "2", 0), (str "B", str "1", 0)]] := by decide +kernel

/-- In batches of two blocks. -/
example : (exRun exA exTable 2).toOption.map (fun l => l.map fun row => row.map fun e => e.2) =
    some [[1, 2, 0], [3, 3, 0], [1, 1, 0], [3, 0, 0]] := by decide +kernel

example : exRun ({ id := str "1", dist := none } :: exA.drop 1) exTable 10 = .error .indexError := by
  decide +kernel
example : exRun [{ id := str "1", dist := some (.multilinear (str "0,1|0,1")) }] exTable 10 =
    .error .attributeError := by decide +kernel
example : ((exRun [{ id := str "1", dist := some (.multilinear (str "0,1|0,1")) }]
    [(⟨str "A", str "1", str "1", str "0"⟩, 1)] 10).toOption.map fun l => l.map fun row => row.map fun e => e.2) =
    some [[1], [1], [1], [1]] := by decide +kernel
example : exRun [{ id := str "1", dist := none }] exTable 10 = .error .keyError := by decide +kernel
example : exRun exA [] 10 = .error .valueError := by decide +kernel

theorem exA_component : Component exA where
  distinct := by decide
  numbered := by
    intro r hr
    simp only [exA, List.mem_cons, List.not_mem_nil, or_false] at hr
    rcases hr with rfl | rfl
    · exact ⟨1, by omega, by omega, by decide⟩
    · exact ⟨2, by omega, by omega, by decide⟩
  noGap := by
    intro r hr _ j h1 h2
    have hj : j = 1 ∨ j = 2 ∧ r = exA[1] := by
      simp only [exA, List.mem_cons, List.not_mem_nil, or_false] at hr
      rcases hr with rfl | rfl
      · have : numOf (str "1") = 1 := by decide
        simp only [this] at h2
        omega
      · have : numOf (str "2") = 2 := by decide
        simp only [this] at h2
        rcases (show j = 1 ∨ j = 2 by omega) with h | h
        · exact Or.inl h
        · exact Or.inr ⟨h, rfl⟩
    rcases hj with rfl | ⟨rfl, _⟩
    · exact ⟨exA[0], by simp [exA], by simp [exA], by decide⟩
    · exact ⟨exA[1], by simp [exA], by simp [exA], by decide⟩
  weights := by
    intro r hr s hs w hw q hq
    simp only [exA, List.mem_cons, List.not_mem_nil, or_false] at hr
    rcases hr with rfl | rfl
    · simp at hs
    · simp only [Option.some.injEq] at hs
      subst hs
      have : splitChar '|' ((str "0.25 | 0.75").filter (· ≠ ' ')) = [str "0.25", str "0.75"] := by
        decide +kernel
      rw [this] at hw
      simp only [List.mem_cons, List.not_mem_nil, or_false] at hw
      rcases hw with rfl | rfl
      · have h1 : pyFloat? (str "0.25") = some (.fin (1 / 4)) := by decide +kernel
        rw [h1] at hq
        simp only [Option.some.injEq, PyFloat.fin.injEq] at hq
        rw [← hq]
        norm_num
      · have h1 : pyFloat? (str "0.75") = some (.fin (3 / 4)) := by decide +kernel
        rw [h1] at hq
        simp only [Option.some.injEq, PyFloat.fin.injEq] at hq
        rw [← hq]
        norm_num
  capacity := by
    intro r hr k hk
    simp only [exA, List.mem_cons, List.not_mem_nil, or_false] at hr
    rcases hr with rfl | rfl <;> simp only [Option.some.injEq, CapDist.dist.injEq] at hk <;> subst hk <;> rfl

theorem exB_component : Component exB where
  distinct := by decide
  numbered := by
    intro r hr
    simp only [exB, List.mem_cons, List.not_mem_nil, or_false] at hr
    subst hr
    exact ⟨1, by omega, by omega, by decide⟩
  noGap := by
    intro r hr _ j h1 h2
    simp only [exB, List.mem_cons, List.not_mem_nil, or_false] at hr
    subst hr
    have : numOf (str "1") = 1 := by decide
    simp only [this] at h2
    obtain rfl : j = 1 := by omega
    exact ⟨exB[0], by simp [exB], by simp [exB], rfl⟩
  weights := by
    intro r hr s hs
    simp only [exB, List.mem_cons, List.not_mem_nil, or_false] at hr
    subst hr
    simp at hs
  capacity := by
    intro r hr k hk
    simp only [exB, List.mem_cons, List.not_mem_nil, or_false] at hr
    subst hr
    simp only [Option.some.injEq, CapDist.dist.injEq] at hk
    subst hk
    rfl

theorem exGood (j : Nat) : GoodDraws 4 (exDraws j).perm (exDraws j).jitter := by
  intro i
  refine ⟨?_, rfl, ?_⟩
  · unfold exDraws
    simp only
    split
    · decide
    · decide
  · intro u hu
    simp only [exDraws, List.mem_cons, List.not_mem_nil, or_false] at hu
    rcases hu with rfl | rfl | rfl | rfl <;> norm_num

theorem exCaps {e : PGid × Int} (he : e ∈ exTable) {rows : List (LSCap ℚ)}
    (h : (exInput exA).caps e.1 = some rows) : rows = exA ∨ rows = exB := by
  simp only [exInput] at h
  split at h
  · exact Or.inl (Option.some.inj h).symm
  · split at h
    · exact Or.inr (Option.some.inj h).symm
    · simp at h

theorem exDashless : Dashless (exInput exA) exTable := by
  refine ⟨by decide, ?_⟩
  intro e he rows h r hr
  rcases exCaps he h with rfl | rfl
  · simp only [exA, List.mem_cons, List.not_mem_nil, or_false] at hr
    rcases hr with rfl | rfl <;> decide
  · simp only [exB, List.mem_cons, List.not_mem_nil, or_false] at hr
    subst hr
    decide

theorem exDemand (i : Nat) (hi : i < 4) :
    DemandIs (exInput exA) ⟨str "A", str "1", str "1", str "0"⟩ i 2 := by
  refine ⟨([str "PFA-1-1"], .absent), [some 2, some 2, some 2, some 2], by decide +kernel,
    by decide +kernel, ?_⟩
  interval_cases i <;> rfl

/-- The hypotheses of `C89_fragility` hold for the first block of `A` and its second limit state:
its fragility curve is 1/2 at the demand, so that two of the four realizations are in its damage
states. -/
example (out : List (Dict BlockId Int)) (h : exRun exA exTable 10 = .ok out) :
    2 ≤ out.countP (stateAbove (blockId ⟨str "A", str "1", str "1", str "0"⟩ 0) 1) ∧
      out.countP (stateAbove (blockId ⟨str "A", str "1", str "1", str "0"⟩ 0) 1) ≤ 2 := by
  have hp : ratNum.D.cdf ((2 - 2 : ℚ) / (1 / 2)) = 1 / 2 := by decide +kernel
  have hp1 : ratNum.D.cdf ((2 - 1 : ℚ) / (1 / 2)) = 5 / 6 := by decide +kernel
  have := C89_fragility ratNum ratNum (exInput exA) [str "A", str "B"] [] exTable 10 exDraws exDraws
    (by norm_num) (by decide) exDashless (fun e he rows h => by
      rcases exCaps he h with rfl | rfl
      · exact exA_component
      · exact exB_component) exGood exGood (Or.inl rfl) (by decide) out h
    ⟨str "A", str "1", str "1", str "0"⟩ 2 0 ⟨⟨2, by decide⟩, by decide⟩ (by norm_num) 2 exDemand exA rfl
    (fun r => if r.id = str "1" then 5 / 6 else 1 / 2) (fun r hr _ => by
      simp only [exA, List.mem_cons, List.not_mem_nil, or_false] at hr
      rcases hr with rfl | rfl
      · have := C89_curve_normal ratNum 4 exA[0] 1 (1 / 2) rfl (by norm_num) 0 2
        rw [hp1] at this
        exact this
      · have := C89_curve_normal ratNum 4 exA[1] 2 (1 / 2) rfl (by norm_num) 0 2
        rw [hp] at this
        exact this) exA[1] (1 / 2) ⟨⟨exA[1], by simp [exA], by simp [exA], le_refl _, by decide +kernel⟩, ?_⟩
  · have e1 : statesBelow exA exA[1] = 1 := by decide
    have e2 : ⌊((exInput exA).size : ℚ) * (1 / 2)⌋₊ = 2 := by decide +kernel
    have e3 : ⌈((exInput exA).size : ℚ) * (1 / 2)⌉₊ = 2 := by decide +kernel
    rw [e1, e2, e3] at this
    exact this
  · rintro y ⟨a, ha, _, hle, rfl⟩
    simp only [exA, List.mem_cons, List.not_mem_nil, or_false] at ha
    rcases ha with rfl | rfl
    · exact absurd hle (by decide)
    · have : ¬ str "2" = str "1" := by decide
      simp [this]

end Verif.DmgSample