import Verif.Model.RegLoss
import Verif.Props.LossDev
import Verif.Props.FileIO

/-! # Property C99: losses in regional simulations -/

namespace Verif.RegLoss

open Verif.FileIO Verif.UQ Verif.LossDs Verif.LossCalc

section
variable {F : Type} [Field F] [LinearOrder F]

/-! ### Specification -/

/-- The database has the consequence `p` for the damage in column `k`, under the name `loss`. -/
def Has (params : Params) (loss dv : Str) (k : DKey) (p : DsParam) : Prop :=
  k.ds ≠ str "0" ∧ ∃ row, params.rows.get? (loss, dv) = some row ∧ row k.ds = some p

/-- The same as a test. -/
def priced (params : Params) (loss dv : Str) (k : DKey) : Bool :=
  decide (k.ds ≠ str "0") && ((params.rows.get? (loss, dv)).bind fun row => row k.ds).isSome

/-- `v` are the total losses of the building at `loc`, by realization: the sum of the losses of its damaged components, each
of which is the damaged quantity times the unit consequence times the deviation `dev`.  The name of the consequence is
`lossOf`; `cols` are the columns of the damage that is looked at together. -/
def Total (eco : Eco) (params : Params) (cols : List DKey) (lossOf : DKey → Str) (dv : Str) (rows : List (DKey → Option ℚ))
    (dev : Nat → Str → DKey → F) (loc : Str) (v : List F) : Prop :=
  v.length = rows.length ∧
  ∀ (i : Nat) (row : DKey → Option ℚ), rows[i]? = some row → ∃ x : DKey → F,
    (∀ k ∈ cols, k.loc = loc → ∀ p, Has params (lossOf k) dv k p → IsLoss eco cols dv p k ⟨row, dev i⟩ (x k)) ∧
    v[i]? = some (((cols.filter fun k => decide (k.loc = loc) && priced params (lossOf k) dv k).map x).sum)

end

/-- The columns of the damage of the buildings of an occupancy class. -/
def groupCols (bldgs : List (Nat × Option Str)) (d : Damage) (occ : Str) : List DKey :=
  d.cols.filter fun k => bldgs.any fun b => decide (b.2 = some occ) && decide (k.loc = decStr b.1)

/-- The inputs are as the program makes them: the labels of the damage and the names of the states are distinct, and
rows of the database have values in its columns only. -/
structure Good (params : Params) (d : Damage) : Prop where
  cols : d.cols.Nodup
  states : params.states.Nodup
  rows : ∀ key row, params.rows.get? key = some row → ∀ ds, row ds ≠ none → ds ∈ params.states

/-! ### Sums over groups -/

section
variable {F : Type} [Field F]

theorem sum_indicator {γ : Type} [DecidableEq γ] (a : F) (c0 : γ) : ∀ (keys : List γ), keys.Nodup →
    (keys.map fun c => if c0 = c then a else 0).sum = if c0 ∈ keys then a else 0
  | [], _ => by simp
  | k :: keys, h => by
    rw [List.nodup_cons] at h
    rw [List.map_cons, List.sum_cons, sum_indicator a c0 keys h.2]
    by_cases hk : c0 = k
    · subst hk; simp [h.1]
    · simp [hk]

theorem sum_keys {κ γ : Type} [DecidableEq γ] (g : κ → γ) (x : κ → F) (keys : List γ) (hk : keys.Nodup) : ∀ (s : List κ), (∀ e ∈ s, g e ∈ keys) →
    ∀ p : γ → Bool, ((keys.filter p).map fun c => ((s.filter fun e => decide (g e = c)).map x).sum).sum = ((s.filter fun e => p (g e)).map x).sum
  | [], _, p => by simp
  | e :: s, h, p => by
    have ih := sum_keys g x keys hk s (fun e' he' => h e' (List.mem_cons_of_mem _ he')) p
    have h1 : ∀ c, (((e :: s).filter fun e => decide (g e = c)).map x).sum =
        (if g e = c then x e else 0) + ((s.filter fun e => decide (g e = c)).map x).sum := by
      intro c
      by_cases hc : g e = c
      · simp [hc]
      · simp [hc]
    simp only [h1]
    rw [List.sum_map_add, ih, sum_indicator (x e) (g e) _ (hk.filter _)]
    have hm := h e (List.mem_cons_self ..)
    by_cases hp : p (g e) = true
    · simp [hp, List.mem_filter, hm]
    · simp [hp, List.mem_filter]

variable {κ γ : Type} [DecidableEq γ]

theorem mem_groupSum {g : κ → γ} {le : γ → γ → Bool} {n : Nat} {s : List (κ × List F)} {c : γ} {v : List F} :
    (c, v) ∈ groupSum g le n s ↔ (∃ e ∈ s, g e.1 = c) ∧
      v = (List.range n).map fun i => ((s.filter fun e => decide (g e.1 = c)).map fun e => e.2.getD i 0).sum := by
  unfold groupSum
  rw [List.mem_map]
  constructor
  · rintro ⟨c', hc', h⟩
    rw [mem_pySort, uniqueVals_mem, List.mem_map] at hc'
    obtain ⟨rfl, rfl⟩ := Prod.mk.inj h
    exact ⟨hc'.1, rfl⟩
  · rintro ⟨h, rfl⟩
    refine ⟨c, ?_, rfl⟩
    rw [mem_pySort, uniqueVals_mem, List.mem_map]
    exact ⟨h, by simp⟩

theorem nodup_groupSum (g : κ → γ) (le : γ → γ → Bool) (n : Nat) (s : List (κ × List F)) : ((groupSum g le n s).map (·.1)).Nodup := by
  unfold groupSum
  rw [List.map_map]
  have : ((fun e : γ × List F => e.1) ∘ fun c =>
    (c, (List.range n).map fun i => ((s.filter fun e => decide (g e.1 = c)).map fun e => e.2.getD i 0).sum)) = id := rfl
  rw [this, List.map_id]
  exact (pySort_perm _ _).nodup_iff.2 (uniqueVals_nodup _ _)

theorem mem_aggregate {n : Nat} {out : List (OutKey × List F)} {c : Str × Str} {v : List F} :
    (c, v) ∈ aggregate n out ↔ (∃ e ∈ out, (e.1.dv, e.1.loc) = c) ∧
      v = (List.range n).map fun i => ((out.filter fun e => decide ((e.1.dv, e.1.loc) = c)).map fun e => e.2.getD i 0).sum := by
  unfold aggregate
  rw [mem_groupSum]
  refine and_congr ?_ ?_
  · constructor
    · rintro ⟨⟨c', v'⟩, he, rfl⟩
      obtain ⟨⟨e, he', rfl⟩, _⟩ := mem_groupSum.1 he
      exact ⟨e, he', rfl⟩
    · rintro ⟨e, he, rfl⟩
      exact ⟨(noUid e.1, _), mem_groupSum.2 ⟨⟨e, he, rfl⟩, rfl⟩, rfl⟩
  · refine Eq.congr_right (List.map_congr_left fun i hi => ?_)
    rw [List.mem_range] at hi
    have h1 : (groupSum noUid labelLe n out).filter (fun e => decide (dvLoc e.1 = c)) =
        ((pySort labelLe (uniqueVals [] (out.map fun e => noUid e.1))).filter fun k => decide (dvLoc k = c)).map fun c =>
          (c, (List.range n).map fun i => ((out.filter fun e => decide (noUid e.1 = c)).map fun e => e.2.getD i 0).sum) := by
      unfold groupSum
      rw [List.filter_map]; rfl
    rw [h1, List.map_map]
    have h2 : ∀ c : List Str, ((List.range n).map fun i => ((out.filter fun e => decide (noUid e.1 = c)).map fun e => e.2.getD i 0).sum).getD i 0 =
        ((out.filter fun e => decide (noUid e.1 = c)).map fun e => e.2.getD i 0).sum := by
      intro c
      rw [List.getD_eq_getElem?_getD, List.getElem?_map, List.getElem?_range hi]; rfl
    have h3 : ((fun e : List Str × List F => e.2.getD i 0) ∘ fun c : List Str =>
        (c, (List.range n).map fun i => ((out.filter fun e => decide (noUid e.1 = c)).map fun e => e.2.getD i 0).sum)) =
        fun c => ((out.filter fun e => decide (noUid e.1 = c)).map fun e => e.2.getD i 0).sum := by
      funext c; exact h2 c
    rw [h3, sum_keys (fun e : OutKey × List F => noUid e.1) (fun e => e.2.getD i 0) _
      ((pySort_perm _ _).nodup_iff.2 (uniqueVals_nodup _ _)) out (fun e he => by
        rw [mem_pySort, uniqueVals_mem]; exact ⟨List.mem_map.2 ⟨e, he, rfl⟩, by simp⟩) (fun k => decide (dvLoc k = c))]
    rfl

theorem mem_ofDv {dv : Str} {grp : List ((Str × Str) × List F)} {l : List (Str × List F)} (h : ofDv dv grp = .ok l) {loc : Str} {v : List F} :
    (loc, v) ∈ l ↔ ((dv, loc), v) ∈ grp := by
  have hl : l = grp.filterMap fun e => if e.1.1 = dv then some (e.1.2, e.2) else none := by
    unfold ofDv at h
    split at h
    · simp at h
    · simpa using h.symm
  rw [hl, List.mem_filterMap]
  constructor
  · rintro ⟨⟨⟨a, b⟩, w⟩, he, h⟩
    simp only at h
    split at h
    · rename_i ha
      simp only [Option.some.injEq, Prod.mk.injEq] at h
      obtain ⟨rfl, rfl⟩ := h
      subst ha
      exact he
    · simp at h
  · intro h
    exact ⟨_, h, by simp⟩

end

/-! ### The losses of a group of buildings -/

theorem outKey_inj {dv dv' loss loss' : Str} {k k' : DKey} (h : outKey dv loss k = outKey dv' loss' k') : dv = dv' ∧ loss = loss' ∧ k = k' := by
  unfold outKey at h
  cases k; cases k'
  simp only [OutKey.mk.injEq] at h
  obtain ⟨h1, h2, h3, h4, h5, h6, h7⟩ := h
  simp_all

theorem priced_iff {params : Params} {loss dv : Str} {k : DKey} : priced params loss dv k = true ↔ ∃ p, Has params loss dv k p := by
  unfold priced Has
  rw [Bool.and_eq_true, decide_eq_true_eq, Option.isSome_iff_exists]
  constructor
  · rintro ⟨h1, p, h2⟩
    rw [Option.bind_eq_some_iff] at h2
    obtain ⟨row, h3, h4⟩ := h2
    exact ⟨p, h1, row, h3, h4⟩
  · rintro ⟨p, h1, row, h3, h4⟩
    exact ⟨h1, p, by rw [Option.bind_eq_some_iff]; exact ⟨row, h3, h4⟩⟩

theorem not_missing {params : Params} {losses dvs : List Str} {loss dv : Str} {row : Str → Option DsParam}
    (h : params.rows.get? (loss, dv) = some row) : (loss, dv) ∉ missing params losses dvs := by
  unfold missing
  intro hm
  rw [List.mem_flatMap] at hm
  obtain ⟨l, _, hm⟩ := hm
  rw [List.mem_map] at hm
  obtain ⟨dv', hm, he⟩ := hm
  rw [List.mem_filter] at hm
  obtain ⟨rfl, rfl⟩ := Prod.mk.inj he
  rw [h] at hm
  simp at hm

section
variable {F : Type} [Field F] [LinearOrder F] [IsStrictOrderedRing F] [FloorRing F]

/-- The third part of `Explained`. -/
def ByDev (eco : Eco) (params : Params) (missing : List (Str × Str)) (cols : List DKey) (lossMap : List (Str × Str)) (dvs : List Str)
    (rows : List (DKey → Option ℚ)) (out : List (OutKey × List F)) (dev : Nat → Str → DKey → F) : Prop :=
  ∀ e ∈ out, ∃ dv ∈ dvs, ∃ k ∈ cols, ∃ loss p, Defined params missing lossMap dv loss k p ∧ e.1 = outKey dv loss k ∧
    e.2.length = rows.length ∧
    ∀ (i : Nat) (row : DKey → Option ℚ) (x : F), rows[i]? = some row → e.2[i]? = some x → IsLoss eco cols dv p k ⟨row, dev i⟩ x

theorem total_of (N : Num F) (eco : Eco) (params : Params) (hwf : ∀ key row, params.rows.get? key = some row → ∀ ds, row ds ≠ none → ds ∈ params.states)
    (hst : params.states.Nodup) (spread : Str × Str → Str → List F) (losses dvs : List Str) (hdvs : dvs.Nodup)
    (cols : List DKey) (hcols : cols.Nodup) (lossMap : List (Str × Str)) (hmap : (lossMap.map (·.1)).Nodup)
    (lossOf : DKey → Str) (hlo : ∀ k ∈ cols, ∀ loss, (k.cmp, loss) ∈ lossMap ↔ loss = lossOf k)
    (m : Method) (perm : Nat → List Nat) (jitter : Nat → List F) (rows : List (DKey → Option ℚ)) (out : List (OutKey × List F))
    (h : LossDev.calculate N eco params spread (missing params losses dvs) cols lossMap dvs none m perm jitter rows = .ok (some out))
    (dev : Nat → Str → DKey → F) (hdev : ByDev eco params (missing params losses dvs) cols lossMap dvs rows out dev)
    {dv : Str} (hdv : dv ∈ dvs) {loc : Str} {v : List F} (hv : ((dv, loc), v) ∈ aggregate rows.length out) :
    Total eco params cols lossOf dv rows dev loc v := by
  obtain ⟨_, rfl⟩ := mem_aggregate.1 hv
  refine ⟨by simp, ?_⟩
  intro i row hi
  have hlt : i < rows.length := (List.getElem?_eq_some_iff.1 hi).1
  have hnd : (out.map (·.1)).Nodup := by
    obtain ⟨out', std, h1, _, rfl⟩ := LossDev.calculate_parts h
    rw [List.map_map]
    exact C80_distinct eco params hst _ cols hcols lossMap hmap dvs hdvs out' h1
  have hget : ∀ e ∈ out, Dict.get? out e.1 = some e.2 := fun e he => Dict.get?_of_mem hnd he
  have hdef : ∀ k ∈ cols, ∀ loss p, Defined params (missing params losses dvs) lossMap dv loss k p ↔ (loss = lossOf k ∧ Has params loss dv k p) := by
    intro k hk loss p
    unfold Defined Has
    constructor
    · rintro ⟨h1, _, h3, h4⟩
      exact ⟨(hlo k hk loss).1 h1, h3, h4⟩
    · rintro ⟨h1, h3, row, h4, h5⟩
      exact ⟨(hlo k hk loss).2 h1, not_missing h4, h3, row, h4, h5⟩
  refine ⟨fun k => ((Dict.get? out (outKey dv (lossOf k) k)).getD []).getD i 0, ?_, ?_⟩
  · intro k hk _ p hp
    obtain ⟨y, hy, hlen⟩ := LossDev.C91_complete N eco params hwf spread _ cols lossMap dvs none m perm jitter rows out h dv hdv k hk
      (lossOf k) p ((hdef k hk _ p).2 ⟨rfl, hp⟩)
    obtain ⟨dv', _, k', _, loss', p', hd', hkey, _, hl⟩ := hdev _ hy
    obtain ⟨rfl, rfl, rfl⟩ := outKey_inj hkey
    have hpp : p' = p := by
      obtain ⟨_, row1, h1, h2⟩ := hp
      obtain ⟨_, _, _, row2, h3, h4⟩ := hd'
      rw [h1] at h3
      cases h3
      rw [h2] at h4
      exact (Option.some.inj h4).symm
    subst hpp
    have hg := hget _ hy
    simp only at hg ⊢
    rw [hg]
    refine hl i row _ hi ?_
    show y[i]? = some (y.getD i 0)
    rw [List.getD_eq_getElem?_getD, List.getElem?_eq_getElem (by rw [hlen]; exact hlt)]
    rfl
  · rw [List.getElem?_map, List.getElem?_range hlt]
    show some _ = some _
    congr 1
    have h1 : ((out.filter fun e => decide ((e.1.dv, e.1.loc) = (dv, loc))).map fun e => e.2.getD i 0) =
        (((out.filter fun e => decide ((e.1.dv, e.1.loc) = (dv, loc))).map (·.1)).map fun key => ((Dict.get? out key).getD []).getD i 0) := by
      rw [List.map_map]
      apply List.map_congr_left
      intro e he
      rw [List.mem_filter] at he
      simp only [Function.comp]
      rw [hget e he.1]
      rfl
    have h2 : ((cols.filter fun k => decide (k.loc = loc) && priced params (lossOf k) dv k).map fun k =>
          ((Dict.get? out (outKey dv (lossOf k) k)).getD []).getD i 0) =
        (((cols.filter fun k => decide (k.loc = loc) && priced params (lossOf k) dv k).map fun k => outKey dv (lossOf k) k).map fun key =>
          ((Dict.get? out key).getD []).getD i 0) := by
      rw [List.map_map]; rfl
    refine Eq.trans (congrArg List.sum h1) (Eq.trans ?_ (congrArg List.sum h2).symm)
    apply List.Perm.sum_eq
    apply List.Perm.map
    rw [List.perm_ext_iff_of_nodup]
    · intro key
      rw [List.mem_map, List.mem_map]
      constructor
      · rintro ⟨e, he, rfl⟩
        rw [List.mem_filter, decide_eq_true_eq] at he
        obtain ⟨dv', _, k, hk, loss', p, hd, hkey, _⟩ := hdev e he.1
        have h3 := he.2
        rw [hkey] at h3
        simp only [outKey, Prod.mk.injEq] at h3
        obtain ⟨rfl, h3⟩ := h3
        obtain ⟨rfl, hp⟩ := (hdef k hk _ p).1 hd
        refine ⟨k, ?_, hkey.symm⟩
        rw [List.mem_filter, Bool.and_eq_true, decide_eq_true_eq, priced_iff]
        exact ⟨hk, h3, p, hp⟩
      · rintro ⟨k, hk, rfl⟩
        rw [List.mem_filter, Bool.and_eq_true, decide_eq_true_eq, priced_iff] at hk
        obtain ⟨hk, hloc, p, hp⟩ := hk
        obtain ⟨y, hy, _⟩ := LossDev.C91_complete N eco params hwf spread _ cols lossMap dvs none m perm jitter rows out h dv hdv k hk
          (lossOf k) p ((hdef k hk _ p).2 ⟨rfl, hp⟩)
        refine ⟨_, List.mem_filter.2 ⟨hy, ?_⟩, rfl⟩
        rw [decide_eq_true_eq]
        simp only [outKey, hloc]
    · exact (List.filter_sublist.map _).nodup hnd
    · refine List.Nodup.map_on ?_ (hcols.filter _)
      intro a _ b _ hab
      exact (outKey_inj hab).2.2

theorem subset_cols (bldgs : List (Nat × Option Str)) (d : Damage) (occ : Str) :
    subset (groupIds bldgs d occ) d = ⟨groupCols bldgs d occ, d.rows⟩ := by
  unfold subset groupCols
  congr 1
  apply List.filter_congr
  intro k hk
  rw [Bool.eq_iff_iff, List.any_eq_true, List.any_eq_true]
  constructor
  · rintro ⟨id, hid, hloc⟩
    rw [groupIds, List.mem_filter, uniqueVals_mem, List.mem_filterMap] at hid
    obtain ⟨⟨⟨b, hb, hbe⟩, _⟩, _⟩ := hid
    split at hbe
    · rename_i ho
      obtain rfl := Option.some.inj hbe
      exact ⟨b, hb, by rw [Bool.and_eq_true, decide_eq_true_eq]; exact ⟨ho, hloc⟩⟩
    · simp at hbe
  · rintro ⟨b, hb, hbe⟩
    rw [Bool.and_eq_true, decide_eq_true_eq] at hbe
    refine ⟨b.1, ?_, hbe.2⟩
    rw [groupIds, List.mem_filter, uniqueVals_mem, List.mem_filterMap]
    exact ⟨⟨⟨b, hb, by simp [hbe.1]⟩, by simp⟩, List.any_eq_true.2 ⟨k, hk, hbe.2⟩⟩

theorem mem_groupIds {bldgs : List (Nat × Option Str)} {d : Damage} {occ : Str} {id : Nat} :
    id ∈ groupIds bldgs d occ ↔ (id, some occ) ∈ bldgs ∧ ∃ k ∈ d.cols, k.loc = decStr id := by
  rw [groupIds, List.mem_filter, uniqueVals_mem, List.mem_filterMap, List.any_eq_true]
  refine and_congr ?_ ?_
  · constructor
    · rintro ⟨⟨b, hb, hbe⟩, _⟩
      split at hbe
      · rename_i ho
        obtain rfl := Option.some.inj hbe
        rw [← ho]
        exact hb
      · simp at hbe
    · intro h
      exact ⟨⟨_, h, by simp⟩, by simp⟩
  · simp

theorem mem_occupancies {bldgs : List (Nat × Option Str)} {occ : Str} : occ ∈ occupancies bldgs ↔ ∃ id, (id, some occ) ∈ bldgs := by
  rw [occupancies, mem_pySort, uniqueVals_mem, List.mem_filterMap]
  constructor
  · rintro ⟨⟨⟨id, o⟩, hb, rfl⟩, _⟩
    exact ⟨id, hb⟩
  · rintro ⟨id, h⟩
    exact ⟨⟨_, h, rfl⟩, by simp⟩

theorem ofBuildings_ok {ids : List Nat} {cols : List (Str × List F)} {r : List (Nat × List F)} (h : ofBuildings ids cols = .ok r) :
    r.map (·.1) = ids ∧ ∀ id v, (id, v) ∈ r → (decStr id, v) ∈ cols := by
  unfold ofBuildings at h
  rw [mapE_ok_iff] at h
  have h' : List.Forall₂ (fun id (e : Nat × List F) => e.1 = id ∧ (decStr id, e.2) ∈ cols) ids r := by
    refine h.imp ?_
    intro id e he
    split at he
    · simp at he
    · rename_i v hv
      obtain rfl := Except.ok.inj he
      exact ⟨rfl, Dict.mem_of_get? hv⟩
  clear h
  induction h' with
  | nil => simp
  | cons hx _ ih =>
    obtain ⟨rfl, hx⟩ := hx
    refine ⟨by simp [ih.1], ?_⟩
    intro id v hm
    rw [List.mem_cons] at hm
    rcases hm with hm | hm
    · rw [← hm] at hx; exact hx
    · exact ih.2 id v hm

theorem hazusGroup_ok {S : Setup F} {bldgs : List (Nat × Option Str)} {d : Damage} {occ : Str} {r : List (Nat × List F) × List (Nat × List F)}
    (h : hazusGroup S bldgs d occ = .ok r) : ∃ out, hazusLosses S occ ⟨groupCols bldgs d occ, d.rows⟩ = .ok (some out) ∧
      ∀ t ∈ [(str "Cost", r.1), (str "Time", r.2)], t.2.map (·.1) = groupIds bldgs d occ ∧
        ∀ id v, (id, v) ∈ t.2 → ((t.1, decStr id), v) ∈ aggregate d.rows.length out := by
  unfold hazusGroup at h
  rw [subset_cols] at h
  split at h
  · simp at h
  · simp at h
  · rename_i out hout
    refine ⟨out, hout, ?_⟩
    split at h
    · simp at h
    · rename_i cost hc
      split at h
      · simp at h
      · rename_i cost' hc'
        split at h
        · simp at h
        · rename_i time ht
          split at h
          · simp at h
          · rename_i time' ht'
            obtain rfl := Except.ok.inj h
            intro t htm
            simp only [List.mem_cons, List.not_mem_nil, or_false] at htm
            rcases htm with rfl | rfl
            · obtain ⟨h1, h2⟩ := ofBuildings_ok hc'
              exact ⟨h1, fun id v hm => (mem_ofDv hc).1 (h2 id v hm)⟩
            · obtain ⟨h1, h2⟩ := ofBuildings_ok ht'
              exact ⟨h1, fun id v hm => (mem_ofDv ht).1 (h2 id v hm)⟩

theorem hazusEq_ok {S : Setup F} {bldgs : List (Nat × Option Str)} {d : Damage} {r : List (Nat × List F) × List (Nat × List F)}
    (h : hazusEq S bldgs d = .ok r) : ∃ rs, List.Forall₂ (fun occ r => hazusGroup S bldgs d occ = .ok r) (occupancies bldgs) rs ∧
      r = (pySort (fun a b => decide (a.1 ≤ b.1)) (rs.flatMap (·.1)), pySort (fun a b => decide (a.1 ≤ b.1)) (rs.flatMap (·.2))) := by
  unfold hazusEq at h
  split at h
  · simp at h
  · simp at h
  · rename_i rs hm
    rename_i hm'
    exact ⟨_, mapE_ok_iff.1 (by assumption), (Except.ok.inj h).symm⟩

theorem hazusMap_nodup (occ : Str) (d : Damage) : ((hazusMap occ d).map (·.1)).Nodup := by
  unfold hazusMap
  rw [List.map_map]
  have : ((fun e : Str × Str => e.1) ∘ fun c : Str => (c, lossId occ)) = id := rfl
  rw [this, List.map_id]
  exact uniqueVals_nodup _ _

/-- Specification: the consequence of the buildings of an occupancy class. -/
def ofClass (occ : Str) : Str := str "LF." ++ occ

theorem mem_hazusMap {occ : Str} {d : Damage} {k : DKey} (hk : k ∈ d.cols) {loss : Str} : (k.cmp, loss) ∈ hazusMap occ d ↔ loss = ofClass occ := by
  unfold hazusMap
  rw [List.mem_map]
  constructor
  · rintro ⟨c, _, h⟩
    exact (Prod.mk.inj h).2.symm
  · rintro rfl
    refine ⟨k.cmp, ?_, rfl⟩
    rw [uniqueVals_mem]
    exact ⟨List.mem_map.2 ⟨k, hk, rfl⟩, by simp⟩

end

section
variable {F : Type} [Field F] [LinearOrder F] [IsStrictOrderedRing F] [FloorRing F]

omit [LinearOrder F] [IsStrictOrderedRing F] [FloorRing F] in
/-- Sorting the results of the groups by number. -/
theorem sorted_ids {l : List (Nat × List F)} (h : (l.map (·.1)).Nodup) :
    ((pySort (fun a b => decide (a.1 ≤ b.1)) l).map (·.1)).Pairwise (· < ·) := by
  have h1 : (pySort (fun a b : Nat × List F => decide (a.1 ≤ b.1)) l).Pairwise (fun a b => decide (a.1 ≤ b.1) = true) :=
    pySort_sorted (fun a b => by simp only [decide_eq_true_eq]; exact Nat.le_total _ _)
      (fun a b c h1 h2 => by simp only [decide_eq_true_eq] at *; exact Nat.le_trans h1 h2) l
  have h2 : ((pySort (fun a b : Nat × List F => decide (a.1 ≤ b.1)) l).map (·.1)).Pairwise (· ≤ ·) := by
    rw [List.pairwise_map]
    exact h1.imp fun h => by simpa using h
  have h3 : ((pySort (fun a b : Nat × List F => decide (a.1 ≤ b.1)) l).map (·.1)).Nodup :=
    ((pySort_perm _ l).map _).nodup_iff.2 h
  exact (h2.and h3).imp fun h => Nat.lt_of_le_of_ne h.1 h.2

theorem groups_ids {R : Type} (f : R → List (Nat × List F)) (bldgs : List (Nat × Option Str)) (d : Damage) (hb : (bldgs.map (·.1)).Nodup) :
    ∀ (occs : List Str) (rs : List R), occs.Nodup → List.Forall₂ (fun occ r => (f r).map (·.1) = groupIds bldgs d occ) occs rs →
      ((rs.flatMap f).map (·.1)).Nodup ∧ ∀ id, id ∈ (rs.flatMap f).map (·.1) ↔ ∃ occ ∈ occs, id ∈ groupIds bldgs d occ := by
  intro occs rs hnd h
  induction h with
  | nil => simp
  | @cons occ r occs rs hx _ ih =>
    rw [List.nodup_cons] at hnd
    obtain ⟨ih1, ih2⟩ := ih hnd.2
    have hm : (((r :: rs).flatMap f).map (·.1)) = groupIds bldgs d occ ++ (rs.flatMap f).map (·.1) := by
      rw [List.flatMap_cons, List.map_append, hx]
    rw [hm]
    constructor
    · rw [List.nodup_append]
      refine ⟨(uniqueVals_nodup _ _).filter _, ih1, ?_⟩
      rintro a ha b hb' rfl
      obtain ⟨occ', ho', ha'⟩ := (ih2 a).1 hb'
      have h1 := (mem_groupIds.1 ha).1
      have h2 := (mem_groupIds.1 ha').1
      have := List.inj_on_of_nodup_map hb h1 h2 rfl
      simp only [Prod.mk.injEq, Option.some.injEq, true_and] at this
      exact hnd.1 (this ▸ ho')
    · intro id
      rw [List.mem_append, ih2]
      simp

/-- The consequences, deviations and losses of an occupancy class, as in C91. -/
def OccExplained (S : Setup F) (bldgs : List (Nat × Option Str)) (d : Damage) (occ : Str) (out : List (OutKey × List F)) (num : Str → DKey → Nat)
    (draws : Str → DKey → List F) (dev : Nat → Str → DKey → F) : Prop :=
  LossDev.Explained S.num S.eco S.params S.spread (missing S.params [ofClass occ] dvs) (groupCols bldgs d occ)
    (hazusMap occ ⟨groupCols bldgs d occ, d.rows⟩) dvs S.method (S.perm (some occ)) (S.jitter (some occ)) d.rows out num draws draws dev

/-- C99: a Hazus earthquake simulation that succeeds has repair costs and times of every building of the damage sample with an
occupancy class, once and in the order of the numbers.  They are the total losses of its damaged components, with the
consequences of its occupancy class and deviations as in C91. -/
theorem C99_hazus_partial (S : Setup F) (bldgs : List (Nat × Option Str)) (d : Damage) (hg : Good S.params d) (hb : (bldgs.map (·.1)).Nodup)
    (costs times : List (Nat × List F)) (h : hazusEq S bldgs d = .ok (costs, times)) :
    ∃ (out : Str → List (OutKey × List F)) (num : Str → Str → DKey → Nat) (draws : Str → Str → DKey → List F) (dev : Str → Nat → Str → DKey → F),
      ∀ t ∈ [(str "Cost", costs), (str "Time", times)],
      (t.2.map (·.1)).Pairwise (· < ·) ∧
      (∀ id, id ∈ t.2.map (·.1) ↔ (∃ occ, (id, some occ) ∈ bldgs) ∧ ∃ k ∈ d.cols, k.loc = decStr id) ∧
      ∀ id v occ, (id, v) ∈ t.2 → (id, some occ) ∈ bldgs →
        OccExplained S bldgs d occ (out occ) (num occ) (draws occ) (dev occ) ∧
        Total S.eco S.params (groupCols bldgs d occ) (fun _ => ofClass occ) t.1 d.rows (dev occ) (decStr id) v := by
  obtain ⟨rs, hrs, hr⟩ := hazusEq_ok h
  have hnd : (occupancies bldgs).Nodup := (pySort_perm _ _).nodup_iff.2 (uniqueVals_nodup _ _)
  have hex : ∀ occ, ∃ out num draws dev, ∀ r, hazusGroup S bldgs d occ = .ok r →
      OccExplained S bldgs d occ out num draws dev ∧
      ∀ t ∈ [(str "Cost", r.1), (str "Time", r.2)], ∀ id v, (id, v) ∈ t.2 →
        Total S.eco S.params (groupCols bldgs d occ) (fun _ => ofClass occ) t.1 d.rows dev (decStr id) v := by
    intro occ
    cases hgr : hazusGroup S bldgs d occ with
    | error e => exact ⟨[], fun _ _ => 0, fun _ _ => [], fun _ _ _ => 0, by simp⟩
    | ok r =>
      obtain ⟨out, hout, htab⟩ := hazusGroup_ok hgr
      obtain ⟨num, draws, dev, hE⟩ := LossDev.C91_deviations _ _ _ _ _ _ _ _ _ _ _ _ _ hout
      refine ⟨out, num, draws, dev, ?_⟩
      intro r' hr'
      obtain rfl := Except.ok.inj hr'
      refine ⟨hE, ?_⟩
      intro t ht id v hm
      refine total_of S.num S.eco S.params hg.rows hg.states S.spread [ofClass occ] dvs (by decide) (groupCols bldgs d occ) (hg.cols.filter _)
        (hazusMap occ ⟨groupCols bldgs d occ, d.rows⟩) (hazusMap_nodup _ _) (fun _ => ofClass occ) (fun k hk loss => mem_hazusMap hk)
        S.method (S.perm (some occ)) (S.jitter (some occ)) d.rows out hout dev hE.2.2 ?_ ((htab t ht).2 id v hm)
      simp only [List.mem_cons, List.not_mem_nil, or_false] at ht
      rcases ht with rfl | rfl <;> simp [dvs]
  choose out num draws dev hall using hex
  refine ⟨out, num, draws, dev, ?_⟩
  have hkey : ∀ (sel : List (Nat × List F) × List (Nat × List F) → List (Nat × List F)) (dv : Str),
      (∀ r : List (Nat × List F) × List (Nat × List F), (dv, sel r) ∈ [(str "Cost", r.1), (str "Time", r.2)]) →
      let t := pySort (fun a b : Nat × List F => decide (a.1 ≤ b.1)) (rs.flatMap sel)
      (t.map (·.1)).Pairwise (· < ·) ∧
      (∀ id, id ∈ t.map (·.1) ↔ (∃ occ, (id, some occ) ∈ bldgs) ∧ ∃ k ∈ d.cols, k.loc = decStr id) ∧
      ∀ id v occ, (id, v) ∈ t → (id, some occ) ∈ bldgs →
        OccExplained S bldgs d occ (out occ) (num occ) (draws occ) (dev occ) ∧
        Total S.eco S.params (groupCols bldgs d occ) (fun _ => ofClass occ) dv d.rows (dev occ) (decStr id) v := by
    intro sel dv hsel t
    have hids := groups_ids sel bldgs d hb (occupancies bldgs) rs hnd (hrs.imp fun occ r hr => by
      obtain ⟨_, _, htab⟩ := hazusGroup_ok hr
      exact (htab _ (hsel r)).1)
    refine ⟨sorted_ids hids.1, ?_, ?_⟩
    · intro id
      rw [show (id ∈ t.map (·.1)) ↔ id ∈ (rs.flatMap sel).map (·.1) from ((pySort_perm _ _).map _).mem_iff, hids.2]
      constructor
      · rintro ⟨occ, _, hid⟩
        exact ⟨⟨occ, (mem_groupIds.1 hid).1⟩, (mem_groupIds.1 hid).2⟩
      · rintro ⟨⟨occ, ho⟩, hk⟩
        exact ⟨occ, mem_occupancies.2 ⟨id, ho⟩, mem_groupIds.2 ⟨ho, hk⟩⟩
    · intro id v occ hm ho
      rw [mem_pySort, List.mem_flatMap] at hm
      obtain ⟨r, hr1, hm⟩ := hm
      obtain ⟨occ', _, hgr⟩ := forall₂_mem_right hrs hr1
      obtain ⟨_, _, htab⟩ := hazusGroup_ok hgr
      have hid : id ∈ groupIds bldgs d occ' := by
        rw [← (htab _ (hsel r)).1]
        exact List.mem_map.2 ⟨_, hm, rfl⟩
      have := List.inj_on_of_nodup_map hb ho (mem_groupIds.1 hid).1 rfl
      simp only [Prod.mk.injEq, Option.some.injEq, true_and] at this
      subst this
      obtain ⟨h1, h2⟩ := hall occ r hgr
      exact ⟨h1, h2 _ (hsel r) id v hm⟩
  obtain ⟨rfl, rfl⟩ := Prod.mk.inj hr
  intro t ht
  simp only [List.mem_cons, List.not_mem_nil, or_false] at ht
  rcases ht with rfl | rfl
  · exact hkey (·.1) _ (fun r => by simp)
  · exact hkey (·.2) _ (fun r => by simp)

omit [FloorRing F] in
/-- C99: in a realization in which a building has no damage its losses are zero. -/
theorem C99_no_damage_no_loss (eco : Eco) (params : Params) (cols : List DKey) (lossOf : DKey → Str) (dv : Str) (rows : List (DKey → Option ℚ))
    (dev : Nat → Str → DKey → F) (loc : Str) (v : List F) (h : Total eco params cols lossOf dv rows dev loc v)
    (i : Nat) (row : DKey → Option ℚ) (hi : rows[i]? = some row) (h0 : ∀ k ∈ cols, k.loc = loc → k.ds ≠ str "0" → (row k).getD 0 = 0) :
    v[i]? = some 0 := by
  obtain ⟨x, hx, hv⟩ := h.2 i row hi
  rw [hv]
  congr 1
  apply List.sum_eq_zero
  intro y hy
  rw [List.mem_map] at hy
  obtain ⟨k, hk, rfl⟩ := hy
  rw [List.mem_filter, Bool.and_eq_true, decide_eq_true_eq, priced_iff] at hk
  obtain ⟨hk, hloc, p, hp⟩ := hk
  have hl := hx k hk hloc p hp
  have hq := h0 k hk hloc hp.1
  unfold IsLoss at hl
  simp only at hl
  cases hr : row k with
  | none => rw [hr] at hl; exact hl
  | some q =>
    rw [hr] at hl hq
    simp only [Option.getD_some] at hq
    obtain ⟨m, _, hm⟩ := hl
    rw [hm, hq]
    simp

/-- C99 does not hold for Hazus earthquake simulations with a building that is in no realization damaged (or only in states
without consequences): the simulation fails for all buildings of the batch. -/
theorem C99_undamaged_refused (S : Setup F) (bldgs : List (Nat × Option Str)) (d : Damage) (id : Nat) (occ : Str) (hid : (id, some occ) ∈ bldgs)
    (hk : ∃ k ∈ d.cols, k.loc = decStr id)
    (h0 : (∀ k ∈ d.cols, k.loc = decStr id → priced S.params (ofClass occ) (str "Cost") k = false) ∨
      ∀ k ∈ d.cols, k.loc = decStr id → priced S.params (ofClass occ) (str "Time") k = false)
    (r : List (Nat × List F) × List (Nat × List F)) : hazusEq S bldgs d ≠ .ok r := by
  intro h
  obtain ⟨rs, hrs, _⟩ := hazusEq_ok h
  obtain ⟨r', _, hgr⟩ := forall₂_mem_left hrs (mem_occupancies.2 ⟨id, hid⟩)
  obtain ⟨out, hout, htab⟩ := hazusGroup_ok hgr
  have hmem := mem_groupIds.2 ⟨hid, hk⟩
  have key : ∀ t ∈ [(str "Cost", r'.1), (str "Time", r'.2)],
      ¬ ∀ k ∈ d.cols, k.loc = decStr id → priced S.params (ofClass occ) t.1 k = false := by
    intro t ht hno
    rw [← (htab t ht).1, List.mem_map] at hmem
    obtain ⟨⟨id', v⟩, hv, rfl⟩ := hmem
    obtain ⟨⟨e, he, heq⟩, _⟩ := mem_aggregate.1 ((htab t ht).2 _ _ hv)
    obtain ⟨num, draws, dev, hE⟩ := LossDev.C91_deviations _ _ _ _ _ _ _ _ _ _ _ _ _ hout
    obtain ⟨dv, _, k, hk', loss, p, hd, hkey, _⟩ := hE.2.2 e he
    rw [hkey] at heq
    simp only [outKey, Prod.mk.injEq] at heq
    obtain ⟨rfl, hloc⟩ := heq
    have hl := (mem_hazusMap hk').1 hd.1
    subst hl
    have := hno k (List.mem_filter.1 hk').1 hloc
    have h2 : priced S.params (ofClass occ) t.1 k = true := priced_iff.2 ⟨p, hd.2.2.1, hd.2.2.2⟩
    rw [h2] at this
    simp at this
  rcases h0 with h0 | h0
  · exact key (str "Cost", r'.1) (by simp) h0
  · exact key (str "Time", r'.2) (by simp) h0

/-- C99 for the other methods: the repair costs (and times) that are reported are the total losses of the damaged components of the
building.  Buildings that are in no realization damaged have no result. -/
theorem C99_general_partial (S : Setup F) (cmps dvs : List Str) (d : Damage) (hg : Good S.params d) (hc : cmps.Nodup) (hdvs : dvs.Nodup)
    (hcmp : ∀ k ∈ d.cols, k.cmp ∈ cmps) (costs : List (Str × List F)) (times : Option (List (Str × List F)))
    (h : general S cmps dvs d = .ok (costs, times)) :
    (times ≠ none ↔ str "Time" ∈ dvs) ∧
    ∃ out num draws dev, LossDev.Explained S.num S.eco S.params S.spread (missing S.params cmps dvs) d.cols (cmps.map fun c => (c, c)) dvs
        S.method (S.perm none) (S.jitter none) d.rows out num draws draws dev ∧
      ∀ t : Str × List (Str × List F), (t.1 = str "Cost" ∧ t.2 = costs ∨ t.1 = str "Time" ∧ some t.2 = times) →
        (t.2.map (·.1)).Nodup ∧
        (∀ loc, loc ∈ t.2.map (·.1) ↔ ∃ k ∈ d.cols, k.loc = loc ∧ priced S.params k.cmp t.1 k = true) ∧
        ∀ loc v, (loc, v) ∈ t.2 → Total S.eco S.params d.cols (fun k => k.cmp) t.1 d.rows dev loc v := by
  unfold general at h
  split at h
  · simp at h
  · simp at h
  · rename_i out hout
    obtain ⟨num, draws, dev, hE⟩ := LossDev.C91_deviations _ _ _ _ _ _ _ _ _ _ _ _ _ hout
    have hmap : ((cmps.map fun c => (c, c)).map (·.1)).Nodup := by
      rw [List.map_map]
      have : ((fun e : Str × Str => e.1) ∘ fun c : Str => (c, c)) = id := rfl
      rw [this, List.map_id]
      exact hc
    have hlo : ∀ k ∈ d.cols, ∀ loss, (k.cmp, loss) ∈ (cmps.map fun c => (c, c)) ↔ loss = k.cmp := by
      intro k hk loss
      rw [List.mem_map]
      constructor
      · rintro ⟨c, _, hcc⟩
        obtain ⟨rfl, h2⟩ := Prod.mk.inj hcc
        exact h2.symm
      · rintro rfl
        exact ⟨k.cmp, hcmp k hk, rfl⟩
    have hdef : ∀ (dv : Str) (l : List (Str × List F)), ofDv dv (aggregate d.rows.length out) = .ok l →
        (l.map (·.1)).Nodup ∧
        (∀ loc, loc ∈ l.map (·.1) ↔ ∃ k ∈ d.cols, k.loc = loc ∧ priced S.params k.cmp dv k = true) ∧
        ∀ loc v, (loc, v) ∈ l → Total S.eco S.params d.cols (fun k => k.cmp) dv d.rows dev loc v := by
      intro dv l hl
      have hin : ∀ e ∈ out, ∃ k ∈ d.cols, ∃ p, e.1 = outKey e.1.dv k.cmp k ∧ e.1.dv ∈ dvs ∧ Has S.params k.cmp e.1.dv k p := by
        intro e he
        obtain ⟨dv', hdv', k, hk, loss, p, hd, hkey, _⟩ := hE.2.2 e he
        have hl := (hlo k hk loss).1 hd.1
        subst hl
        have hdd : e.1.dv = dv' := by rw [hkey]; rfl
        rw [hdd]
        exact ⟨k, hk, p, hkey, hdv', hd.2.2.1, hd.2.2.2⟩
      have hdvm : dv ∈ dvs := by
        obtain ⟨x, hx⟩ : ∃ x, x ∈ l := by
          unfold ofDv at hl
          split at hl
          · simp at hl
          · rename_i hne
            obtain rfl := Except.ok.inj hl
            exact List.exists_mem_of_ne_nil _ (fun h0 => hne h0)
        obtain ⟨⟨e, he, heq⟩, _⟩ := mem_aggregate.1 ((mem_ofDv hl (loc := x.1) (v := x.2)).1 hx)
        obtain ⟨_, _, _, _, h2, _⟩ := hin e he
        rw [show e.1.dv = dv from congrArg Prod.fst heq] at h2
        exact h2
      have hnodup : ((aggregate d.rows.length out).map (·.1)).Nodup := nodup_groupSum _ _ _ _
      refine ⟨?_, ?_, ?_⟩
      · have hl' : l = (aggregate d.rows.length out).filterMap fun e => if e.1.1 = dv then some (e.1.2, e.2) else none := by
          unfold ofDv at hl
          split at hl
          · simp at hl
          · exact (Except.ok.inj hl).symm
        rw [hl']
        clear hl hl'
        revert hnodup
        generalize aggregate d.rows.length out = L
        intro hL
        induction L with
        | nil => simp
        | cons e L ih =>
          rw [List.map_cons, List.nodup_cons] at hL
          rw [List.filterMap_cons]
          split
          · exact ih hL.2
          · rename_i b hb
            split at hb
            · rename_i hed
              obtain rfl := Option.some.inj hb
              rw [List.map_cons, List.nodup_cons]
              refine ⟨?_, ih hL.2⟩
              intro hm
              rw [List.mem_map] at hm
              obtain ⟨e', he', h1⟩ := hm
              rw [List.mem_filterMap] at he'
              obtain ⟨e'', h3, h4⟩ := he'
              split at h4
              · rename_i hed'
                obtain rfl := Option.some.inj h4
                apply hL.1
                rw [List.mem_map]
                refine ⟨e'', h3, ?_⟩
                exact Prod.ext (hed'.trans hed.symm) h1
              · simp at h4
            · simp at hb
      · intro loc
        rw [List.mem_map]
        constructor
        · rintro ⟨x, hx, rfl⟩
          obtain ⟨⟨e, he, heq⟩, _⟩ := mem_aggregate.1 ((mem_ofDv hl (loc := x.1) (v := x.2)).1 hx)
          obtain ⟨k, hk, p, h1, _, h3⟩ := hin e he
          rw [show e.1.dv = dv from congrArg Prod.fst heq] at h1 h3
          refine ⟨k, hk, ?_, priced_iff.2 ⟨p, h3⟩⟩
          have h5 : e.1.loc = x.1 := congrArg Prod.snd heq
          rw [← h5, h1]
          rfl
        · rintro ⟨k, hk, rfl, hp⟩
          obtain ⟨p, hp⟩ := priced_iff.1 hp
          obtain ⟨row, hrow, hps⟩ := hp.2
          obtain ⟨y, hy, _⟩ := LossDev.C91_complete S.num S.eco S.params hg.rows S.spread _ d.cols _ dvs none S.method _ _ d.rows out hout dv hdvm k hk
            k.cmp p ⟨(hlo k hk _).2 rfl, not_missing hrow, hp.1, row, hrow, hps⟩
          exact ⟨(k.loc, _), (mem_ofDv hl).2 (mem_aggregate.2 ⟨⟨_, hy, rfl⟩, rfl⟩), rfl⟩
      · intro loc v hm
        exact total_of S.num S.eco S.params hg.rows hg.states S.spread cmps dvs hdvs d.cols hg.cols _ hmap (fun k => k.cmp) hlo
          S.method _ _ d.rows out hout dev hE.2.2 hdvm ((mem_ofDv hl).1 hm)
    split at h
    · simp at h
    · rename_i cost hcost
      split at h
      · rename_i htime
        split at h
        · simp at h
        · rename_i time ht
          obtain ⟨rfl, rfl⟩ := Prod.mk.inj (Except.ok.inj h)
          refine ⟨by simp [htime], out, num, draws, dev, hE, ?_⟩
          rintro ⟨dv, l⟩ (⟨rfl, rfl⟩ | ⟨rfl, hl⟩)
          · exact hdef _ _ hcost
          · obtain rfl := Option.some.inj hl
            exact hdef _ _ ht
      · rename_i htime
        obtain ⟨rfl, rfl⟩ := Prod.mk.inj (Except.ok.inj h)
        refine ⟨by simp [htime], out, num, draws, dev, hE, ?_⟩
        rintro ⟨dv, l⟩ (⟨rfl, rfl⟩ | ⟨rfl, hl⟩)
        · exact hdef _ _ hcost
        · simp at hl

end

/-! ### Examples -/

/-- Consequences of two occupancy classes; those of `RES1` in state 1 are known, the others are random or not there. -/
def exParams : Params := ⟨[str "1", str "2"], [
  ((str "LF.RES1", str "Cost"), fun ds => if ds = str "1" then some ⟨.const 10, none⟩ else if ds = str "2" then some ⟨.const 100, none⟩ else none),
  ((str "LF.RES1", str "Time"), fun ds => if ds = str "1" then some ⟨.const 1, none⟩ else if ds = str "2" then some ⟨.const 7, none⟩ else none),
  ((str "LF.COM1", str "Cost"), fun ds => if ds = str "1" then some ⟨.const 20, some (str "normal")⟩ else none),
  ((str "LF.COM1", str "Time"), fun ds => if ds = str "1" then some ⟨.const 2, some (str "lognormal")⟩ else none),
  ((str "W1", str "Cost"), fun ds => if ds = str "1" then some ⟨.const 3, none⟩ else none)]⟩

def exSetup : Setup ℚ :=
  ⟨ratNum, .lhsMidpoint, ⟨true, false⟩, exParams, fun _ _ => [1 / 2], fun _ _ => [0, 1], fun _ _ => [1 / 3, 1 / 4]⟩

def dcol (cmp loc ds : String) : DKey := ⟨str cmp, str loc, str "1", str "0", str ds⟩

/-- Buildings 10 and 9 are damaged in the first realization, 7 in the second. -/
def exDamage : Damage := ⟨[dcol "W1" "10" "0", dcol "W1" "10" "1", dcol "W1" "9" "0", dcol "W1" "9" "2", dcol "C1" "7" "0", dcol "C1" "7" "1"],
  [fun k => if k.loc = str "7" then (if k.ds = str "0" then some 1 else some 0) else if k.ds = str "0" then some 0 else some 1,
   fun k => if k.loc = str "7" then (if k.ds = str "0" then some 0 else some 1) else if k.ds = str "0" then some 1 else some 0]⟩

def exBldgs : List (Nat × Option Str) := [(10, some (str "RES1")), (7, some (str "COM1")), (9, some (str "RES1")), (8, none)]

/-- The costs and times that are reported, without those that are random. -/
def known (r : Except PyErr (List (Nat × List ℚ) × List (Nat × List ℚ))) : Option (List (Nat × List ℚ) × List (Nat × List ℚ)) :=
  r.toOption.map fun t => (t.1.filter fun e => e.1 ≠ 7, t.2.filter fun e => e.1 ≠ 7)

set_option synthInstance.maxSize 4000 in
example : known (hazusEq exSetup exBldgs exDamage) = some ([(9, [100, 0]), (10, [10, 0])], [(9, [7, 0]), (10, [1, 0])]) := by decide +kernel

example : ((hazusEq exSetup exBldgs exDamage).toOption.map fun t => t.1.map (·.1)) = some [7, 9, 10] := by decide +kernel

example : Good exParams exDamage :=
  ⟨by decide +kernel, by decide, by
    intro key row h ds hds
    have hm := Dict.mem_of_get? h
    simp only [exParams, List.mem_cons, Prod.mk.injEq, List.not_mem_nil, or_false] at hm
    simp only [exParams, List.mem_cons, List.not_mem_nil, or_false]
    by_contra hn
    rw [not_or] at hn
    rcases hm with ⟨_, rfl⟩ | ⟨_, rfl⟩ | ⟨_, rfl⟩ | ⟨_, rfl⟩ | ⟨_, rfl⟩ <;> simp [hn.1, hn.2] at hds⟩

example : (exBldgs.map (·.1)).Nodup := by decide

/-- With one more building that is not damaged there are no results. -/
def exDamage' : Damage := ⟨dcol "W1" "6" "0" :: exDamage.cols, exDamage.rows⟩

example : LossDs.errorOf (hazusEq exSetup ((6, some (str "RES1")) :: exBldgs) exDamage') = some .keyError ∧
    LossDs.errorOf (hazusEq exSetup ((6, some (str "AGR1")) :: exBldgs) exDamage') = some .assertionError := by decide +kernel

/-- The premises of `C99_undamaged_refused` in this case. -/
example : (6, some (str "RES1")) ∈ (6, some (str "RES1")) :: exBldgs ∧ (∃ k ∈ exDamage'.cols, k.loc = decStr 6) ∧
    ∀ k ∈ exDamage'.cols, k.loc = decStr 6 → priced exSetup.params (lossId (str "RES1")) (str "Cost") k = false := by decide +kernel

/-- With the other method building 9 has no result: it is damaged, but this state has no consequence; 6 is not damaged. -/
example : (general exSetup [str "W1", str "C1"] [str "Cost"] exDamage').toOption = some ([(str "10", [3, 0])], none) := by decide +kernel

end Verif.RegLoss
