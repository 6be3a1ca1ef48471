import Verif.Model.AsmRid
import Verif.Props.DemandSample
import Mathlib.Data.List.Nodup

/-!
# Property C86: what the demand sample of an assessment has besides the given demands
-/

namespace Verif.AsmRid

open DemandSample
open DmgParams (Cell)
open FileIO

/-- The residual drifts that belong to the peak drifts in a direction: one column per location, estimated from the peak
drift of that location and direction. -/
def ridOf (est : PyFloat → Label → List (Option ℚ) → List (Option ℚ)) (cols : List Column) (d : Str) (y : PyFloat) : List Column :=
  cols.filterMap fun c => match c.1 with
    | [t, l, d'] => if t = str "PID" ∧ d' = d then some ([str "RID", l, d], est y [l, d] c.2) else none
    | _ => none

/-- The yield drift is given as a number or as a text that reads as a number. -/
def Yield (c : Cell) (y : PyFloat) : Prop := (∃ q, c = .num q ∧ y = .fin q) ∨ ∃ s, c = .text s ∧ pyFloat? s = some y

/-- The configuration asks for residual drifts by FEMA P-58 in the directions `dirs`, with their yield drifts; an empty
configuration asks for none. -/
def Asked (cfg : Dict Str Cell) (dirs : List (Str × PyFloat)) : Prop :=
  (cfg = [] ∧ dirs = []) ∨
  (cfg.NoDupKeys ∧ (str "method", .text (str "FEMA P-58")) ∈ cfg ∧ dirs ≠ [] ∧
    List.Forall₂ (fun e d => e.1 = d.1 ∧ Yield e.2 d.2) (cfg.filter fun e => decide (e.1 ≠ str "method")) dirs)

theorem yieldDrift_of {c : Cell} {y : PyFloat} (h : Yield c y) : yieldDrift c = .ok y := by
  rcases h with ⟨q, rfl, rfl⟩ | ⟨s, rfl, h⟩
  · rfl
  · simp [yieldDrift, h]

theorem erase_eq_filter {κ α : Type} [DecidableEq κ] {d : Dict κ α} (h : d.NoDupKeys) (k : κ) :
    d.erase k = d.filter fun e => decide (e.1 ≠ k) := by
  induction d with
  | nil => rfl
  | cons e d ih =>
    obtain ⟨a, b⟩ := e
    simp only [Dict.NoDupKeys, Dict.keys, List.map_cons, List.nodup_cons] at h
    unfold Dict.erase
    by_cases hk : a = k
    · subst hk
      rw [if_pos rfl, List.filter_cons_of_neg (by simp)]
      symm
      rw [List.filter_eq_self]
      intro e he
      simp only [decide_eq_true_eq]
      rintro rfl
      exact h.1 (List.mem_map_of_mem he)
    · rw [if_neg hk, List.filter_cons_of_pos (by simp [hk]), ih h.2]

theorem erase_keys {κ α : Type} [DecidableEq κ] {d : Dict κ α} (h : d.NoDupKeys) (k : κ) : (d.erase k).get? k = none := by
  rw [erase_eq_filter h, Dict.get?_eq_none_iff]
  intro hm
  obtain ⟨e, he, rfl⟩ := List.mem_map.1 hm
  simpa using (List.mem_filter.1 he).2

/-- The columns of a saved table in one direction. -/
theorem rid_perm (est : PyFloat → Label → List (Option ℚ) → List (Option ℚ)) (d : Str) (y : PyFloat) {t : RawTable} {cols : List Column}
    (hclean : ∀ c ∈ cols, c.1.length = 3)
    (hp : (t.map fun c => (c.1, c.2.2)).Perm cols) :
    ((inDirection d (pidColumns t)).map fun c => (str "RID" :: c.1, est y c.1 c.2)).Perm (ridOf est cols d y) := by
  have h1 : ((inDirection d (pidColumns t)).map fun c => (str "RID" :: c.1, est y c.1 c.2)) =
      ridOf est (t.map fun c => (c.1, c.2.2)) d y := by
    have hc : ∀ c ∈ t, c.1.length = 3 := by
      intro c hc
      exact hclean (c.1, c.2.2) (hp.mem_iff.1 (List.mem_map.2 ⟨c, hc, rfl⟩))
    clear hp
    induction t with
    | nil => rfl
    | cons c t ih =>
      have ih := ih fun c h => hc c (List.mem_cons_of_mem _ h)
      obtain ⟨lab, u, v⟩ := c
      have h3 := hc _ List.mem_cons_self
      match lab, h3 with
      | [a, l, d'], _ =>
        unfold inDirection pidColumns ridOf at ih ⊢
        rw [List.map_cons, List.filterMap_cons, List.filterMap_cons]
        simp only [List.head?_cons, Option.some.injEq, List.tail_cons]
        by_cases ha : a = str "PID"
        · subst ha
          simp only [if_true, true_and]
          by_cases hd : d' = d
          · subst hd
            rw [List.filter_cons_of_pos (by simp), List.map_cons]
            simp only [if_true]
            rw [← ih]
          · rw [List.filter_cons_of_neg (by simp [hd])]
            simp only [hd, if_false]
            exact ih
        · simp only [ha, if_false, false_and]
          exact ih
  rw [h1]
  exact hp.filterMap _

/-- What is asked of the generated sample: distinct labels with three parts, no flags, no residual drifts yet, known units,
and peak drifts in a unit without conversion. -/
structure Generated (table : Dict Str ℚ) (s : Sample) (n : Nat) : Prop where
  nonempty : s.cols ≠ []
  rows : ∀ c ∈ s.cols, c.2.length = n
  distinct : (s.cols.map Prod.fst).Nodup
  clean : ∀ c ∈ s.cols, Clean c.1
  noFlags : ∀ c ∈ s.cols, c.1.head? ≠ some (str "ERROR")
  noRid : ∀ c ∈ s.cols, c.1.head? ≠ some (str "RID")
  units : Dict.NoDupKeys s.units
  known : ∀ u ∈ s.units.map Prod.snd, ∃ f, table.get? u = some f ∧ f ≠ 0
  unitless : table.get? (str "unitless") = some 1
  drifts : ∀ l d u, Dict.get? s.units [str "PID", l, d] = some u → table.get? u = some 1

theorem ridOf_label {est : PyFloat → Label → List (Option ℚ) → List (Option ℚ)} {cols : List Column} {d : Str} {y : PyFloat}
    {c : Column} (h : c ∈ ridOf est cols d y) : ∃ l v, c = ([str "RID", l, d], est y [l, d] v) ∧ ([str "PID", l, d], v) ∈ cols := by
  obtain ⟨c', hc', he⟩ := List.mem_filterMap.1 h
  obtain ⟨lab, v⟩ := c'
  match lab with
  | [] => simp at he
  | [_] => simp at he
  | [_, _] => simp at he
  | _ :: _ :: _ :: _ :: _ => simp at he
  | [t, l, d'] =>
    simp only at he
    split at he
    · rename_i h
      obtain ⟨rfl, rfl⟩ := h
      simp only [Option.some.injEq] at he
      exact ⟨l, v, he.symm, hc'⟩
    · cases he

theorem ridOf_nodup {est : PyFloat → Label → List (Option ℚ) → List (Option ℚ)} {cols : List Column} {d : Str} {y : PyFloat}
    (h : (cols.map Prod.fst).Nodup) : ((ridOf est cols d y).map Prod.fst).Nodup := by
  induction cols with
  | nil => exact List.nodup_nil
  | cons c cols ih =>
    rw [List.map_cons, List.nodup_cons] at h
    have ih := ih h.2
    unfold ridOf at ih ⊢
    rw [List.filterMap_cons]
    split
    · exact ih
    · rename_i r hr
      rw [List.map_cons, List.nodup_cons]
      refine ⟨?_, ih⟩
      intro hm
      obtain ⟨c2, h2, he⟩ := List.mem_map.1 hm
      obtain ⟨l2, v2, rfl, hc2⟩ := ridOf_label (cols := cols) (est := est) (y := y) h2
      obtain ⟨l1, v1, rfl, hc1⟩ := ridOf_label (cols := [c]) (est := est) (y := y) (d := d) (c := r) (by
        unfold ridOf
        rw [List.filterMap_cons, hr]
        exact List.mem_cons_self)
      simp only [List.cons.injEq, true_and, and_true] at he
      subst he
      rw [List.mem_singleton] at hc1
      apply h.1
      rw [← hc1]
      exact List.mem_map.2 ⟨_, hc2, rfl⟩

/-- The label of the constant demand. -/
def oneLabel : Label := [str "ONE", str "0", str "1"]

theorem fst_eq {l : List (Str × Cell)} {ds : List (Str × PyFloat)} (h : List.Forall₂ (fun e d => e.1 = d.1 ∧ Yield e.2 d.2) l ds) :
    l.map Prod.fst = ds.map Prod.fst := by
  induction h with
  | nil => rfl
  | cons h _ ih => rw [List.map_cons, List.map_cons, h.1, ih]

theorem flatMap_perm {α β : Type} (f g : α → List β) (h : ∀ a, (f a).Perm (g a)) (l : List α) : (l.flatMap f).Perm (l.flatMap g) := by
  induction l with
  | nil => exact List.Perm.refl _
  | cons a l ih => exact List.Perm.append (h a) ih

theorem inferRid_ok (est : PyFloat → Label → List (Option ℚ) → List (Option ℚ)) (cfg : Dict Str Cell) (t : RawTable)
    (dirs : List (Str × PyFloat)) (ha : Asked cfg dirs) (hd : ∀ d ∈ dirs, inDirection d.1 (pidColumns t) ≠ []) :
    (inferRid est cfg t).1 = .ok (t ++ dirs.flatMap fun d =>
      (inDirection d.1 (pidColumns t)).map fun c => (str "RID" :: c.1, some (str "unitless"), est d.2 c.1 c.2)) := by
  rcases ha with ⟨rfl, rfl⟩ | ⟨hn, hm, hne, hf⟩
  · simp [inferRid]
  · have hcne : cfg ≠ [] := by rintro rfl; cases hm
    unfold inferRid
    rw [if_neg hcne, Dict.get?_of_mem hn hm]
    simp only [if_true]
    have hmap : ∀ (l : List (Str × Cell)) (ds : List (Str × PyFloat)), List.Forall₂ (fun e d => e.1 = d.1 ∧ Yield e.2 d.2) l ds →
        (∀ d ∈ ds, inDirection d.1 (pidColumns t) ≠ []) →
        mapE (ridOne est (pidColumns t)) l = .ok (ds.map fun d =>
          (inDirection d.1 (pidColumns t)).map fun c => (str "RID" :: c.1, some (str "unitless"), est d.2 c.1 c.2)) := by
      intro l ds hf
      induction hf with
      | nil => intro _; rfl
      | cons hab _ ih =>
        rename_i a b l1 l2 _
        intro hds
        have h1 : ridOne est (pidColumns t) a = .ok ((inDirection b.1 (pidColumns t)).map fun c =>
            (str "RID" :: c.1, some (str "unitless"), est b.2 c.1 c.2)) := by
          unfold ridOne
          rw [hab.1, if_neg (hds b List.mem_cons_self), yieldDrift_of hab.2]
        simp [mapE, h1, ih fun d h => hds d (List.mem_cons_of_mem _ h)]
    have hpid : pidColumns t ≠ [] := by
      obtain ⟨d, ds, rfl⟩ := List.exists_cons_of_ne_nil hne
      intro h
      exact hd d List.mem_cons_self (by rw [h]; rfl)
    have htab : ridTable est (cfg.erase (str "method")) t = .ok (dirs.flatMap fun d =>
        (inDirection d.1 (pidColumns t)).map fun c => (str "RID" :: c.1, some (str "unitless"), est d.2 c.1 c.2)) := by
      unfold ridTable
      rw [if_neg hpid, erase_eq_filter hn, hmap _ _ hf hd]
      simp only
      rw [if_neg (by simpa using hne), List.flatMap_def]
    rw [htab]

/-- **C86.** The demand sample after `calculate_demand`: all demands of the generated sample with their values, for every
direction in the configuration the residual drifts of all its locations, and the constant demand, which is one in every
realization; nothing else.  Missing: samples that already have residual drifts. -/
theorem C86_final_sample_partial (table : Dict Str ℚ) (est : PyFloat → Label → List (Option ℚ) → List (Option ℚ))
    (cfg : Dict Str Cell) (s : Sample) (n : Nat) (dirs : List (Str × PyFloat)) (hs : Generated table s n) (ha : Asked cfg dirs)
    (hd : ∀ d ∈ dirs, ∃ l v, ([str "PID", l, d.1], v) ∈ s.cols) :
    ∃ r, (finishDemand table est cfg s).1 = .ok r ∧
      r.cols.Perm ((s.cols.filter fun c => decide (c.1 ≠ oneLabel)) ++ (dirs.flatMap fun d => ridOf est s.cols d.1 d.2) ++
        [(oneLabel, List.replicate n (some 1))]) ∧
      ∀ lab u, (lab, u) ∈ r.units ↔ ((lab = oneLabel ∨ ∃ d ∈ dirs, ∃ c ∈ ridOf est s.cols d.1 d.2, c.1 = lab) ∧ u = str "unitless") ∨
        (lab ≠ oneLabel ∧ lab ∈ s.cols.map Prod.fst ∧ (lab, u) ∈ s.units) := by
  have hk' : ∀ u ∈ s.units.map Prod.snd, ∃ f, table.get? u = some f := fun u h => (hs.known u h).imp fun _ h => h.1
  have hsave := saveSample_ok table s hs.units hk'
  set g : Column → Column := fun c => (c.1, scaleCells (1 / loadFactor table (Dict.get? s.units c.1)) c.2) with hg
  set t : RawTable := (pySort (fun a b => labelLe a.1 b.1) (s.cols.map g)).map
    fun c => (c.1, Dict.get? s.units c.1, c.2) with ht
  have htp : t.Perm (s.cols.map fun c => (c.1, Dict.get? s.units c.1, (g c).2)) := by
    rw [ht]
    refine ((pySort_perm _ _).map _).trans (List.Perm.of_eq ?_)
    rw [List.map_map]; rfl
  have hmemt : ∀ c ∈ t, ∃ c' ∈ s.cols, c = (c'.1, Dict.get? s.units c'.1, (g c').2) := by
    intro c hc
    obtain ⟨c', h1, h2⟩ := List.mem_map.1 (htp.mem_iff.1 hc)
    exact ⟨c', h1, h2.symm⟩
  have htkeys : (t.map Prod.fst).Nodup := by
    rw [(htp.map Prod.fst).nodup_iff, List.map_map]
    exact hs.distinct
  -- the scaled columns
  have hsc : (t.map fun c => (c.1, c.2.2)).Perm (s.cols.map g) := by
    refine (htp.map _).trans (List.Perm.of_eq ?_)
    rw [List.map_map]
    rfl
  have hgl : ∀ c ∈ s.cols.map g, c.1.length = 3 := by
    intro c hc
    obtain ⟨c', h, rfl⟩ := List.mem_map.1 hc
    exact (hs.clean c' h).1
  have hridg : ∀ d y, ridOf est (s.cols.map g) d y = ridOf est s.cols d y := by
    intro d y
    unfold ridOf
    rw [List.filterMap_map]
    apply List.filterMap_congr
    intro c hc
    obtain ⟨lab, v⟩ := c
    simp only [Function.comp, hg]
    match lab with
    | [] => rfl
    | [_] => rfl
    | [_, _] => rfl
    | _ :: _ :: _ :: _ :: _ => rfl
    | [a, l, d'] =>
      simp only
      by_cases had : a = str "PID" ∧ d' = d
      · obtain ⟨rfl, rfl⟩ := had
        have h1 : loadFactor table (Dict.get? s.units [str "PID", l, d']) = 1 := by
          unfold loadFactor
          cases hu : Dict.get? s.units [str "PID", l, d'] with
          | none => rfl
          | some u => simp [hs.drifts l d' u hu]
        rw [h1]
        simp [scaleCells_one]
      · rw [if_neg had, if_neg had]
  set R : Str × PyFloat → RawTable := fun d =>
    (inDirection d.1 (pidColumns t)).map fun c => (str "RID" :: c.1, some (str "unitless"), est d.2 c.1 c.2) with hR
  have hRp : ∀ d, ((R d).map fun c => (c.1, c.2.2)).Perm (ridOf est s.cols d.1 d.2) := by
    intro d
    rw [← hridg]
    refine (List.Perm.of_eq ?_).trans (rid_perm est d.1 d.2 hgl hsc)
    rw [hR, List.map_map]
    rfl
  have hRu : ∀ d, ∀ c ∈ R d, c.2.1 = some (str "unitless") := by
    intro d c hc
    obtain ⟨x, _, rfl⟩ := List.mem_map.1 hc
    rfl
  have hRlab : ∀ d, ∀ c ∈ R d, ∃ l v, c.1 = [str "RID", l, d.1] ∧ ([str "PID", l, d.1], v) ∈ s.cols := by
    intro d c hc
    have := (hRp d).mem_iff.1 (List.mem_map.2 ⟨c, hc, rfl⟩)
    obtain ⟨l, v, he, hm⟩ := ridOf_label this
    exact ⟨l, v, congrArg Prod.fst he, hm⟩
  have hdt : ∀ d ∈ dirs, inDirection d.1 (pidColumns t) ≠ [] := by
    intro d hdm h
    obtain ⟨l, v, hv⟩ := hd d hdm
    have hRe : R d = [] := by rw [hR]; simp only [h, List.map_nil]
    have := hRp d
    rw [hRe, List.map_nil] at this
    have h0 := this.symm.eq_nil
    have : ([str "RID", l, d.1], est d.2 [l, d.1] v) ∈ ridOf est s.cols d.1 d.2 := by
      unfold ridOf
      exact List.mem_filterMap.2 ⟨_, hv, by simp⟩
    rw [h0] at this
    cases this
  have hinf := inferRid_ok est cfg t dirs ha hdt
  change (inferRid est cfg t).1 = .ok (t ++ dirs.flatMap R) at hinf
  set T : RawTable := t ++ dirs.flatMap R with hT
  have hdirs : (dirs.map Prod.fst).Nodup := by
    rcases ha with ⟨_, rfl⟩ | ⟨hn, _, _, hf⟩
    · exact List.nodup_nil
    · have he : (cfg.filter fun e => decide (e.1 ≠ str "method")).map Prod.fst = dirs.map Prod.fst := by
        exact fst_eq hf
      rw [← he]
      exact List.Nodup.sublist (List.Sublist.map _ List.filter_sublist) hn
  have hTkeys : Dict.NoDupKeys T := by
    unfold Dict.NoDupKeys Dict.keys
    rw [hT, List.map_append, List.nodup_append']
    refine ⟨htkeys, ?_, ?_⟩
    · rw [List.map_flatMap, List.nodup_flatMap]
      constructor
      · intro d _
        have := ((hRp d).map Prod.fst).nodup_iff.2 (ridOf_nodup hs.distinct)
        rwa [List.map_map] at this
      · refine List.Pairwise.imp_of_mem ?_ (List.Pairwise.of_map Prod.fst (fun a b h => h) hdirs)
        intro a b _ _ hab x hxa hxb
        obtain ⟨c1, h1, rfl⟩ := List.mem_map.1 hxa
        obtain ⟨c2, h2, he⟩ := List.mem_map.1 hxb
        obtain ⟨l1, _, e1, _⟩ := hRlab a c1 h1
        obtain ⟨l2, _, e2, _⟩ := hRlab b c2 h2
        rw [e1, e2] at he
        simp only [List.cons.injEq, true_and, and_true] at he
        exact hab he.2.symm
    · intro x hx hx'
      obtain ⟨c, hc, rfl⟩ := List.mem_map.1 hx
      obtain ⟨c2, hc2, he⟩ := List.mem_map.1 hx'
      obtain ⟨d, _, hc2⟩ := List.mem_flatMap.1 hc2
      obtain ⟨l, _, e2, _⟩ := hRlab d c2 hc2
      obtain ⟨c', h', rfl⟩ := hmemt c hc
      apply hs.noRid c' h'
      rw [← show c2.1 = c'.1 from he, e2]
      rfl
  have hcount : rowCount T = n := by
    have : t ≠ [] := by
      intro h
      rw [h] at htp
      have := htp.length_eq
      simp only [List.length_nil, List.length_map] at this
      exact hs.nonempty (List.length_eq_zero_iff.1 this.symm)
    obtain ⟨c, t', htc⟩ := List.exists_cons_of_ne_nil this
    obtain ⟨c', h1, h2⟩ := hmemt c (by rw [htc]; simp)
    rw [hT, htc, List.cons_append]
    simp only [rowCount, h2, hg, scaleCells, List.length_map]
    exact hs.rows c' h1
  set T' : RawTable := addOne T with hT'
  have hT'p : T'.Perm (T.filter (fun e => e.1 ≠ oneLabel) ++ [(oneLabel, some (str "unitless"), List.replicate n (some 1))]) := by
    rw [hT', addOne, hcount]
    exact set_perm hTkeys oneLabel _
  have hmemT : ∀ c ∈ T', c = (oneLabel, some (str "unitless"), List.replicate n (some 1)) ∨ c ∈ t ∨ ∃ d ∈ dirs, c ∈ R d := by
    intro c hc
    rcases List.mem_append.1 (hT'p.mem_iff.1 hc) with h | h
    · rcases List.mem_append.1 (List.mem_filter.1 h).1 with h | h
      · exact .inr (.inl h)
      · obtain ⟨d, h1, h2⟩ := List.mem_flatMap.1 h
        exact .inr (.inr ⟨d, h1, h2⟩)
    · exact .inl (List.mem_singleton.1 h)
  have hload := loadSample_noError table T'
    (by
      intro c hc
      rcases hmemT c hc with rfl | h | ⟨d, _, h⟩
      · exact ⟨rfl, by change ∀ w ∈ oneLabel, _; unfold oneLabel; decide⟩
      · obtain ⟨c', h1, rfl⟩ := hmemt c h
        exact hs.clean c' h1
      · obtain ⟨l, v, e, hm⟩ := hRlab d c h
        have := hs.clean _ hm
        rw [e]
        refine ⟨rfl, ?_⟩
        intro w hw
        simp only [List.mem_cons, List.not_mem_nil, or_false] at hw
        rcases hw with rfl | hw
        · decide
        · exact this.2 w (by simp only [List.mem_cons, List.not_mem_nil, or_false]; exact .inr hw))
    (by
      intro c hc
      rcases hmemT c hc with rfl | h | ⟨d, _, h⟩
      · change oneLabel.head? ≠ _; unfold oneLabel; decide
      · obtain ⟨c', h1, rfl⟩ := hmemt c h
        exact hs.noFlags c' h1
      · obtain ⟨l, v, e, hm⟩ := hRlab d c h
        rw [e, List.head?_cons]
        decide)
  -- columns that are kept
  have hRone : ∀ d, ∀ c ∈ R d, c.1 ≠ oneLabel := by
    intro d c hc
    obtain ⟨l, v, e, _⟩ := hRlab d c hc
    rw [e]
    unfold oneLabel
    intro h
    simp only [List.cons.injEq] at h
    exact absurd h.1 (by decide)
  have hfilt : T.filter (fun e => e.1 ≠ oneLabel) = t.filter (fun e => e.1 ≠ oneLabel) ++ dirs.flatMap R := by
    rw [hT, List.filter_append]
    congr 1
    rw [List.filter_eq_self]
    intro c hc
    obtain ⟨d, _, h⟩ := List.mem_flatMap.1 hc
    simpa using hRone d c h
  rw [hfilt] at hT'p
  refine ⟨⟨loadedData table T', loadedUnits T'⟩, ?_, ?_, ?_⟩
  · unfold finishDemand
    rw [hsave]
    simp only
    cases hi : inferRid est cfg t with
    | mk a b =>
      rw [hi] at hinf
      simp only at hinf
      subst hinf
      exact hload
  · refine (loadedData_perm table T').trans ((hT'p.map _).trans ?_)
    rw [List.map_append, List.map_append]
    refine List.Perm.append (List.Perm.append ?_ ?_) ?_
    · refine ((htp.filter _).map _).trans (List.Perm.of_eq ?_)
      rw [List.filter_map, List.map_map]
      conv_rhs => rw [← List.map_id (s.cols.filter fun c => decide (c.1 ≠ oneLabel))]
      refine List.map_congr_left (fun c hc => ?_)
      simp only [Function.comp, hg, id, scaleCells_mul]
      have : 1 / loadFactor table (Dict.get? s.units c.1) * loadFactor table (Dict.get? s.units c.1) = 1 := by
        apply one_div_mul_cancel
        unfold loadFactor
        cases hgu : Dict.get? s.units c.1 with
        | none => simp
        | some u =>
          obtain ⟨f, hf, h0⟩ := hs.known u (List.mem_map_of_mem (f := Prod.snd) (Dict.mem_of_get? hgu))
          simp only [hf]; exact h0
      rw [this, scaleCells_one]
    · rw [List.map_flatMap]
      have hone : ∀ d, ((R d).map fun c => (c.1, scaleCells (loadFactor table c.2.1) c.2.2)) = (R d).map fun c => (c.1, c.2.2) := by
        intro d
        apply List.map_congr_left
        intro c hc
        rw [hRu d c hc]
        simp [loadFactor, hs.unitless, scaleCells_one]
      exact flatMap_perm _ _ (fun d => by rw [hone d]; exact hRp d) _
    · simp [loadFactor, hs.unitless, scaleCells_one]
  · intro lab u
    simp only
    rw [(loadedUnits_perm T').mem_iff, List.mem_filterMap]
    constructor
    · rintro ⟨c, hc, he⟩
      obtain ⟨w, hw, he⟩ := Option.map_eq_some_iff.1 he
      cases he
      rcases List.mem_append.1 (hT'p.mem_iff.1 hc) with h | h
      · rcases List.mem_append.1 h with h | h
        · right
          obtain ⟨h1, h2⟩ := List.mem_filter.1 h
          obtain ⟨c', h', rfl⟩ := hmemt c h1
          exact ⟨by simpa using h2, List.mem_map_of_mem h', Dict.mem_of_get? hw⟩
        · left
          obtain ⟨d, h1, h2⟩ := List.mem_flatMap.1 h
          refine ⟨.inr ⟨d, h1, (c.1, c.2.2), (hRp d).mem_iff.1 (List.mem_map.2 ⟨c, h2, rfl⟩), rfl⟩, ?_⟩
          rw [hRu d c h2] at hw
          simpa using hw.symm
      · left
        rw [List.mem_singleton] at h
        subst h
        exact ⟨.inl rfl, by simpa using hw.symm⟩
    · rintro (⟨h | ⟨d, hdm, c, hc, rfl⟩, rfl⟩ | ⟨h1, h2, h3⟩)
      · exact ⟨_, hT'p.mem_iff.2 (List.mem_append_right _ List.mem_cons_self), by simp [h]⟩
      · obtain ⟨c', h', he⟩ := List.mem_map.1 ((hRp d).mem_iff.2 hc)
        refine ⟨c', hT'p.mem_iff.2 (List.mem_append_left _ (List.mem_append_right _ (List.mem_flatMap.2 ⟨d, hdm, h'⟩))), ?_⟩
        rw [hRu d c' h', ← he]
        rfl
      · obtain ⟨c, hc, rfl⟩ := List.mem_map.1 h2
        refine ⟨(c.1, Dict.get? s.units c.1, (g c).2), hT'p.mem_iff.2 (List.mem_append_left _ (List.mem_append_left _
          (List.mem_filter.2 ⟨htp.mem_iff.2 (List.mem_map.2 ⟨c, hc, rfl⟩), by simpa using h1⟩))), ?_⟩
        rw [Dict.get?_of_mem hs.units h3]
        rfl

/-- The saved table has exactly the labels of the sample. -/
theorem saved (table : Dict Str ℚ) (s : Sample) (n : Nat) (hs : Generated table s n) :
    ∃ t, saveSample table s = .ok t ∧ ∀ lab, lab ∈ t.map Prod.fst ↔ lab ∈ s.cols.map Prod.fst := by
  refine ⟨_, saveSample_ok table s hs.units fun u h => (hs.known u h).imp fun _ h => h.1, fun lab => ?_⟩
  rw [List.map_map, ((pySort_perm _ _).map _).mem_iff, List.map_map]
  rfl

theorem pid_nil {t : RawTable} : pidColumns t = [] ↔ ∀ lab ∈ t.map Prod.fst, lab.head? ≠ some (str "PID") := by
  unfold pidColumns
  rw [List.filterMap_eq_nil_iff]
  simp only [List.mem_map, forall_exists_index, and_imp, forall_apply_eq_imp_iff₂]
  refine forall₂_congr fun c _ => ?_
  split
  · simp_all
  · simp_all

theorem inDirection_nil {t : RawTable} {d : Str} (h3 : ∀ lab ∈ t.map Prod.fst, lab.length = 3) :
    inDirection d (pidColumns t) = [] ↔ ∀ l, [str "PID", l, d] ∉ t.map Prod.fst := by
  constructor
  · intro h l hm
    obtain ⟨c, hc, he⟩ := List.mem_map.1 hm
    have h1 : (([l, d] : Label), c.2.2) ∈ inDirection d (pidColumns t) := by
      refine List.mem_filter.2 ⟨List.mem_filterMap.2 ⟨c, hc, ?_⟩, by simp⟩
      rw [he]; simp
    rw [h] at h1
    cases h1
  · intro h
    rw [List.eq_nil_iff_forall_not_mem]
    intro c hc
    obtain ⟨h1, h2⟩ := List.mem_filter.1 hc
    obtain ⟨c', hc', he⟩ := List.mem_filterMap.1 h1
    split at he
    · rename_i hh
      cases he
      have hl := h3 c'.1 (List.mem_map_of_mem hc')
      obtain ⟨lab, u, v⟩ := c'
      match lab, hl with
      | [a, l, d'], _ =>
        simp only [List.head?_cons, Option.some.injEq] at hh
        subst hh
        simp at h2
        subst h2
        exact h l (List.mem_map_of_mem hc')
    · cases he

theorem mapE_first {α β : Type} {f : α → Except PyErr β} (l : List α) (e : PyErr) (x : α) (hx : x ∈ l) (hxe : f x = .error e)
    (h : ∀ y ∈ l, f y = .error e ∨ ∃ b, f y = .ok b) : mapE f l = .error e := by
  induction l with
  | nil => cases hx
  | cons a l ih =>
    unfold mapE
    rcases h a List.mem_cons_self with ha | ⟨b, hb⟩
    · rw [ha]
    · rw [hb]
      rcases List.mem_cons.1 hx with rfl | hx
      · rw [hb] at hxe; cases hxe
      · simp only
        rw [ih hx fun y hy => h y (List.mem_cons_of_mem _ hy)]

/-- **C86, refusals.** With a non-empty configuration, the calculation is refused: without a method (KeyError); with another
method (ValueError); with no direction (ValueError); without peak drifts (KeyError); with a direction that no peak drift has
(KeyError, if all yield drifts are numbers); with a yield drift that is not a number (ValueError, if all directions are there). -/
theorem C86_refused (table : Dict Str ℚ) (est : PyFloat → Label → List (Option ℚ) → List (Option ℚ)) (cfg : Dict Str Cell)
    (s : Sample) (n : Nat) (hs : Generated table s n) (hcfg : cfg.NoDupKeys) (hne : cfg ≠ []) :
    (str "method" ∉ cfg.keys → (finishDemand table est cfg s).1 = .error .keyError) ∧
    (∀ m, (str "method", m) ∈ cfg → m ≠ .text (str "FEMA P-58") → (finishDemand table est cfg s).1 = .error .valueError) ∧
    ((str "method", .text (str "FEMA P-58")) ∈ cfg →
      ((∀ lab ∈ s.cols.map Prod.fst, lab.head? ≠ some (str "PID")) → (finishDemand table est cfg s).1 = .error .keyError) ∧
      ((∃ lab ∈ s.cols.map Prod.fst, lab.head? = some (str "PID")) → (∀ k ∈ cfg.keys, k = str "method") →
        (finishDemand table est cfg s).1 = .error .valueError) ∧
      (∀ d ∈ cfg.keys, d ≠ str "method" → (∀ l, [str "PID", l, d] ∉ s.cols.map Prod.fst) →
        (∀ e ∈ cfg, e.1 ≠ str "method" → ∃ y, Yield e.2 y) → (finishDemand table est cfg s).1 = .error .keyError) ∧
      (∀ e ∈ cfg, e.1 ≠ str "method" → (∃ t, e.2 = .text t ∧ pyFloat? t = none) →
        (∀ d ∈ cfg.keys, d ≠ str "method" → ∃ l, [str "PID", l, d] ∈ s.cols.map Prod.fst) →
        (finishDemand table est cfg s).1 = .error .valueError)) := by
  obtain ⟨t, ht, hlab⟩ := saved table s n hs
  have h3 : ∀ lab ∈ t.map Prod.fst, lab.length = 3 := by
    intro lab h
    obtain ⟨c, hc, rfl⟩ := List.mem_map.1 ((hlab lab).1 h)
    exact (hs.clean c hc).1
  refine ⟨?_, ?_, ?_⟩
  · intro hm
    unfold finishDemand inferRid
    rw [ht]
    simp only
    rw [if_neg hne, (Dict.get?_eq_none_iff _ _).2 hm]
  · intro m hm hmne
    unfold finishDemand inferRid
    rw [ht]
    simp only
    rw [if_neg hne, Dict.get?_of_mem hcfg hm]
    simp only
    rw [if_neg hmne]
  · intro hm
    have hfin : ∀ e, ridTable est (cfg.erase (str "method")) t = .error e → (finishDemand table est cfg s).1 = .error e := by
      intro e he
      unfold finishDemand inferRid
      rw [ht]
      simp only
      rw [if_neg hne, Dict.get?_of_mem hcfg hm]
      simp only [if_true]
      rw [he]
    rw [erase_eq_filter hcfg] at hfin
    refine ⟨?_, ?_, ?_, ?_⟩
    · intro h
      apply hfin
      unfold ridTable
      rw [if_pos (pid_nil.2 fun lab hl => h lab ((hlab lab).1 hl))]
    · rintro ⟨lab, hl, hp⟩ hk
      apply hfin
      unfold ridTable
      rw [if_neg (fun h => pid_nil.1 h lab ((hlab lab).2 hl) hp)]
      have : (cfg.filter fun e => decide (e.1 ≠ str "method")) = [] := by
        rw [List.filter_eq_nil_iff]
        intro e he
        simp [hk e.1 (List.mem_map_of_mem he)]
      rw [this]
      rfl
    · intro d hd hdm hno hy
      apply hfin
      obtain ⟨e, he, rfl⟩ := List.mem_map.1 hd
      unfold ridTable
      split
      · rfl
      · rw [mapE_first _ .keyError e (List.mem_filter.2 ⟨he, by simpa using hdm⟩)]
        · unfold ridOne
          rw [if_pos ((inDirection_nil h3).2 fun l hl => hno l ((hlab _).1 hl))]
        · intro y hym
          obtain ⟨h1, h2⟩ := List.mem_filter.1 hym
          obtain ⟨q, hq⟩ := hy y h1 (by simpa using h2)
          unfold ridOne
          split
          · exact .inl rfl
          · rw [yieldDrift_of hq]
            exact .inr ⟨_, rfl⟩
    · rintro e he hem ⟨tx, hx, hp⟩ hall
      apply hfin
      have hdir : ∀ y ∈ cfg, y.1 ≠ str "method" → inDirection y.1 (pidColumns t) ≠ [] := by
        intro y hy hym h
        obtain ⟨l, hl⟩ := hall y.1 (List.mem_map_of_mem hy) hym
        exact (inDirection_nil h3).1 h l ((hlab _).2 hl)
      unfold ridTable
      rw [if_neg (fun h => hdir e he hem (by rw [h]; rfl))]
      rw [mapE_first _ .valueError e (List.mem_filter.2 ⟨he, by simpa using hem⟩)]
      · unfold ridOne
        rw [if_neg (hdir e he hem), hx]
        simp [yieldDrift, hp]
      · intro y hym
        obtain ⟨h1, h2⟩ := List.mem_filter.1 hym
        unfold ridOne
        rw [if_neg (hdir y h1 (by simpa using h2))]
        cases hc : y.2 with
        | num q => exact .inr ⟨_, rfl⟩
        | text w =>
          cases hw : pyFloat? w with
          | none => left; simp [yieldDrift, hw]
          | some f => right; simp [yieldDrift, hw]

/-- **C86, the configuration is consumed.** The call removes the method from the configuration it was given, whether it
succeeds or not; a second call with the same object is refused with a KeyError. -/
theorem C86_second_call_refused (table : Dict Str ℚ) (est : PyFloat → Label → List (Option ℚ) → List (Option ℚ))
    (cfg : Dict Str Cell) (s s2 : Sample) (n n2 : Nat) (hs : Generated table s n) (hs2 : Generated table s2 n2)
    (hcfg : cfg.NoDupKeys) (m : Cell) (hm : (str "method", m) ∈ cfg) (d : Str) (hd : d ∈ cfg.keys) (hdm : d ≠ str "method") :
    (finishDemand table est (finishDemand table est cfg s).2 s2).1 = .error .keyError := by
  have hne : cfg ≠ [] := by rintro rfl; cases hm
  have h1 : (finishDemand table est cfg s).2 = cfg.filter fun e => decide (e.1 ≠ str "method") := by
    obtain ⟨t, ht, -⟩ := saved table s n hs
    rw [← erase_eq_filter hcfg]
    unfold finishDemand inferRid
    rw [ht]
    simp only
    rw [if_neg hne, Dict.get?_of_mem hcfg hm]
    simp only
    by_cases hf : m = .text (str "FEMA P-58")
    · rw [if_pos hf]
      cases ridTable est (cfg.erase (str "method")) t <;> rfl
    · rw [if_neg hf]
  rw [h1]
  obtain ⟨e, he, rfl⟩ := List.mem_map.1 hd
  refine (C86_refused table est _ s2 n2 hs2 ?_ ?_).1 ?_
  · exact List.Nodup.sublist (List.Sublist.map _ List.filter_sublist) hcfg
  · intro h
    have := List.filter_eq_nil_iff.1 h e he
    simp [hdm] at this
  · intro h
    obtain ⟨e, he, h⟩ := List.mem_map.1 h
    have := (List.mem_filter.1 he).2
    simp [h] at this

/-! ### A concrete case -/

/-- Two stories, two directions, one direction with residual drifts. -/
def exSample : Sample where
  cols := [([str "PFA", str "1", str "1"], [some 3, some 4]), ([str "PID", str "1", str "1"], [some (1/100), some (1/50)]),
    ([str "PID", str "1", str "2"], [some (3/100), some (1/25)]), ([str "PID", str "2", str "1"], [some (1/20), none])]
  units := [([str "PFA", str "1", str "1"], str "g"), ([str "PID", str "1", str "1"], str "rad")]

def exTable : Dict Str ℚ := [(str "g", 981/100), (str "rad", 1), (str "unitless", 1)]

def exCfg : Dict Str Cell := [(str "method", .text (str "FEMA P-58")), (str "1", .text (str "0.0075"))]

theorem exGenerated : Generated exTable exSample 2 where
  nonempty := by decide
  rows := by decide
  distinct := by decide +kernel
  clean := by unfold Clean; decide +kernel
  noFlags := by decide +kernel
  noRid := by decide +kernel
  units := by unfold Dict.NoDupKeys; decide +kernel
  known := by
    intro u hu
    simp only [exSample, List.map_cons, List.map_nil, List.mem_cons, List.not_mem_nil, or_false] at hu
    rcases hu with rfl | rfl
    · exact ⟨981/100, by decide +kernel, by norm_num⟩
    · exact ⟨1, by decide +kernel, by norm_num⟩
  unitless := by decide +kernel
  drifts := by
    intro l d u h
    have := Dict.mem_of_get? h
    simp only [exSample, List.mem_cons, Prod.mk.injEq, List.not_mem_nil, or_false] at this
    rcases this with ⟨h, _⟩ | ⟨_, rfl⟩
    · simp only [List.cons.injEq] at h
      exact absurd h.1 (by decide)
    · decide +kernel

theorem exAsked : Asked exCfg [(str "1", .fin (3/400))] := by
  refine .inr ⟨by unfold Dict.NoDupKeys; decide +kernel, by simp [exCfg], by simp, ?_⟩
  have : (exCfg.filter fun e => decide (e.1 ≠ str "method")) = [(str "1", .text (str "0.0075"))] := by decide +kernel
  rw [this]
  exact List.Forall₂.cons ⟨rfl, .inr ⟨_, rfl, by decide +kernel⟩⟩ List.Forall₂.nil

/-- The hypotheses are met, and direction 2 gets no residual drifts. -/
example : ∃ r, (finishDemand exTable (fun _ _ v => v) exCfg exSample).1 = .ok r ∧
    ([str "RID", str "2", str "1"], [some (1/20), none]) ∈ r.cols ∧
    (∀ c ∈ r.cols, c.1 ≠ [str "RID", str "1", str "2"]) ∧ (oneLabel, [some 1, some 1]) ∈ r.cols := by
  obtain ⟨r, h1, h2, -⟩ := C86_final_sample_partial exTable (fun _ _ v => v) exCfg exSample 2 _ exGenerated exAsked (by
    intro d hd
    rw [List.mem_singleton] at hd
    subst hd
    exact ⟨str "1", _, List.mem_cons_of_mem _ List.mem_cons_self⟩)
  refine ⟨r, h1, h2.mem_iff.2 (by decide +kernel), ?_, h2.mem_iff.2 (by decide +kernel)⟩
  intro c hc
  have := h2.mem_iff.1 hc
  clear hc h1 h2 r
  revert c
  decide +kernel

example : (finishDemand exTable (fun _ _ v => v) (finishDemand exTable (fun _ _ v => v) exCfg exSample).2 exSample).1 = .error .keyError :=
  C86_second_call_refused exTable _ exCfg exSample exSample 2 2 exGenerated exGenerated (by unfold Dict.NoDupKeys; decide +kernel) _
    List.mem_cons_self (str "1") (by decide +kernel) (by decide)

/-- **C86, the schema's key names.** The input schema names the directions `x-direction` and `y-direction`; with these names
every calculation whose demands have other direction names is refused. -/
theorem C86_schema_names_refused (table : Dict Str ℚ) (est : PyFloat → Label → List (Option ℚ) → List (Option ℚ)) (s : Sample)
    (n : Nat) (hs : Generated table s n) (q : ℚ) (hno : ∀ l, [str "PID", l, str "x-direction"] ∉ s.cols.map Prod.fst) :
    (finishDemand table est [(str "method", .text (str "FEMA P-58")), (str "x-direction", .num q)] s).1 = .error .keyError := by
  refine ((C86_refused table est _ s n hs ?_ (by simp)).2.2 (by simp)).2.2.1 (str "x-direction") ?_ (by decide) hno ?_
  · unfold Dict.NoDupKeys Dict.keys; simp only [List.map_cons, List.map_nil]; decide +kernel
  · simp [Dict.keys]
  · intro e he hm
    simp only [List.mem_cons, List.not_mem_nil, or_false] at he
    rcases he with rfl | rfl
    · exact absurd rfl hm
    · exact ⟨.fin q, .inl ⟨q, rfl, rfl⟩⟩

example : (finishDemand exTable (fun _ _ v => v) [(str "method", .text (str "FEMA P-58")), (str "x-direction", .num (3/400))]
    exSample).1 = .error .keyError :=
  C86_schema_names_refused exTable _ exSample 2 exGenerated _ (by
    intro l h
    simp only [exSample, List.map_cons, List.map_nil, List.mem_cons, List.cons.injEq, List.not_mem_nil, or_false, and_true] at h
    have h1 : str "x-direction" ≠ str "1" := by decide
    have h2 : str "x-direction" ≠ str "2" := by decide
    rcases h with h | h | h | h
    · exact h1 h.2.2
    · exact h1 h.2.2
    · exact h2 h.2.2
    · exact h1 h.2.2)

end Verif.AsmRid
