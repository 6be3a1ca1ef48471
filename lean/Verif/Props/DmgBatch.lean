import Verif.Model.DmgBatch
import Verif.Lemmas.PySort
import Verif.Props.FileIO
import Mathlib.Algebra.BigOperators.Group.List.Basic
import Mathlib.Algebra.Order.BigOperators.Group.List

/-! # Property C36: batches of performance groups -/

namespace Verif.DmgBatch

open Verif.DemandReq (PGid)
open Verif.FileIO (uniqueVals uniqueVals_mem uniqueVals_nodup)

/-- Rows that wait for a batch: the cumulative sums start from `s`. -/
def Pref : Int → List BRow → Prop
  | _, [] => True
  | s, r :: l => r.c = s + r.blocks ∧ 0 < r.blocks ∧ r.batch = 0 ∧ Pref r.c l

def blockSum (l : List BRow) : Int := (l.map (·.blocks)).sum

theorem pref_pos {s : Int} {l : List BRow} (h : Pref s l) : ∀ r ∈ l, s < r.c := by
  induction l generalizing s with
  | nil => simp
  | cons a l ih =>
    obtain ⟨h1, h2, _, h4⟩ := h
    intro r hr
    rcases List.mem_cons.1 hr with rfl | hr
    · omega
    · have := ih h4 r hr; omega

theorem pref_batch {s : Int} {l : List BRow} (h : Pref s l) : ∀ r ∈ l, r.batch = 0 := by
  induction l generalizing s with
  | nil => simp
  | cons a l ih =>
    intro r hr
    rcases List.mem_cons.1 hr with rfl | hr
    · exact h.2.2.1
    · exact ih h.2.2.2 r hr

theorem pref_split (size : Int) {s : Int} {l : List BRow} (h : Pref s l) :
    ∃ t u, l = t ++ u ∧ (∀ r ∈ t, r.c ≤ size) ∧ ∀ r ∈ u, size < r.c := by
  induction l generalizing s with
  | nil => exact ⟨[], [], rfl, by simp, by simp⟩
  | cons a l ih =>
    by_cases ha : a.c ≤ size
    · obtain ⟨t, u, rfl, h1, h2⟩ := ih h.2.2.2
      refine ⟨a :: t, u, rfl, ?_, h2⟩
      intro r hr
      rcases List.mem_cons.1 hr with rfl | hr
      · exact ha
      · exact h1 r hr
    · refine ⟨[], a :: l, rfl, by simp, ?_⟩
      intro r hr
      rcases List.mem_cons.1 hr with rfl | hr
      · omega
      · have := pref_pos h.2.2.2 r hr; omega

theorem pref_append {s : Int} {t u : List BRow} (h : Pref s (t ++ u)) :
    Pref (s + blockSum t) u ∧ (∀ r ∈ t, r.c ≤ s + blockSum t) ∧
    (t ≠ [] → ∃ r ∈ t, r.c = s + blockSum t) := by
  induction t generalizing s with
  | nil => simp only [blockSum, List.map_nil, List.sum_nil, add_zero]; exact ⟨h, by simp, by simp⟩
  | cons a t ih =>
    obtain ⟨h1, h2, _, h4⟩ := h
    obtain ⟨i1, i2, i3⟩ := ih h4
    have hs : s + blockSum (a :: t) = a.c + blockSum t := by
      simp only [blockSum, List.map_cons, List.sum_cons] at *; omega
    rw [hs]
    have hlast : ∃ r ∈ a :: t, r.c = a.c + blockSum t := by
      by_cases ht : t = []
      · subst ht; exact ⟨a, by simp, by simp [blockSum]⟩
      · obtain ⟨r, hr, hc⟩ := i3 ht
        exact ⟨r, List.mem_cons_of_mem _ hr, hc⟩
    refine ⟨i1, ?_, fun _ => hlast⟩
    intro r hr
    rcases List.mem_cons.1 hr with rfl | hr
    · by_cases ht : t = []
      · subst ht; simp [blockSum]
      · obtain ⟨r', hr', hc⟩ := i3 ht
        have := pref_pos h4 r' (List.mem_append_left _ hr')
        omega
    · exact i2 r hr

theorem pref_sub {s : Int} {l : List BRow} (m : Int) (h : Pref s l) :
    Pref (s - m) (l.map fun r => { r with c := r.c - m }) := by
  induction l generalizing s with
  | nil => exact True.intro
  | cons a l ih =>
    obtain ⟨h1, h2, h3, h4⟩ := h
    refine ⟨?_, h2, h3, ih h4⟩
    simp only; omega

theorem maxOf_eq {l : List Int} {m : Int} (hm : m ∈ l) (h : ∀ x ∈ l, x ≤ m) : maxOf l = some m := by
  have key : ∀ l : List Int, l ≠ [] → ∃ k, maxOf l = some k ∧ k ∈ l ∧ ∀ x ∈ l, x ≤ k := by
    intro l
    induction l with
    | nil => intro h; exact absurd rfl h
    | cons a l ih =>
      intro _
      by_cases hl : l = []
      · subst hl; exact ⟨a, rfl, by simp, by simp⟩
      · obtain ⟨k, h1, h2, h3⟩ := ih hl
        refine ⟨max a k, by simp [maxOf, h1], ?_, ?_⟩
        · rcases max_choice a k with h | h
          · rw [h]; simp
          · rw [h]; exact List.mem_cons_of_mem _ h2
        · intro x hx
          rcases List.mem_cons.1 hx with rfl | hx
          · exact le_max_left _ _
          · exact (h3 x hx).trans (le_max_right _ _)
  obtain ⟨k, h1, h2, h3⟩ := key l (List.ne_nil_of_mem hm)
  rw [h1]
  congr 1
  exact le_antisymm (h k h2) (h3 m hm)

/-- Rows that have a batch smaller than `b`. -/
def Done (b : Nat) (l : List BRow) : Prop := ∀ r ∈ l, r.c ≤ 0 ∧ 1 ≤ r.batch ∧ r.batch < b

theorem assignFirst_skip (b : Nat) (done : List BRow) (h : ∀ r ∈ done, r.c ≤ 0) (a : BRow) (u : List BRow)
    (ha : 0 < a.c) : assignFirst b (done ++ a :: u) = .ok (done ++ { a with batch := b } :: u) := by
  induction done with
  | nil => simp [assignFirst, ha]
  | cons d done ih =>
    have hd : ¬ 0 < d.c := by have := h d (by simp); omega
    rw [List.cons_append, assignFirst, if_neg hd, ih (fun r hr => h r (List.mem_cons_of_mem _ hr))]
    rfl

/-- What one pass assigns: a nonempty stretch of the waiting rows, within the budget or a single
row. -/
theorem assign_spec (size : Int) (b : Nat) (done rest : List BRow) (hd : Done b done)
    (hp : Pref 0 rest) (hne : rest ≠ []) :
    ∃ t u, rest = t ++ u ∧ t ≠ [] ∧ (blockSum t ≤ size ∨ t.length = 1) ∧
      assign size b (done ++ rest) = .ok (done ++ t.map (fun r => { r with batch := b }) ++ u) := by
  have hdn : ∀ r ∈ done, inBudget size r = false := by
    intro r hr
    have := (hd r hr).1
    simp only [inBudget, decide_eq_false_iff_not]; omega
  obtain ⟨t, u, rfl, ht, hu⟩ := pref_split size hp
  have htm : ∀ r ∈ t, inBudget size r = true := by
    intro r hr
    have := pref_pos hp r (List.mem_append_left _ hr)
    simp only [inBudget, decide_eq_true_eq]; exact ⟨ht r hr, this⟩
  have hum : ∀ r ∈ u, inBudget size r = false := by
    intro r hr
    have := hu r hr
    simp only [inBudget, decide_eq_false_iff_not]; omega
  by_cases hte : t = []
  · subst hte
    cases u with
    | nil => exact absurd rfl hne
    | cons a u =>
      refine ⟨[a], u, rfl, by simp, .inr rfl, ?_⟩
      unfold assign
      rw [if_neg]
      · rw [List.nil_append]
        rw [assignFirst_skip b done (fun r hr => (hd r hr).1) a u (pref_pos hp a (by simp))]
        simp
      · rw [Bool.not_eq_true, List.any_eq_false]
        intro r hr
        rw [List.nil_append] at hr
        rcases List.mem_append.1 hr with hr | hr
        · simp [hdn r hr]
        · simp [hum r hr]
  · refine ⟨t, u, rfl, hte, .inl ?_, ?_⟩
    · obtain ⟨_, _, h3⟩ := pref_append hp
      obtain ⟨r, hr, hc⟩ := h3 hte
      have := ht r hr
      omega
    · obtain ⟨a, ha⟩ := List.exists_mem_of_ne_nil _ hte
      unfold assign
      rw [if_pos]
      · rw [List.map_append, List.map_append, List.append_assoc]
        congr 2
        · conv_rhs => rw [← List.map_id done]
          apply List.map_congr_left
          intro r hr; rw [hdn r hr]; rfl
        · congr 1
          · apply List.map_congr_left
            intro r hr; rw [htm r hr]; rfl
          · conv_rhs => rw [← List.map_id u]
            apply List.map_congr_left
            intro r hr; rw [hum r hr]; rfl
      · rw [List.any_eq_true]
        exact ⟨a, by simp [ha], htm a ha⟩

/-- The budget claim for the rows of one batch. -/
def Budget (size : Int) (l : List BRow) : Prop :=
  ∀ k, blockSum (l.filter fun r => r.batch = k) ≤ size ∨ (l.filter fun r => r.batch = k).length ≤ 1

theorem filter_map_c (l : List BRow) (m : Int) (k : Nat) :
    (l.map fun r => ({ r with c := r.c - m } : BRow)).filter (fun r => r.batch = k) =
      (l.filter fun r => r.batch = k).map fun r => { r with c := r.c - m } := by
  rw [List.filter_map]; rfl

theorem budget_sub {size : Int} {l : List BRow} (m : Int) (h : Budget size l) :
    Budget size (l.map fun r => { r with c := r.c - m }) := by
  intro k
  rw [filter_map_c]
  rcases h k with h | h
  · left; simpa [blockSum, Function.comp_def] using h
  · right; rw [List.length_map]; exact h

theorem budget_append {size : Int} {b : Nat} {done t : List BRow} (hd : Done b done) (h : Budget size done)
    (ht : blockSum t ≤ size ∨ t.length = 1) (hz : 0 ≤ size) :
    Budget size (done ++ t.map fun r => { r with batch := b }) := by
  intro k
  rw [List.filter_append]
  by_cases hk : k = b
  · subst hk
    have h1 : done.filter (fun r => r.batch = k) = [] := by
      rw [List.filter_eq_nil_iff]
      intro r hr
      have := (hd r hr).2.2
      simp; omega
    have h2 : (t.map fun r => ({ r with batch := k } : BRow)).filter (fun r => r.batch = k) =
        t.map fun r => { r with batch := k } := by
      rw [List.filter_eq_self]
      intro r hr
      obtain ⟨r', _, rfl⟩ := List.mem_map.1 hr
      simp
    rw [h1, h2, List.nil_append]
    rcases ht with ht | ht
    · left; simpa [blockSum, Function.comp_def] using ht
    · right; rw [List.length_map]; omega
  · have h2 : (t.map fun r => ({ r with batch := b } : BRow)).filter (fun r => r.batch = k) = [] := by
      rw [List.filter_eq_nil_iff]
      intro r hr
      obtain ⟨r', _, rfl⟩ := List.mem_map.1 hr
      simp; omega
    rw [h2, List.append_nil]
    exact h k

def payload (l : List BRow) : List (PGid × Int) := l.map fun r => (r.pg, r.blocks)

theorem batchLoop_spec (size : Int) (hz : 0 ≤ size) (n : Nat) :
    ∀ (b : Nat) (done rest : List BRow), 1 ≤ b → Done b done → Budget size done → Pref 0 rest →
      rest ≠ [] → rest.length ≤ n →
      ∃ r, batchLoop size ((List.range n).map (· + b)) (done ++ rest) = .ok r ∧
        payload r = payload (done ++ rest) ∧ (∀ x ∈ r, 1 ≤ x.batch) ∧ Budget size r := by
  induction n with
  | zero =>
    intro b done rest _ _ _ _ hne hlen
    exact absurd (List.length_eq_zero_iff.1 (Nat.le_zero.1 hlen)) hne
  | succ n ih =>
    intro b done rest hb hd hbud hp hne hlen
    obtain ⟨t, u, rfl, hte, ht, hassign⟩ := assign_spec size b done rest hd hp hne
    obtain ⟨p1, p2, p3⟩ := pref_append hp
    rw [zero_add] at p1 p2 p3
    set T := blockSum t with hT
    obtain ⟨last, hlast, hlc⟩ := p3 hte
    have hTpos : 0 < T := by rw [← hlc]; exact pref_pos hp last (List.mem_append_left _ hlast)
    have hrange : (List.range (n + 1)).map (· + b) = b :: (List.range n).map (· + (b + 1)) := by
      rw [List.range_succ_eq_map, List.map_cons, List.map_map]
      simp only [Nat.zero_add, List.cons.injEq, true_and]
      apply List.map_congr_left
      intro x _; simp only [Function.comp]; omega
    set t' := t.map (fun r => ({ r with batch := b } : BRow)) with ht'
    have hmax : maxOf (((done ++ t' ++ u).filter fun r => r.batch = b).map (·.c)) = some T := by
      apply maxOf_eq
      · refine List.mem_map.2 ⟨{ last with batch := b }, List.mem_filter.2 ⟨?_, by simp⟩, hlc⟩
        exact List.mem_append_left _ (List.mem_append_right _ (List.mem_map.2 ⟨last, hlast, rfl⟩))
      · intro x hx
        obtain ⟨r, hr, rfl⟩ := List.mem_map.1 hx
        obtain ⟨hr, hrb⟩ := List.mem_filter.1 hr
        simp only [decide_eq_true_eq] at hrb
        rcases List.mem_append.1 hr with hr | hr
        · rcases List.mem_append.1 hr with hr | hr
          · have := (hd r hr).1; omega
          · obtain ⟨r', hr', rfl⟩ := List.mem_map.1 hr
            exact p2 r' hr'
        · have := pref_batch p1 r hr; omega
    have hsub : subtractMax b (done ++ t' ++ u) =
        (done ++ t').map (fun r => { r with c := r.c - T }) ++ u.map (fun r => { r with c := r.c - T }) := by
      unfold subtractMax
      rw [hmax, ← List.map_append]
    have hd' : Done (b + 1) ((done ++ t').map fun r => { r with c := r.c - T }) := by
      intro x hx
      obtain ⟨r, hr, rfl⟩ := List.mem_map.1 hx
      rcases List.mem_append.1 hr with hr | hr
      · have := hd r hr
        exact ⟨by simp only; omega, this.2.1, by simp only; omega⟩
      · obtain ⟨r', hr', rfl⟩ := List.mem_map.1 hr
        have := p2 r' hr'
        exact ⟨by simp only; omega, hb, by simp only; omega⟩
    have hbud' : Budget size ((done ++ t').map fun r => { r with c := r.c - T }) :=
      budget_sub T (budget_append hd hbud ht hz)
    have hpay : payload ((done ++ t').map (fun r => { r with c := r.c - T }) ++
        u.map (fun r => { r with c := r.c - T })) = payload (done ++ (t ++ u)) := by
      simp [payload, t', Function.comp_def]
    have hloop : batchLoop size ((List.range (n + 1)).map (· + b)) (done ++ (t ++ u)) =
        if maxOf ((((done ++ t').map (fun r : BRow => ({ r with c := r.c - T } : BRow)) ++
          u.map (fun r : BRow => ({ r with c := r.c - T } : BRow))).map (fun r : BRow => r.c))) = some 0 then
          .ok ((done ++ t').map (fun r : BRow => ({ r with c := r.c - T } : BRow)) ++ u.map (fun r : BRow => ({ r with c := r.c - T } : BRow)))
        else batchLoop size ((List.range n).map (· + (b + 1)))
          ((done ++ t').map (fun r : BRow => ({ r with c := r.c - T } : BRow)) ++ u.map (fun r : BRow => ({ r with c := r.c - T } : BRow))) := by
      rw [hrange, batchLoop, hassign]
      simp only [hsub]
    rw [hloop]
    by_cases hu : u = []
    · subst hu
      rw [if_pos]
      · refine ⟨_, rfl, hpay, ?_, ?_⟩
        · simp only [List.map_nil, List.append_nil]
          intro x hx; exact (hd' x hx).2.1
        · simpa using hbud'
      · apply maxOf_eq
        · refine List.mem_map.2 ⟨{ last with batch := b, c := last.c - T }, ?_, by simp [hlc]⟩
          refine List.mem_append_left _ (List.mem_map.2 ⟨{ last with batch := b }, ?_, rfl⟩)
          exact List.mem_append_right _ (List.mem_map.2 ⟨last, hlast, rfl⟩)
        · intro x hx
          obtain ⟨r, hr, rfl⟩ := List.mem_map.1 hx
          simp only [List.map_nil, List.append_nil] at hr
          exact (hd' r hr).1
    · have hp' : Pref 0 (u.map fun r => { r with c := r.c - T }) := by
        have := pref_sub T p1
        rwa [sub_self] at this
      rw [if_neg]
      · obtain ⟨r, h1, h2, h3, h4⟩ := ih (b + 1) _ (u.map fun r => { r with c := r.c - T }) (by omega) hd' hbud' hp'
          (by simpa using hu) (by
            rw [List.length_map]
            rw [List.length_append] at hlen
            have := List.length_pos_of_ne_nil hte
            omega)
        exact ⟨r, h1, h2.trans hpay, h3, h4⟩
      · intro hm
        obtain ⟨x, hx⟩ := List.exists_mem_of_ne_nil _ hu
        have hmem : ({ x with c := x.c - T } : BRow) ∈ u.map fun r => ({ r with c := r.c - T } : BRow) :=
          List.mem_map.2 ⟨x, hx, rfl⟩
        have hpos := pref_pos hp' _ hmem
        have key : ∀ (l : List Int) (m : Int), maxOf l = some m → ∀ x ∈ l, x ≤ m := by
          intro l
          induction l with
          | nil => intro m h; simp [maxOf] at h
          | cons a l ihl =>
            intro m h x hx
            simp only [maxOf] at h
            cases hl : maxOf l with
            | none =>
              rw [hl] at h; simp at h; subst h
              rcases List.mem_cons.1 hx with rfl | hx
              · exact le_refl _
              · cases l with
                | nil => simp at hx
                | cons y ys => simp only [maxOf] at hl; split at hl <;> simp at hl
            | some k =>
              rw [hl] at h; simp at h; subst h
              rcases List.mem_cons.1 hx with rfl | hx
              · exact le_max_left _ _
              · exact (ihl k hl x hx).trans (le_max_right _ _)
        have := key _ _ hm (x.c - T) (List.mem_map.2 ⟨_, List.mem_append_right _ hmem, rfl⟩)
        simp only at hpos
        omega

theorem withSums_pref {s : Int} {l : List (PGid × Int)} (h : ∀ e ∈ l, 0 < e.2) : Pref s (withSums s l) := by
  induction l generalizing s with
  | nil => exact True.intro
  | cons e l ih =>
    obtain ⟨pg, n⟩ := e
    exact ⟨rfl, h (pg, n) (by simp), rfl, ih fun e he => h e (List.mem_cons_of_mem _ he)⟩

theorem withSums_payload (s : Int) (l : List (PGid × Int)) : payload (withSums s l) = l := by
  induction l generalizing s with
  | nil => rfl
  | cons e l ih =>
    obtain ⟨pg, n⟩ := e
    simp only [withSums, payload, List.map_cons] at *
    rw [ih]

/-- The performance groups that the model is asked to evaluate. -/
def Relevant (available missing : List Str) (table : List (PGid × Int)) : List (PGid × Int) :=
  table.filter fun e => e.1.cmp ∉ missing ∧ e.1.cmp ∈ available

theorem prepare_mem (available missing : List Str) (table : List (PGid × Int)) (pg : PGid) (n : Int) :
    (pg, n) ∈ prepare available missing table ↔
      (∃ k, (pg, k) ∈ Relevant available missing table) ∧
      n = (((Relevant available missing table).filter fun e => e.1 = pg).map Prod.snd).sum := by
  unfold prepare
  simp only [List.mem_map, mem_pySort, uniqueVals_mem]
  constructor
  · rintro ⟨q, ⟨⟨e, he, rfl⟩, _⟩, heq⟩
    obtain ⟨rfl, rfl⟩ := Prod.mk.inj heq
    exact ⟨⟨e.2, he⟩, rfl⟩
  · rintro ⟨⟨k, hk⟩, rfl⟩
    exact ⟨pg, ⟨⟨(pg, k), hk, rfl⟩, by simp⟩, rfl⟩

theorem prepare_nodup (available missing : List Str) (table : List (PGid × Int)) :
    ((prepare available missing table).map Prod.fst).Nodup := by
  unfold prepare
  simp only [List.map_map]
  have : (Prod.fst ∘ fun pg => (pg, (((table.filter fun e => e.1.cmp ∉ missing ∧ e.1.cmp ∈ available).filter
      fun e => e.1 = pg).map Prod.snd).sum)) = (id : PGid → PGid) := rfl
  rw [this, List.map_id, (pySort_perm _ _).nodup_iff]
  exact uniqueVals_nodup _ _

/-- C36: for every table with positive block counts and every batch size the splitting succeeds;
each relevant performance group is in exactly one batch (numbered from one) with its number of
blocks and nothing else is in a batch; a batch has more blocks than the batch size only if it is a
single performance group. -/
theorem C36_batches (available missing : List Str) (table : List (PGid × Int)) (size : Int)
    (hz : 0 ≤ size) (hpos : ∀ e ∈ table, 0 < e.2) :
    ∃ r, pgBatches available missing table size = .ok r ∧
      (r.map fun e => e.2.1).Nodup ∧
      (∀ pg n, (∃ b, (b, pg, n) ∈ r) ↔ (∃ k, (pg, k) ∈ Relevant available missing table) ∧
        n = (((Relevant available missing table).filter fun e => e.1 = pg).map Prod.snd).sum) ∧
      (∀ e ∈ r, 1 ≤ e.1) ∧
      ∀ b, ((r.filter fun e => e.1 = b).map fun e => e.2.2).sum ≤ size ∨
        (r.filter fun e => e.1 = b).length ≤ 1 := by
  set P := prepare available missing table with hP
  have hPpos : ∀ e ∈ P, 0 < e.2 := by
    rintro ⟨pg, n⟩ he
    obtain ⟨⟨k, hk⟩, rfl⟩ := (prepare_mem _ _ _ _ _).1 he
    simp only
    apply List.sum_pos
    · intro x hx
      obtain ⟨e, he, rfl⟩ := List.mem_map.1 hx
      exact hpos e (List.mem_filter.1 (List.mem_filter.1 he).1).1
    · have : (pg, k) ∈ (Relevant available missing table).filter fun e => e.1 = pg :=
        List.mem_filter.2 ⟨hk, by simp⟩
      intro hnil
      rw [List.map_eq_nil_iff] at hnil
      rw [hnil] at this
      simp at this
  have hloop : ∃ rows, batchLoop size ((List.range (withSums 0 P).length).map (· + 1)) (withSums 0 P) = .ok rows ∧
      payload rows = P ∧ (∀ x ∈ rows, 1 ≤ x.batch) ∧ Budget size rows := by
    by_cases hne : withSums 0 P = []
    · refine ⟨[], ?_, ?_, by simp, ?_⟩
      · rw [hne]; rfl
      · rw [← withSums_payload 0 P, hne]
      · intro k; right; simp
    · obtain ⟨rows, h1, h2, h3, h4⟩ := batchLoop_spec size hz (withSums 0 P).length 1 [] (withSums 0 P)
        (le_refl _) (by intro r hr; simp at hr) (by intro k; right; simp) (withSums_pref hPpos) hne (le_refl _)
      refine ⟨rows, h1, ?_, h3, h4⟩
      rw [h2, List.nil_append, withSums_payload]
  obtain ⟨rows, h1, h2, h3, h4⟩ := hloop
  have hperm := pySort_perm outLe (rows.map fun r => (r.batch, r.pg, r.blocks))
  refine ⟨pySort outLe (rows.map fun r => (r.batch, r.pg, r.blocks)), ?_, ?_, ?_, ?_, ?_⟩
  · unfold pgBatches
    simp only [← hP, h1]
  · rw [(hperm.map _).nodup_iff, List.map_map]
    have : (rows.map fun r => r.pg) = P.map Prod.fst := by
      rw [← h2]; simp [payload, Function.comp_def]
    rw [show ((fun e : Nat × PGid × Int => e.2.1) ∘ fun r : BRow => (r.batch, r.pg, r.blocks)) = fun r => r.pg from rfl,
      this]
    exact prepare_nodup _ _ _
  · intro pg n
    rw [← prepare_mem, ← hP, ← h2]
    simp only [mem_pySort, payload, List.mem_map, Prod.mk.injEq]
    constructor
    · rintro ⟨b, r, hr, _, rfl, rfl⟩; exact ⟨r, hr, rfl, rfl⟩
    · rintro ⟨r, hr, rfl, rfl⟩; exact ⟨r.batch, r, hr, rfl, rfl, rfl⟩
  · intro e he
    rw [mem_pySort] at he
    obtain ⟨r, hr, rfl⟩ := List.mem_map.1 he
    exact h3 r hr
  · intro b
    have hf : (rows.map fun r => (r.batch, r.pg, r.blocks)).filter (fun e => e.1 = b) =
        (rows.filter fun r => r.batch = b).map fun r => (r.batch, r.pg, r.blocks) := by
      rw [List.filter_map]; rfl
    have hpf := hperm.filter (fun e => decide (e.1 = b))
    rcases h4 b with h | h
    · left
      rw [(hpf.map _).sum_eq, hf, List.map_map]
      exact h
    · right
      rw [hpf.length_eq, hf, List.length_map]
      exact h

/-- The theorem applies to a table with seven blocks, one group being larger than the batch size. -/
example : pgBatches [str "A", str "B"] [] [(⟨str "A", str "1", str "1", str "0"⟩, 5),
      (⟨str "B", str "1", str "1", str "0"⟩, 1), (⟨str "B", str "2", str "1", str "0"⟩, 2),
      (⟨str "C", str "2", str "1", str "0"⟩, 2)] 3 =
    .ok [(1, ⟨str "A", str "1", str "1", str "0"⟩, 5), (2, ⟨str "B", str "1", str "1", str "0"⟩, 1),
      (2, ⟨str "B", str "2", str "1", str "0"⟩, 2)] := by
  decide +kernel

/-- Without blocks in any group (a zero in the `Blocks` column) the splitting fails, the
hypothesis on block counts is needed. -/
theorem C36_no_blocks_refused :
    pgBatches [str "A"] [] [(⟨str "A", str "1", str "1", str "0"⟩, 0)] 100 = .error .indexError := by
  decide +kernel

end Verif.DmgBatch
