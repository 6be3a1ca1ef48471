import Verif.Model.DmgEval
import Verif.Lemmas.PySort
import Verif.Lemmas.PyStr
import Verif.Props.FileIO

/-! # Properties C37 and C38: the damage state of a component block -/

namespace Verif.DmgEval

open Verif.FileIO (uniqueVals uniqueVals_mem uniqueVals_nodup)

section
variable {F : Type} [Field F] [LinearOrder F]

/-! ## Order of the limit states -/

/-- The number of a limit state. -/
def numOf (s : Str) : Nat := (digitsVal 0 s).getD 0

theorem numOf_decStr (n : Nat) : numOf (decStr n) = n := by
  simp [numOf, digitsVal_decStr]

theorem uniqueVals_increasing (f : Str → Nat) (M : List Str) :
    ∀ (P seen : List Str), (∀ x, x ∈ seen ↔ x ∈ P) →
      (∀ x ∈ P ++ M, ∀ y ∈ P ++ M, f x = f y → x = y) →
      (∀ x ∈ P, ∀ k, 1 ≤ k → k ≤ f x → ∃ y ∈ P, f y = k) →
      (∀ A x B, M = A ++ x :: B → 1 ≤ f x ∧ (f x = 1 ∨ ∃ y ∈ P ++ A, f y + 1 = f x)) →
      (uniqueVals seen M).Pairwise (fun a b => f a < f b) ∧
        ∀ a ∈ uniqueVals seen M, ∀ p ∈ P, f p < f a := by
  induction M with
  | nil => intro P seen _ _ _ _; simp [uniqueVals]
  | cons a M ih =>
    intro P seen hs hinj hdown hstep
    have hsub : ∀ x, x ∈ P ++ [a] ++ M ↔ x ∈ P ++ a :: M := by intro x; simp
    obtain ⟨ha1, ha⟩ := hstep [] a M rfl
    rw [List.append_nil] at ha
    have hdown' : ∀ x ∈ P ++ [a], ∀ k, 1 ≤ k → k ≤ f x → ∃ y ∈ P ++ [a], f y = k := by
      intro x hx k hk1 hk2
      rcases List.mem_append.1 hx with hx | hx
      · obtain ⟨y, hy, hyk⟩ := hdown x hx k hk1 hk2
        exact ⟨y, List.mem_append_left _ hy, hyk⟩
      · simp only [List.mem_singleton] at hx
        subst hx
        by_cases hka : k = f x
        · exact ⟨x, by simp, hka.symm⟩
        · rcases ha with ha | ⟨z, hz, hza⟩
          · omega
          · obtain ⟨y, hy, hyk⟩ := hdown z hz k hk1 (by omega)
            exact ⟨y, List.mem_append_left _ hy, hyk⟩
    have hstep' : ∀ A x B, M = A ++ x :: B → 1 ≤ f x ∧ (f x = 1 ∨ ∃ y ∈ P ++ [a] ++ A, f y + 1 = f x) := by
      intro A x B hM
      obtain ⟨h1, h2⟩ := hstep (a :: A) x B (by rw [hM]; rfl)
      refine ⟨h1, h2.imp id ?_⟩
      rintro ⟨y, hy, hyx⟩
      exact ⟨y, by simpa using hy, hyx⟩
    have hinj' : ∀ x ∈ P ++ [a] ++ M, ∀ y ∈ P ++ [a] ++ M, f x = f y → x = y :=
      fun x hx y hy => hinj x ((hsub x).1 hx) y ((hsub y).1 hy)
    simp only [uniqueVals]
    by_cases hsa : a ∈ seen
    · rw [if_pos hsa]
      obtain ⟨h1, h2⟩ := ih (P ++ [a]) seen (by
        intro x; rw [hs]; simp only [List.mem_append, List.mem_singleton]
        constructor
        · exact .inl
        · rintro (h | rfl)
          · exact h
          · exact (hs _).1 hsa) hinj' hdown' hstep'
      exact ⟨h1, fun x hx p hp => h2 x hx p (List.mem_append_left _ hp)⟩
    · rw [if_neg hsa]
      obtain ⟨h1, h2⟩ := ih (P ++ [a]) (a :: seen) (by
        intro x; rw [List.mem_cons, hs]; simp only [List.mem_append, List.mem_singleton]; tauto) hinj' hdown' hstep'
      have haP : a ∉ P := fun h => hsa ((hs a).2 h)
      have hlt : ∀ p ∈ P, f p < f a := by
        intro p hp
        by_contra hge
        obtain ⟨y, hy, hya⟩ := hdown p hp (f a) ha1 (by omega)
        have : y = a := hinj y (List.mem_append_left _ hy) a (by simp) hya
        exact haP (this ▸ hy)
      refine ⟨List.pairwise_cons.2 ⟨fun x hx => h2 x hx a (by simp), h1⟩, ?_⟩
      intro x hx p hp
      rcases List.mem_cons.1 hx with rfl | hx
      · exact hlt p hp
      · exact h2 x hx p (List.mem_append_left _ hp)

theorem strLe_append (p a b : Str) : strLe (p ++ a) (p ++ b) = strLe a b := by
  induction p with
  | nil => rfl
  | cons c p ih => simp [strLe, ih]

theorem flatLabel_le {a b : LSCell F} (h : a.block = b.block) :
    strLe (flatLabel a) (flatLabel b) = strLe a.ls b.ls := by
  have key : ∀ c : LSCell F, flatLabel c = joinChar '-' [str "FRG", c.block.cmp, c.block.loc, c.block.dir,
      c.block.uid, c.block.block] ++ '-' :: c.ls := by
    intro c; simp [flatLabel, joinChar]
  rw [key a, key b, h, strLe_append]
  simp [strLe]

theorem strLe_decStr {j k : Nat} (hj : j ≤ 9) (hk : k ≤ 9) (h : strLe (decStr j) (decStr k) = true) : j ≤ k := by
  have key : ∀ j < 10, ∀ k < 10, strLe (decStr j) (decStr k) = true → j ≤ k := by decide +kernel
  exact key j (by omega) k (by omega) h

/-! ## Specification -/

/-- The limit states of every block are numbered from one without gaps and there are at most nine;
no limit state is listed twice. -/
structure WellNumbered (cells : List (LSCell F)) : Prop where
  distinct : ∀ a ∈ cells, ∀ b ∈ cells, a.block = b.block → a.ls = b.ls → a = b
  numbered : ∀ a ∈ cells, ∃ k, 1 ≤ k ∧ k ≤ 9 ∧ a.ls = decStr k
  noGap : ∀ a ∈ cells, ∀ k j, a.ls = decStr k → 1 ≤ j → j ≤ k → ∃ b ∈ cells, b.block = a.block ∧ b.ls = decStr j

/-- The limit state is exceeded: its capacity is below the demand of the block. -/
def IsExceeded (demand : BlockId → Option F) (c : LSCell F) : Prop :=
  ∃ d, demand c.block = some d ∧ (c.capacity = .negInf ∨ ∃ a, c.capacity = .fin a ∧ a < d)

theorem exceeded_iff [IsStrictOrderedRing F] (demand : BlockId → Option F) (c : LSCell F) :
    exceeded demand c = true ↔ IsExceeded demand c := by
  unfold exceeded IsExceeded
  cases h2 : demand c.block with
  | none => cases h1 : c.capacity <;> simp
  | some d => cases h1 : c.capacity <;> simp [sub_neg]

/-! ## Evaluation of one block -/

theorem foldl_get (demand : BlockId → Option F) (cells : List (LSCell F)) (lsl : List Str) :
    ∀ (ds : Dict BlockId Int) (b : BlockId),
      (lsl.foldl (fun ds ls => ds.map fun e => (e.1, stepLS demand cells ls e.1 e.2)) ds).get? b =
        (ds.get? b).map fun v => lsl.foldl (fun v ls => stepLS demand cells ls b v) v := by
  induction lsl with
  | nil => intro ds b; simp
  | cons ls lsl ih =>
    intro ds b
    rw [List.foldl_cons, ih]
    have : ∀ ds : Dict BlockId Int, Dict.get? (ds.map fun e => (e.1, stepLS demand cells ls e.1 e.2)) b =
        (Dict.get? ds b).map (stepLS demand cells ls b) := by
      intro ds
      induction ds with
      | nil => rfl
      | cons e ds ihd =>
        obtain ⟨a, v⟩ := e
        rw [List.map_cons]
        simp only [Dict.get?]
        by_cases h : a = b
        · subst h; simp
        · simp only [if_neg h]; exact ihd
    rw [this, Option.map_map]
    rfl

theorem init_get (l : List BlockId) (b : BlockId) (h : b ∈ l) :
    Dict.get? (l.map fun b => (b, (0 : Int))) b = some 0 := by
  induction l with
  | nil => simp at h
  | cons a l ih =>
    simp only [List.map_cons, Dict.get?]
    by_cases hab : a = b
    · simp [hab]
    · rw [if_neg hab]
      exact ih ((List.mem_cons.1 h).resolve_left fun h => hab h.symm)

theorem evaluate_get (demand : BlockId → Option F) (cells : List (LSCell F)) (c : LSCell F) (hc : c ∈ cells) :
    (evaluate demand cells).get? c.block =
      some ((lsList (sortCells cells)).foldl (fun v ls => stepLS demand (sortCells cells) ls c.block v) 0) := by
  unfold evaluate
  simp only
  rw [foldl_get, init_get]
  · rfl
  · rw [uniqueVals_mem]
    exact ⟨List.mem_map_of_mem (mem_pySort.2 hc), by simp⟩

theorem find_cell {cells : List (LSCell F)} (hd : ∀ a ∈ cells, ∀ b ∈ cells, a.block = b.block → a.ls = b.ls → a = b)
    {c : LSCell F} (hc : c ∈ cells) :
    cells.find? (fun x => decide (x.block = c.block ∧ x.ls = c.ls)) = some c := by
  cases hf : cells.find? (fun x => decide (x.block = c.block ∧ x.ls = c.ls)) with
  | none =>
    rw [List.find?_eq_none] at hf
    exact absurd (by simp) (hf c hc)
  | some x =>
    have h1 := List.mem_of_find?_eq_some hf
    have h2 := List.find?_some hf
    simp only [decide_eq_true_eq] at h2
    rw [hd x h1 c hc h2.1 h2.2]

theorem fold_none (demand : BlockId → Option F) (cells : List (LSCell F)) (b : BlockId)
    (lsl : List Str) (h : ∀ c ∈ cells, c.block = b → c.ls ∈ lsl → exceeded demand c = false) (v : Int) :
    lsl.foldl (fun v ls => stepLS demand cells ls b v) v = v := by
  induction lsl generalizing v with
  | nil => rfl
  | cons ls lsl ih =>
    rw [List.foldl_cons]
    have hstep : stepLS demand cells ls b v = v := by
      unfold stepLS
      cases hf : cells.find? (fun c => decide (c.block = b ∧ c.ls = ls)) with
      | none => rfl
      | some c =>
        have h1 := List.mem_of_find?_eq_some hf
        have h2 := List.find?_some hf
        simp only [decide_eq_true_eq] at h2
        have := h c h1 h2.1 (by rw [h2.2]; simp)
        simp [this]
    rw [hstep]
    exact ih (fun c hc hb hl => h c hc hb (List.mem_cons_of_mem _ hl)) v

theorem fold_last (demand : BlockId → Option F) (cells : List (LSCell F))
    (hd : ∀ a ∈ cells, ∀ b ∈ cells, a.block = b.block → a.ls = b.ls → a = b) (c : LSCell F) (hc : c ∈ cells)
    (hex : exceeded demand c = true) (lsl : List Str) (hord : lsl.Pairwise (fun a b => numOf a < numOf b))
    (hin : c.ls ∈ lsl)
    (hmax : ∀ x ∈ cells, x.block = c.block → numOf c.ls < numOf x.ls → exceeded demand x = false) (v : Int) :
    lsl.foldl (fun v ls => stepLS demand cells ls c.block v) v = c.ds := by
  induction lsl generalizing v with
  | nil => simp at hin
  | cons ls lsl ih =>
    rw [List.foldl_cons]
    rw [List.pairwise_cons] at hord
    by_cases h : ls = c.ls
    · subst h
      have hstep : stepLS demand cells c.ls c.block v = c.ds := by
        unfold stepLS
        rw [find_cell hd hc]
        simp [hex]
      rw [hstep]
      apply fold_none
      intro x hx hb hl
      exact hmax x hx hb (hord.1 _ hl)
    · exact ih hord.2 ((List.mem_cons.1 hin).resolve_left fun e => h e.symm) _

/-- The limit states are processed in increasing order. -/
theorem lsList_increasing {cells : List (LSCell F)} (hw : WellNumbered cells) :
    (lsList (sortCells cells)).Pairwise fun a b => numOf a < numOf b := by
  set S := sortCells cells with hS
  have hmem : ∀ x, x ∈ S ↔ x ∈ cells := fun x => mem_pySort
  have hsorted : S.Pairwise fun a b => strLe (flatLabel a) (flatLabel b) = true :=
    pySort_sorted (le := fun a b => strLe (flatLabel a) (flatLabel b)) (fun a b => strLe_total _ _)
      (fun a b c => strLe_trans _ _ _) cells
  refine (uniqueVals_increasing numOf (S.map (·.ls)) [] [] (by simp) ?_ (by simp) ?_).1
  · intro x hx y hy h
    simp only [List.nil_append, List.mem_map] at hx hy
    obtain ⟨a, ha, rfl⟩ := hx
    obtain ⟨b, hb, rfl⟩ := hy
    obtain ⟨k, _, _, hk⟩ := hw.numbered a ((hmem a).1 ha)
    obtain ⟨j, _, _, hj⟩ := hw.numbered b ((hmem b).1 hb)
    rw [hk, hj, numOf_decStr, numOf_decStr] at h
    rw [hk, hj, h]
  · intro A x B hM
    rw [List.map_eq_append_iff] at hM
    obtain ⟨SA, SB, hSS, rfl, hB⟩ := hM
    rw [List.map_eq_cons_iff] at hB
    obtain ⟨c, SB', rfl, rfl, rfl⟩ := hB
    have hcS : c ∈ S := by rw [hSS]; simp
    obtain ⟨k, hk1, hk9, hk⟩ := hw.numbered c ((hmem c).1 hcS)
    rw [hk, numOf_decStr]
    refine ⟨hk1, ?_⟩
    by_cases h1 : k = 1
    · exact .inl h1
    · right
      obtain ⟨b, hb, hbb, hbl⟩ := hw.noGap c ((hmem c).1 hcS) k (k - 1) hk (by omega) (by omega)
      have hbS : b ∈ S := (hmem b).2 hb
      rw [hSS] at hbS
      rcases List.mem_append.1 hbS with hbA | hbB
      · refine ⟨b.ls, by simpa using ⟨b, hbA, rfl⟩, ?_⟩
        rw [hbl, numOf_decStr]; omega
      · exfalso
        rcases List.mem_cons.1 hbB with rfl | hbB
        · rw [hbl] at hk
          have := decStr_inj hk
          omega
        · rw [hSS, List.pairwise_append] at hsorted
          have := (List.pairwise_cons.1 hsorted.2.1).1 b hbB
          rw [flatLabel_le hbb.symm, hk, hbl] at this
          have := strLe_decStr hk9 (by omega) this
          omega

/-! ## C37 -/

/-- C37, the proved part: with limit states numbered `1..n`, `n ≤ 9`, in every block, a block is
in the damage state of the highest limit state whose capacity is below the demand, and in damage
state zero if there is none.  For gaps and for ten or more limit states the claim is false, see
`C37_ten_limit_states` and `C37_gap`. -/
theorem C37_highest_exceeded_partial [IsStrictOrderedRing F] (demand : BlockId → Option F) (cells : List (LSCell F))
    (hw : WellNumbered cells) (b : BlockId) (hb : ∃ c ∈ cells, c.block = b) :
    ∃ v, (evaluate demand cells).get? b = some v ∧
      ((∀ c ∈ cells, c.block = b → ¬ IsExceeded demand c) → v = 0) ∧
      ∀ c ∈ cells, c.block = b → IsExceeded demand c →
        (∀ x ∈ cells, x.block = b → numOf c.ls < numOf x.ls → ¬ IsExceeded demand x) → v = c.ds := by
  obtain ⟨c0, hc0, rfl⟩ := hb
  have hmem : ∀ x, x ∈ sortCells cells ↔ x ∈ cells := fun x => mem_pySort
  have hd : ∀ a ∈ sortCells cells, ∀ b ∈ sortCells cells, a.block = b.block → a.ls = b.ls → a = b :=
    fun a ha b hb => hw.distinct a ((hmem a).1 ha) b ((hmem b).1 hb)
  refine ⟨_, evaluate_get demand cells c0 hc0, ?_, ?_⟩
  · intro h
    apply fold_none
    intro c hc hcb _
    have := h c ((hmem c).1 hc) hcb
    rw [← exceeded_iff] at this
    simpa using this
  · intro c hc hcb hex hmax
    rw [← hcb]
    apply fold_last demand _ hd c ((hmem c).2 hc) ((exceeded_iff _ _).2 hex) _ (lsList_increasing hw)
    · unfold lsList
      rw [uniqueVals_mem]
      exact ⟨List.mem_map_of_mem ((hmem c).2 hc), by simp⟩
    · intro x hx hxb hlt
      have := hmax x ((hmem x).1 hx) (hxb.trans hcb) hlt
      rw [← exceeded_iff] at this
      simpa using this

/-- A block with a list of limit states, capacities and damage states. -/
def mk (cmp : String) (l : List (String × ℚ × Int)) : List (LSCell ℚ) :=
  l.map fun e => ⟨⟨str cmp, str "1", str "1", str "0", str "1"⟩, str e.1, UQ.Ext.fin e.2.1, e.2.2⟩

def blk (cmp : String) : BlockId := ⟨str cmp, str "1", str "1", str "0", str "1"⟩

/-- Two blocks with two and three limit states, one of them with an unusual capacity order. -/
def exCells : List (LSCell ℚ) :=
  mk "A" [("1", 1, 1), ("2", 2, 3)] ++ mk "B" [("1", 1, 1), ("2", 6, 2), ("3", 4, 5)]

example : evaluate (fun b => if b = blk "A" then some 3 else some 5)
    exCells =
    [(blk "A", 3), (blk "B", 5)] := by decide +kernel

set_option synthInstance.maxSize 2000 in
set_option synthInstance.maxHeartbeats 200000 in
example : WellNumbered exCells := by
  refine ⟨by decide +kernel, ?_, ?_⟩
  · have h : ∀ a ∈ exCells,
        a.ls = decStr 1 ∨ a.ls = decStr 2 ∨ a.ls = decStr 3 := by decide +kernel
    intro a ha
    rcases h a ha with h | h | h
    exacts [⟨1, by omega, by omega, h⟩, ⟨2, by omega, by omega, h⟩, ⟨3, by omega, by omega, h⟩]
  · have h : ∀ a ∈ exCells,
        ∀ k < 4, a.ls = decStr k → ∀ j < 4, j ≤ k → 1 ≤ j →
        ∃ b ∈ exCells,
          b.block = a.block ∧ b.ls = decStr j := by decide +kernel
    have h3 : ∀ a ∈ exCells,
        a.ls = decStr 1 ∨ a.ls = decStr 2 ∨ a.ls = decStr 3 := by decide +kernel
    intro a ha k j hk h1 h2
    have hk4 : k < 4 := by
      rcases h3 a ha with h | h | h <;> (rw [h] at hk; have := decStr_inj hk; omega)
    exact h a ha k hk4 hk j (by omega) h2 h1

/-- Violation of C37 with ten limit states: limit state 10 is processed (and numbered, see
`C39_ten_limit_states`) between 1 and 2, so that with all ten exceeded the block ends up in the
damage state of limit state 9. -/
theorem C37_ten_limit_states :
    evaluate (fun _ => some 20) (mk "A" [("1", 1, 1), ("2", 2, 3), ("3", 3, 4), ("4", 4, 5), ("5", 5, 6),
      ("6", 6, 7), ("7", 7, 8), ("8", 8, 9), ("9", 9, 10), ("10", 10, 2)]) = [(blk "A", 10)] := by
  decide +kernel

/-- Violation of C37 with a gap: a component without limit state 2 (its capacity is undefined),
listed first, makes limit state 3 of the others come before limit state 2. -/
theorem C37_gap :
    evaluate (fun _ => some 20) (mk "A" [("1", 1, 1), ("3", 3, 2)] ++ mk "B" [("1", 1, 1), ("2", 2, 2), ("3", 3, 3)]) =
      [(blk "A", 2), (blk "B", 2)] := by
  decide +kernel

/-! ## C38 -/

theorem exists_highest (cells : List (LSCell F)) (p : LSCell F → Prop) [DecidablePred p] (c : LSCell F) (hc : c ∈ cells)
    (hp : p c) : ∃ m ∈ cells, p m ∧ numOf c.ls ≤ numOf m.ls ∧ ∀ x ∈ cells, p x → numOf x.ls ≤ numOf m.ls := by
  induction cells generalizing c with
  | nil => simp at hc
  | cons a l ih =>
    by_cases hl : ∃ d ∈ l, p d
    · obtain ⟨d, hd, hpd⟩ := hl
      obtain ⟨m, hm, hpm, _, hmax⟩ := ih d hd hpd
      by_cases hcase : p a ∧ numOf m.ls ≤ numOf a.ls
      · refine ⟨a, by simp, hcase.1, ?_, ?_⟩
        · rcases List.mem_cons.1 hc with rfl | hc
          · exact le_refl _
          · exact (hmax c hc hp).trans hcase.2
        · intro x hx hpx
          rcases List.mem_cons.1 hx with rfl | hx
          · exact le_refl _
          · exact (hmax x hx hpx).trans hcase.2
      · have key : ∀ x ∈ a :: l, p x → numOf x.ls ≤ numOf m.ls := by
          intro x hx hpx
          rcases List.mem_cons.1 hx with rfl | hx
          · by_contra hlt
            exact hcase ⟨hpx, by omega⟩
          · exact hmax x hx hpx
        exact ⟨m, List.mem_cons_of_mem _ hm, hpm, key c hc hp, key⟩
    · have key : ∀ x ∈ a :: l, p x → x = a := by
        intro x hx hpx
        rcases List.mem_cons.1 hx with rfl | hx
        · rfl
        · exact absurd ⟨x, hx, hpx⟩ hl
      refine ⟨a, by simp, (key c hc hp) ▸ hp, by rw [key c hc hp], ?_⟩
      intro x hx hpx
      rw [key x hx hpx]

/-- C38, the proved part (same limitation as C37): if the demands increase and the capacities and
the damage states drawn for the limit states stay the same, where a higher limit state has a
damage state that is not lower, no block gets a lower damage state. -/
theorem C38_monotone_partial [IsStrictOrderedRing F] (d d' : BlockId → Option F) (cells : List (LSCell F)) (hw : WellNumbered cells)
    (hdd : ∀ b x, d b = some x → ∃ y, d' b = some y ∧ x ≤ y)
    (hnn : ∀ c ∈ cells, 0 ≤ c.ds)
    (hds : ∀ a ∈ cells, ∀ b ∈ cells, a.block = b.block → numOf a.ls ≤ numOf b.ls → a.ds ≤ b.ds)
    (b : BlockId) (v v' : Int) (hv : (evaluate d cells).get? b = some v)
    (hv' : (evaluate d' cells).get? b = some v') : v ≤ v' := by
  classical
  have hb : ∃ c ∈ cells, c.block = b := by
    by_contra hne
    have : (evaluate d cells).get? b = none := by
      unfold evaluate
      simp only
      rw [foldl_get]
      have : Dict.get? ((uniqueVals [] ((sortCells cells).map (·.block))).map fun b => (b, (0 : Int))) b = none := by
        rw [Dict.get?_eq_none_iff]
        intro hm
        simp only [Dict.keys, List.map_map, List.mem_map] at hm
        obtain ⟨x, hx, rfl⟩ := hm
        rw [uniqueVals_mem] at hx
        obtain ⟨c, hc, hcx⟩ := List.mem_map.1 hx.1
        exact hne ⟨c, mem_pySort.1 hc, hcx⟩
      rw [this]; rfl
    rw [this] at hv; cases hv
  obtain ⟨w, hw1, hw0, hwm⟩ := C37_highest_exceeded_partial d cells hw b hb
  obtain ⟨w', hw1', hw0', hwm'⟩ := C37_highest_exceeded_partial d' cells hw b hb
  rw [hv] at hw1; cases hw1
  rw [hv'] at hw1'; cases hw1'
  have hmono : ∀ c, IsExceeded d c → IsExceeded d' c := by
    rintro c ⟨x, hx, hlt⟩
    obtain ⟨y, hy, hxy⟩ := hdd _ x hx
    exact ⟨y, hy, hlt.imp id fun ⟨a, ha, hl⟩ => ⟨a, ha, lt_of_lt_of_le hl hxy⟩⟩
  have hi : ∀ (dd : BlockId → Option F) c, c ∈ cells → c.block = b → IsExceeded dd c →
      ∃ m ∈ cells, m.block = b ∧ IsExceeded dd m ∧ numOf c.ls ≤ numOf m.ls ∧
        ∀ x ∈ cells, x.block = b → numOf m.ls < numOf x.ls → ¬ IsExceeded dd x := by
    intro dd c hc hcb hce
    obtain ⟨m, hm, ⟨hmb, hme⟩, hle, hmax⟩ :=
      exists_highest cells (fun x => x.block = b ∧ IsExceeded dd x) c hc ⟨hcb, hce⟩
    refine ⟨m, hm, hmb, hme, hle, ?_⟩
    intro x hx hxb hlt hxe
    have := hmax x hx ⟨hxb, hxe⟩
    omega
  have hnn' : 0 ≤ v' := by
    by_cases hex : ∃ c ∈ cells, c.block = b ∧ IsExceeded d' c
    · obtain ⟨c, hc, hcb, hce⟩ := hex
      obtain ⟨m, hm, hmb, hme, _, hmax⟩ := hi d' c hc hcb hce
      rw [hwm' m hm hmb hme hmax]
      exact hnn m hm
    · rw [hw0' (fun c hc hcb hce => hex ⟨c, hc, hcb, hce⟩)]
  by_cases hex : ∃ c ∈ cells, c.block = b ∧ IsExceeded d c
  · obtain ⟨c, hc, hcb, hce⟩ := hex
    obtain ⟨m, hm, hmb, hme, _, hmax⟩ := hi d c hc hcb hce
    obtain ⟨m', hm', hmb', hme', hle', hmax'⟩ := hi d' m hm hmb (hmono m hme)
    rw [hwm m hm hmb hme hmax, hwm' m' hm' hmb' hme' hmax']
    exact hds m hm m' hm' (hmb.trans hmb'.symm) hle'
  · rw [hw0 (fun c hc hcb hce => hex ⟨c, hc, hcb, hce⟩)]
    exact hnn'

/-- Violation of C38 with a gap: beside a component without limit state 2, raising the demand of
`B` from 2 to 3 lowers its damage state from 3 to 2 when the capacity of its limit state 3 is below
that of its limit state 2. -/
theorem C38_gap :
    let cells := mk "A" [("1", 1, 1), ("3", 3, 2)] ++ mk "B" [("1", 1, 1), ("2", 5 / 2, 2), ("3", 3 / 2, 3)]
    evaluate (fun _ => some 2) cells = [(blk "A", 1), (blk "B", 3)] ∧
    evaluate (fun _ => some 3) cells = [(blk "A", 1), (blk "B", 2)] := by
  decide +kernel

end

end Verif.DmgEval
