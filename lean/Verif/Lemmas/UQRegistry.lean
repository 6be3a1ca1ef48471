import Verif.Model.UQRegistry
import Verif.Lemmas.PySort

/-! # Lemmas about the registry -/

namespace Verif.UQ

section
variable {F : Type} [Field F] [LinearOrder F]

theorem RV.root_root (v : RV F) : v.root.root = v.root := by
  match v with
  | .mk _ _ none => rfl
  | .mk _ _ (some a) => simpa [RV.root] using RV.root_root a

theorem RV.root_selfAnchored (v : RV F) : v.root.selfAnchored = true := by
  match v with
  | .mk _ _ none => rfl
  | .mk _ _ (some a) => simpa [RV.root] using RV.root_selfAnchored a

theorem assignUni_spec (m : Method) (n : Nat) (perm : Nat → List Nat) (jitter : Nat → List F)
    (names : List Str) : ∀ (i : Nat) (uni uni' : Dict Str (List F)), names.Nodup →
    assignUni m n perm jitter i names uni = .ok uni' →
    (∀ x, x ∉ names → uni'.get? x = uni.get? x) ∧
    (∀ (j : Nat) (x : Str), names[j]? = some x → ∃ row,
      drawRow m n (perm (i + j)) (jitter (i + j)) = .ok row ∧ uni'.get? x = some row) := by
  induction names with
  | nil =>
    intro i uni uni' _ h
    simp only [assignUni, Except.ok.injEq] at h
    subst h
    exact ⟨fun _ _ => rfl, fun j x hx => by simp at hx⟩
  | cons a names ih =>
    intro i uni uni' hnd h
    rw [List.nodup_cons] at hnd
    simp only [assignUni] at h
    cases hr : drawRow m n (perm i) (jitter i) with
    | error e => rw [hr] at h; simp at h
    | ok row =>
      rw [hr] at h
      simp only at h
      obtain ⟨h1, h2⟩ := ih (i + 1) _ _ hnd.2 h
      constructor
      · intro x hx
        simp only [List.mem_cons, not_or] at hx
        rw [h1 x hx.2, Dict.get?_set, if_neg (fun e => hx.1 e.symm)]
      · intro j x hx
        cases j with
        | zero =>
          simp at hx; subst hx
          exact ⟨row, hr, by rw [h1 a hnd.1, Dict.get?_set, if_pos rfl]⟩
        | succ j =>
          obtain ⟨row', hr', hg⟩ := h2 j x (by simpa using hx)
          refine ⟨row', ?_, hg⟩
          have : i + (j + 1) = i + 1 + j := by omega
          rw [this]; exact hr'

theorem setRows_get? (vs : List (RV F)) : ∀ (rows : List (List F)) (uni : Dict Str (List F)) (x : Str),
    (∀ v ∈ vs, v.name ≠ x) → (setRows vs rows uni).get? x = uni.get? x := by
  induction vs with
  | nil => intro rows uni x _; cases rows <;> rfl
  | cons v vs ih =>
    intro rows uni x h
    cases rows with
    | nil => rfl
    | cons row rows =>
      simp only [setRows]
      rw [ih rows _ x (fun w hw => h w (List.mem_cons_of_mem _ hw)), Dict.get?_set,
        if_neg (h v (by simp))]

theorem applySets_get? (sets : List (RVSet F)) : ∀ (uni uni' : Dict Str (List F)) (x : Str),
    (∀ s ∈ sets, ∀ v ∈ s.members, v.name ≠ x) → applySets sets uni = .ok uni' →
    uni'.get? x = uni.get? x := by
  induction sets with
  | nil => intro uni uni' x _ h; simp only [applySets, Except.ok.injEq] at h; rw [h]
  | cons s sets ih =>
    intro uni uni' x hm h
    simp only [applySets] at h
    cases hc : applyCorrelation s uni with
    | error e => rw [hc] at h; simp at h
    | ok u1 =>
      rw [hc] at h
      rw [ih u1 uni' x (fun t ht => hm t (List.mem_cons_of_mem _ ht)) h]
      unfold applyCorrelation at hc
      split at hc
      · simp at hc
      · cases hc
        exact setRows_get? _ _ _ _ (hm s (by simp))

theorem setRows_len (n : Nat) (vs : List (RV F)) : ∀ (rows : List (List F)) (uni : Dict Str (List F)),
    (∀ row ∈ rows, row.length = n) → ∀ x l, (setRows vs rows uni).get? x = some l →
      uni.get? x = some l ∨ l.length = n := by
  induction vs with
  | nil => intro rows uni _ x l h; left; cases rows <;> exact h
  | cons v vs ih =>
    intro rows uni hr x l h
    cases rows with
    | nil => left; exact h
    | cons row rows =>
      simp only [setRows] at h
      rcases ih rows _ (fun r hr' => hr r (List.mem_cons_of_mem _ hr')) x l h with h | h
      · rw [Dict.get?_set] at h
        split at h
        · right; cases h; exact hr _ (by simp)
        · left; exact h
      · right; exact h

/-- Keys that hold a row keep holding one. -/
theorem setRows_isSome (vs : List (RV F)) : ∀ (rows : List (List F)) (uni : Dict Str (List F)) (x : Str),
    (uni.get? x).isSome = true → ((setRows vs rows uni).get? x).isSome = true := by
  induction vs with
  | nil => intro rows uni x h; cases rows <;> exact h
  | cons v vs ih =>
    intro rows uni x h
    cases rows with
    | nil => exact h
    | cons row rows =>
      simp only [setRows]
      apply ih
      rw [Dict.get?_set]
      split
      · rfl
      · exact h

variable [FloorRing F]

theorem inverse_length (N : Num F) (k : RVKind F) (u u' : List F) (s : List (Ext F))
    (h : k.inverse N u = .ok (s, u')) : s.length = u.length ∧ u'.length = u.length := by
  have hrows : ∀ (p : Par F) (g : F → F → F → Except PyErr (Ext F)) (l : List (Ext F)),
      transformRows p g u = .ok l → l.length = u.length := by
    intro p g l hl
    unfold transformRows at hl
    cases he : p.expand u.length with
    | error e => rw [he] at hl; simp at hl
    | ok ps =>
      rw [he] at hl
      simp only at hl
      have hps : ps.length = u.length := by
        cases p with
        | const m s => simp [Par.expand] at he; rw [← he]; simp
        | rows l =>
          simp only [Par.expand] at he
          split at he
          · cases he; assumption
          · simp at he
      have := mapE_length hl
      rw [this, List.length_zip, hps, Nat.min_self]
  have hmap : ∀ {α : Type} (e : Except PyErr α) (g : α → List (Ext F) × List F),
      e.map g = .ok (s, u') → ∃ a, e = .ok a ∧ g a = (s, u') := by
    intro α e g he
    cases e with
    | error e => simp [Except.map] at he
    | ok a => simp [Except.map] at he; exact ⟨a, rfl, he⟩
  cases k with
  | normal p a b =>
    obtain ⟨l, hl, he⟩ := hmap _ _ h
    simp only [Prod.mk.injEq] at he
    obtain ⟨rfl, rfl⟩ := he
    exact ⟨hrows _ _ _ hl, rfl⟩
  | lognormal p a b =>
    obtain ⟨l, hl, he⟩ := hmap _ _ h
    simp only [Prod.mk.injEq] at he
    obtain ⟨rfl, rfl⟩ := he
    exact ⟨hrows _ _ _ hl, rfl⟩
  | uniform t0 t1 a b =>
    simp only [RVKind.inverse, Except.ok.injEq, Prod.mk.injEq] at h
    obtain ⟨rfl, rfl⟩ := h
    simp
  | weibull W a b =>
    obtain ⟨l, hl, he⟩ := hmap _ _ h
    simp only [Prod.mk.injEq] at he
    obtain ⟨rfl, rfl⟩ := he
    exact ⟨mapE_length hl, rfl⟩
  | multilinear pts =>
    simp only [RVKind.inverse, Except.ok.injEq, Prod.mk.injEq] at h
    obtain ⟨rfl, rfl⟩ := h
    simp
  | empirical theta =>
    obtain ⟨l, hl, he⟩ := hmap _ _ h
    simp only [Prod.mk.injEq] at he
    obtain ⟨rfl, rfl⟩ := he
    simp [mapE_length hl]
  | multinomial theta =>
    have hloop : ∀ (ps : List F) (i : Nat) (vs : List F),
        (multinomialLoop i ps vs).length = vs.length := by
      intro ps
      induction ps with
      | nil => intro i vs; rfl
      | cons p ps ih => intro i vs; simp [multinomialLoop, ih]
    simp only [RVKind.inverse, Except.ok.injEq, Prod.mk.injEq] at h
    obtain ⟨rfl, rfl⟩ := h
    simp [multinomialInverse, hloop]
  | coupledEmpirical t => simp [RVKind.inverse] at h
  | deterministic t => simp [RVKind.inverse] at h

theorem generate_length (k : RVKind F) (n : Nat) (s : List (Ext F)) (h : k.generate n = .ok s) :
    s.length = n := by
  cases k with
  | coupledEmpirical t =>
    simp only [RVKind.generate] at h
    unfold coupledInverse at h
    split at h
    · simp [Except.map] at h
    · rename_i hl
      simp only [Except.map, Except.ok.injEq] at h
      subst h
      have hl : 0 < t.length := Nat.pos_of_ne_zero hl
      have := Nat.lt_div_mul_add hl (a := n)
      rw [List.length_map, List.length_take, List.length_flatten, List.map_replicate,
        List.sum_replicate_nat, Nat.succ_mul]
      omega
  | deterministic t =>
    cases t with
    | nil => simp [RVKind.generate, deterministicInverse, Except.map] at h
    | cons x t =>
      simp [RVKind.generate, deterministicInverse, Except.map] at h
      subst h; simp
  | _ => simp [RVKind.generate] at h

/-- Multinomial kinds are the only ones whose transform writes to its argument. -/
def RVKind.isMultinomial : RVKind F → Bool
  | .multinomial _ => true
  | _ => false

theorem inverse_pure (N : Num F) (k : RVKind F) (hk : k.isMultinomial = false) (u u' : List F)
    (s : List (Ext F)) (h : k.inverse N u = .ok (s, u')) : u' = u := by
  have hmap : ∀ {α : Type} (e : Except PyErr α) (g : α → List (Ext F)),
      e.map (fun a => (g a, u)) = .ok (s, u') → u' = u := by
    intro α e g he
    cases e with
    | error e => simp [Except.map] at he
    | ok a => simp [Except.map] at he; exact he.2.symm
  cases k with
  | normal p a b => exact hmap _ _ h
  | lognormal p a b => exact hmap _ _ h
  | uniform t0 t1 a b =>
    simp only [RVKind.inverse, Except.ok.injEq, Prod.mk.injEq] at h; exact h.2.symm
  | weibull W a b => exact hmap _ _ h
  | multilinear pts =>
    simp only [RVKind.inverse, Except.ok.injEq, Prod.mk.injEq] at h; exact h.2.symm
  | empirical theta => exact hmap _ _ h
  | multinomial theta => simp [RVKind.isMultinomial] at hk
  | coupledEmpirical t => simp [RVKind.inverse] at h
  | deterministic t => simp [RVKind.inverse] at h

/-- One transformation: what changes. -/
theorem transformOne_spec (N : Num F) (n : Nat) (v : RV F)
    (st st' : Dict Str (List F) × Dict Str (List (Ext F))) (h : transformOne N n v st = .ok st') :
    (∀ x, x ≠ v.name → st'.2.get? x = st.2.get? x) ∧
    (∀ x, x ≠ v.root.name → st'.1.get? x = st.1.get? x) ∧
    (v.kind.isMultinomial = false → ∀ x, st'.1.get? x = st.1.get? x) ∧
    (if v.kind.utility then
      ∃ s, v.kind.generate n = .ok s ∧ st'.2.get? v.name = some s
     else ∃ u s u', st.1.get? v.root.name = some u ∧ v.kind.inverse N u = .ok (s, u') ∧
        st'.2.get? v.name = some s ∧ st'.1.get? v.root.name = some u') := by
  unfold transformOne at h
  by_cases hu : v.kind.utility = true
  · rw [if_pos hu] at h ⊢
    cases hg : v.kind.generate n with
    | error e => rw [hg] at h; simp at h
    | ok s =>
      rw [hg] at h
      simp only [Except.ok.injEq] at h
      subst h
      refine ⟨fun x hx => ?_, fun _ _ => rfl, fun _ _ => rfl, s, rfl, ?_⟩
      · rw [Dict.get?_set, if_neg (fun e => hx e.symm)]
      · rw [Dict.get?_set, if_pos rfl]
  · rw [if_neg hu] at h ⊢
    cases hg : Registry.uniOf st.1 v with
    | none => rw [hg] at h; simp at h
    | some u =>
      rw [hg] at h
      simp only at h
      cases hi : v.kind.inverse N u with
      | error e => rw [hi] at h; simp at h
      | ok p =>
        obtain ⟨s, u'⟩ := p
        rw [hi] at h
        simp only [Except.ok.injEq] at h
        subst h
        refine ⟨fun x hx => ?_, fun x hx => ?_, fun hm x => ?_, u, s, u', hg, hi, ?_, ?_⟩
        · rw [Dict.get?_set, if_neg (fun e => hx e.symm)]
        · rw [Dict.get?_set, if_neg (fun e => hx e.symm)]
        · rw [Dict.get?_set]
          split
          · rename_i e
            rw [inverse_pure N _ hm _ _ _ hi, ← e]
            exact hg.symm
          · rfl
        · rw [Dict.get?_set, if_pos rfl]
        · rw [Dict.get?_set, if_pos rfl]

/-- Samples of variables that are not in the list stay. -/
theorem transformAll_other (N : Num F) (n : Nat) (vs : List (RV F)) :
    ∀ st st', transformAll N n vs st = .ok st' → ∀ x, (∀ v ∈ vs, v.name ≠ x) →
      st'.2.get? x = st.2.get? x := by
  induction vs with
  | nil => intro st st' h x _; simp only [transformAll, Except.ok.injEq] at h; rw [h]
  | cons v vs ih =>
    intro st st' h x hx
    simp only [transformAll] at h
    cases ho : transformOne N n v st with
    | error e => rw [ho] at h; simp at h
    | ok s1 =>
      rw [ho] at h
      rw [ih s1 st' h x (fun w hw => hx w (List.mem_cons_of_mem _ hw))]
      exact (transformOne_spec N n v st s1 ho).1 x (fun e => hx v (by simp) e.symm)

/-- A uniform array is unchanged unless a multinomial variable with that root is sampled. -/
theorem transformAll_uni (N : Num F) (n : Nat) (vs : List (RV F)) :
    ∀ st st', transformAll N n vs st = .ok st' → ∀ x,
      (∀ v ∈ vs, v.kind.isMultinomial = true → v.root.name ≠ x) →
      st'.1.get? x = st.1.get? x := by
  induction vs with
  | nil => intro st st' h x _; simp only [transformAll, Except.ok.injEq] at h; rw [h]
  | cons v vs ih =>
    intro st st' h x hx
    simp only [transformAll] at h
    cases ho : transformOne N n v st with
    | error e => rw [ho] at h; simp at h
    | ok s1 =>
      rw [ho] at h
      rw [ih s1 st' h x (fun w hw => hx w (List.mem_cons_of_mem _ hw))]
      obtain ⟨_, h2, h3, _⟩ := transformOne_spec N n v st s1 ho
      cases hm : v.kind.isMultinomial with
      | false => exact h3 hm x
      | true => exact h2 x (fun e => hx v (by simp) hm e.symm)

/-- Every variable of the list receives a sample of the requested length, if all uniform
arrays have that length. -/
theorem transformAll_len (N : Num F) (n : Nat) (vs : List (RV F)) :
    ∀ st st', (vs.map RV.name).Nodup →
      (∀ v ∈ vs, ∀ u, st.1.get? v.root.name = some u → u.length = n) →
      transformAll N n vs st = .ok st' →
      ∀ v ∈ vs, ∃ s, st'.2.get? v.name = some s ∧ s.length = n := by
  induction vs with
  | nil => intro st st' _ _ _ v hv; simp at hv
  | cons v vs ih =>
    intro st st' hnd hl h w hw
    rw [List.map_cons, List.nodup_cons] at hnd
    simp only [transformAll] at h
    cases ho : transformOne N n v st with
    | error e => rw [ho] at h; simp at h
    | ok s1 =>
      rw [ho] at h
      simp only at h
      obtain ⟨_, h2, h3, h4⟩ := transformOne_spec N n v st s1 ho
      have hl' : ∀ w ∈ vs, ∀ u, s1.1.get? w.root.name = some u → u.length = n := by
        intro w hw u hu
        by_cases e : w.root.name = v.root.name
        · rw [e] at hu
          by_cases hu' : v.kind.utility = true
          · have hm : v.kind.isMultinomial = false := by
              cases hk : v.kind <;> simp_all [RVKind.utility, RVKind.isMultinomial]
            rw [h3 hm] at hu
            exact hl v (by simp) u hu
          · rw [if_neg hu'] at h4
            obtain ⟨u0, s, u', hg, hi, _, hg'⟩ := h4
            rw [hg'] at hu
            cases hu
            rw [(inverse_length N _ _ _ _ hi).2]
            exact hl v (by simp) u0 hg
        · rw [h2 _ e] at hu
          exact hl w (List.mem_cons_of_mem _ hw) u hu
      rcases List.mem_cons.1 hw with rfl | hw
      · have hk := transformAll_other N n vs s1 st' h w.name
          (fun x hx e => hnd.1 (e ▸ List.mem_map_of_mem hx))
        rw [hk]
        by_cases hu' : w.kind.utility = true
        · rw [if_pos hu'] at h4
          obtain ⟨s, hs, hg⟩ := h4
          exact ⟨s, hg, generate_length _ _ _ hs⟩
        · rw [if_neg hu'] at h4
          obtain ⟨u0, s, u', hg, hi, hs, _⟩ := h4
          exact ⟨s, hs, by rw [(inverse_length N _ _ _ _ hi).1]; exact hl w (by simp) u0 hg⟩
      · exact ih s1 st' hnd.2 hl' h w hw

/-- With an unchanged uniform array the sample of a variable is the transform of that
array. -/
theorem transformAll_sample (N : Num F) (n : Nat) (vs : List (RV F)) :
    ∀ st st', (vs.map RV.name).Nodup → transformAll N n vs st = .ok st' →
      ∀ v ∈ vs, v.kind.utility = false →
        (∀ w ∈ vs, w.kind.isMultinomial = true → w.root.name ≠ v.root.name) →
        ∃ u s u', st.1.get? v.root.name = some u ∧ v.kind.inverse N u = .ok (s, u') ∧
          st'.2.get? v.name = some s := by
  induction vs with
  | nil => intro st st' _ _ v hv; simp at hv
  | cons v vs ih =>
    intro st st' hnd h w hw hk hm
    rw [List.map_cons, List.nodup_cons] at hnd
    simp only [transformAll] at h
    cases ho : transformOne N n v st with
    | error e => rw [ho] at h; simp at h
    | ok s1 =>
      rw [ho] at h
      simp only at h
      obtain ⟨_, h2, h3, h4⟩ := transformOne_spec N n v st s1 ho
      rcases List.mem_cons.1 hw with rfl | hw'
      · have hk' := transformAll_other N n vs s1 st' h w.name
          (fun x hx e => hnd.1 (e ▸ List.mem_map_of_mem hx))
        rw [if_neg (by simp [hk])] at h4
        obtain ⟨u0, s, u', hg, hi, hs, _⟩ := h4
        exact ⟨u0, s, u', hg, hi, by rw [hk', hs]⟩
      · obtain ⟨u, s, u', hg, hi, hs⟩ := ih s1 st' hnd.2 h w hw' hk
          (fun x hx => hm x (List.mem_cons_of_mem _ hx))
        refine ⟨u, s, u', ?_, hi, hs⟩
        rw [← hg]
        cases hmv : v.kind.isMultinomial with
        | false => exact (h3 hmv _).symm
        | true => exact (h2 _ (fun e => hm v (by simp) hmv e.symm)).symm

end
end Verif.UQ
