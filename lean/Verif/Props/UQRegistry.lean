import Verif.Spec.UQRegistry
import Verif.Lemmas.UQRegistry
import Verif.Lemmas.UQInstances
import Verif.Props.UQDist
import Verif.Props.UQFamilies

/-! # Properties C13–C16 and C22: registry, anchors, correlation -/

namespace Verif.UQ

section
variable {F : Type} [Field F] [LinearOrder F]

/-! ### C14 -/

/-- What registration guarantees at any time: names are unique and lead to their variable. -/
def RegInv (r : Registry F) : Prop :=
  r.vars.NoDupKeys ∧ ∀ p ∈ r.vars, p.1 = p.2.name

theorem RegInv.empty : RegInv ({} : Registry F) := by
  constructor
  · simp [Dict.NoDupKeys, Dict.keys]
  · intro p hp; simp at hp

theorem addRV_inv {r r' : Registry F} {v : RV F} (h : RegInv r) (ha : r.addRV v = .ok r') :
    RegInv r' ∧ r'.vars = r.vars ++ [(v.name, v)] := by
  unfold Registry.addRV at ha
  split at ha
  · simp at ha
  · rename_i hc
    cases ha
    have hk : v.name ∉ r.vars.keys := fun hh => hc ((Dict.contains_iff _ _).2 hh)
    refine ⟨⟨Dict.noDupKeys_set h.1 _ _, ?_⟩, ?_⟩
    · simp only
      rw [Dict.set_of_not_mem hk]
      intro p hp
      rcases List.mem_append.1 hp with hp | hp
      · exact h.2 p hp
      · simp at hp; rw [hp]
    · simp only [Dict.set_of_not_mem hk]

variable [FloorRing F]

theorem run_inv (r : Registry F) (op : RegOp F) (h : RegInv r) : RegInv (op.run r) := by
  cases op with
  | add v =>
    simp only [RegOp.run]
    cases ha : r.addRV v with
    | error e => exact h
    | ok r' => exact (addRV_inv h ha).1
  | addSet s => exact h
  | generate N n m perm jitter =>
    simp only [RegOp.run]
    cases hg : generateSample N r n m perm jitter with
    | error e => exact h
    | ok r' =>
      unfold generateSample at hg
      split at hg
      · simp at hg
      · split at hg
        · simp at hg
        · cases hg; exact h

/-- C14: after any sequence of operations no two registered variables have the same name. -/
theorem C14_names_unique (ops : List (RegOp F)) :
    (((ops.foldl RegOp.run ({} : Registry F)).vars).map (fun p => p.2.name)).Nodup := by
  have key : ∀ (ops : List (RegOp F)) (r : Registry F), RegInv r → RegInv (ops.foldl RegOp.run r) := by
    intro ops
    induction ops with
    | nil => intro r h; exact h
    | cons op ops ih => intro r h; exact ih _ (run_inv r op h)
  obtain ⟨h1, h2⟩ := key ops _ RegInv.empty
  have : ((ops.foldl RegOp.run ({} : Registry F)).vars).map (fun p => p.2.name) =
      ((ops.foldl RegOp.run ({} : Registry F)).vars).map Prod.fst :=
    List.map_congr_left (fun p hp => (h2 p hp).symm)
  rw [this]
  exact h1

/-- C14: registering a variable whose name is taken is refused; otherwise it is added and the
others stay. -/
theorem C14_duplicate_refused (r : Registry F) (v : RV F) (hr : RegInv r) :
    ((∃ w ∈ r.vars.map Prod.snd, w.name = v.name) → r.addRV v = .error .valueError) ∧
    ((∀ w ∈ r.vars.map Prod.snd, w.name ≠ v.name) → ∃ r', r.addRV v = .ok r' ∧
      r'.vars.map Prod.snd = r.vars.map Prod.snd ++ [v]) := by
  have hmem : v.name ∈ r.vars.keys ↔ ∃ w ∈ r.vars.map Prod.snd, w.name = v.name := by
    unfold Dict.keys
    constructor
    · intro h
      obtain ⟨p, hp, he⟩ := List.mem_map.1 h
      exact ⟨p.2, List.mem_map_of_mem hp, by rw [← hr.2 p hp, he]⟩
    · rintro ⟨w, hw, he⟩
      obtain ⟨p, hp, rfl⟩ := List.mem_map.1 hw
      rw [← he, ← hr.2 p hp]
      exact List.mem_map_of_mem hp
  constructor
  · intro h
    unfold Registry.addRV
    rw [if_pos ((Dict.contains_iff _ _).2 (hmem.2 h))]
  · intro h
    have hn : v.name ∉ r.vars.keys := by
      intro hh
      obtain ⟨w, hw, he⟩ := hmem.1 hh
      exact h w hw he
    refine ⟨_, by
      unfold Registry.addRV
      rw [if_neg (fun hh => hn ((Dict.contains_iff _ _).1 hh))], ?_⟩
    simp only [Dict.set_of_not_mem hn, List.map_append, List.map_cons, List.map_nil]

theorem drawRow_length {m : Method} {n : Nat} {perm : List Nat} {jitter row : List F}
    (hp : perm.length = n) (hj : jitter.length = n) (h : drawRow m n perm jitter = .ok row) :
    row.length = n := by
  cases m <;> simp only [drawRow, Except.ok.injEq] at h
  · subst h; simp [hp, hj]
  · subst h; simp [hp]
  · subst h; exact hj
  · simp at h

theorem vars_get? {r : Registry F} (hr : RegInv r) {v : RV F} (hv : v ∈ r.vars.map Prod.snd) :
    r.vars.get? v.name = some v := by
  obtain ⟨p, hp, rfl⟩ := List.mem_map.1 hv
  rw [← hr.2 p hp]
  exact Dict.get?_of_mem hr.1 hp

theorem free_nodup {r : Registry F} (hr : RegInv r) : r.free.Nodup := by
  unfold Registry.free
  exact (List.filter_sublist.map _).nodup hr.1

theorem root_free {r : Registry F} (hr : RegInv r) (hc : Closed r) {v : RV F}
    (hv : v ∈ r.vars.map Prod.snd) : v.root.name ∈ r.free := by
  have := Dict.mem_of_get? (hc v hv)
  unfold Registry.free
  apply List.mem_map.2
  exact ⟨(v.root.name, v.root), List.mem_filter.2 ⟨this, by simp [RV.root_selfAnchored]⟩, rfl⟩

/-- C14: after generating a sample of size `n` every registered variable has a sample of
length `n`.  The generator delivers arrays of length `n`, and the copula of a set keeps the
shape of its table. -/
theorem C14_all_sampled (N : Num F) (r r' : Registry F) (n : Nat) (m : Method)
    (perm : Nat → List Nat) (jitter : Nat → List F) (hr : RegInv r) (hc : Closed r)
    (hp : ∀ i, (perm i).length = n) (hj : ∀ i, (jitter i).length = n)
    (hs : ∀ s ∈ r.sets.map Prod.snd,
      (∀ v ∈ s.members, v ∈ r.vars.map Prod.snd) ∧
      ∀ rows, (∀ row ∈ rows, row.length = n) → ∀ row ∈ s.copula rows, row.length = n)
    (h : generateSample N r n m perm jitter = .ok r') :
    ∀ v ∈ r'.vars.map Prod.snd, ∃ s, r'.samples.get? v.name = some s ∧ s.length = n := by
  unfold generateSample at h
  cases hd : drawUniform r n m perm jitter with
  | error e => rw [hd] at h; simp at h
  | ok uni =>
    rw [hd] at h
    simp only at h
    cases ht : transformAll N n (r.vars.map Prod.snd) (uni, r.samples) with
    | error e => rw [ht] at h; simp at h
    | ok st =>
      rw [ht] at h
      cases h
      simp only
      have hnd : ((r.vars.map Prod.snd).map RV.name).Nodup := by
        rw [List.map_map]
        have : r.vars.map (RV.name ∘ Prod.snd) = r.vars.map Prod.fst :=
          List.map_congr_left (fun p hp => (hr.2 p hp).symm)
        rw [this]; exact hr.1
      refine transformAll_len N n _ _ _ hnd ?_ ht
      -- lengths of the uniform arrays
      unfold drawUniform at hd
      cases ha : assignUni m n perm jitter 0 r.free r.uni with
      | error e => rw [ha] at hd; simp at hd
      | ok u0 =>
        rw [ha] at hd
        simp only at hd
        obtain ⟨_, h2⟩ := assignUni_spec m n perm jitter r.free 0 r.uni u0 (free_nodup hr) ha
        have hu0 : ∀ v ∈ r.vars.map Prod.snd, ∀ u, u0.get? v.root.name = some u → u.length = n := by
          intro v hv u hu
          obtain ⟨j, hj'⟩ := List.mem_iff_getElem?.1 (root_free hr hc hv)
          obtain ⟨row, hrow, hg⟩ := h2 j _ hj'
          rw [hg] at hu; cases hu
          exact drawRow_length (hp _) (hj _) hrow
        have hsets : ∀ (sets : List (RVSet F)), (∀ s ∈ sets, s ∈ r.sets.map Prod.snd) →
            ∀ u1 u2 : Dict Str (List F),
            (∀ v ∈ r.vars.map Prod.snd, ∀ u, u1.get? v.root.name = some u → u.length = n) →
            applySets sets u1 = .ok u2 →
            ∀ v ∈ r.vars.map Prod.snd, ∀ u, u2.get? v.root.name = some u → u.length = n := by
          intro sets
          induction sets with
          | nil => intro _ u1 u2 h1 h2; simp only [applySets, Except.ok.injEq] at h2; rw [← h2]; exact h1
          | cons s sets ih =>
            intro hm u1 u2 h1 h2
            simp only [applySets] at h2
            cases hcor : applyCorrelation s u1 with
            | error e => rw [hcor] at h2; simp at h2
            | ok u3 =>
              rw [hcor] at h2
              refine ih (fun t ht => hm t (List.mem_cons_of_mem _ ht)) u3 u2 ?_ h2
              intro v hv u hu
              obtain ⟨hs1, hs2⟩ := hs s (hm s (by simp))
              unfold applyCorrelation at hcor
              split at hcor
              · simp at hcor
              · rename_i rows hrows
                cases hcor
                have hrl : ∀ row ∈ rows, row.length = n := by
                  intro row hrow
                  obtain ⟨hhl, hha⟩ := List.forall₂_iff_get.1 (mapE_ok_iff.1 hrows)
                  obtain ⟨i, hi, rfl⟩ := List.mem_iff_getElem.1 hrow
                  have hi' : i < s.members.length := by rw [hhl]; exact hi
                  have hg := hha i hi' hi
                  simp only [List.get_eq_getElem] at hg
                  have hv' : s.members[i] ∈ s.members := List.getElem_mem _
                  generalize s.members[i] = v' at hg hv'
                  unfold Registry.uniOf at hg
                  cases hq : u1.get? v'.root.name with
                  | none => rw [hq] at hg; simp at hg
                  | some q =>
                    rw [hq] at hg
                    simp only [Except.ok.injEq] at hg
                    rw [← hg]
                    exact h1 v' (hs1 v' hv') _ hq
                rcases setRows_len n s.members _ u1 (hs2 rows hrl) _ _ hu with hu | hu
                · exact h1 v hv u hu
                · exact hu
        exact hsets _ (fun s hs => hs) u0 uni hu0 hd

/-! ### C13 -/

variable [IsStrictOrderedRing F]

theorem stratum_iff {n k b : Nat} {u : F} (hn : 0 < n) (h0 : 0 ≤ u) (h1 : u < 1) :
    ((k : F) / n ≤ ((b : F) + u) / n ∧ ((b : F) + u) / n < ((k : F) + 1) / n) ↔ b = k := by
  have hnF : (0 : F) < n := Nat.cast_pos.2 hn
  rw [div_le_div_iff_of_pos_right hnF, div_lt_div_iff_of_pos_right hnF]
  constructor
  · rintro ⟨h2, h3⟩
    have a1 : (b : F) < (k : F) + 1 := by linarith
    have a2 : (k : F) < (b : F) + 1 := by linarith
    have b1 : b < k + 1 := by exact_mod_cast a1
    have b2 : k < b + 1 := by exact_mod_cast a2
    omega
  · rintro rfl
    constructor <;> linarith

theorem stratified_of {n : Nat} (hn : 0 < n) (perm : List Nat) (js row : List F)
    (hp : perm.Perm (List.range n)) (hlen : row.length = n)
    (hrow : ∀ j : Nat, j < n → ∃ b u, perm[j]? = some b ∧ 0 ≤ u ∧ u < 1 ∧
      row[j]? = some (((b : F) + u) / n)) : Stratified n row := by
  have hpl : perm.length = n := by rw [hp.length_eq, List.length_range]
  have hnd : perm.Nodup := hp.nodup_iff.2 List.nodup_range
  refine ⟨hlen, ?_⟩
  intro k hk
  have hkm : k ∈ perm := hp.mem_iff.2 (List.mem_range.2 hk)
  obtain ⟨j, hj, hjk⟩ := List.mem_iff_getElem.1 hkm
  refine ⟨j, ?_, ?_⟩
  · obtain ⟨b, u, hb, h0, h1, hr⟩ := hrow j (by omega)
    rw [List.getElem?_eq_getElem hj, hjk] at hb
    cases hb
    exact ⟨_, hr, (stratum_iff hn h0 h1).2 rfl⟩
  · rintro j' ⟨x, hx, hx'⟩
    have hj' : j' < n := by
      have := (List.getElem?_eq_some_iff.1 hx).1
      omega
    obtain ⟨b, u, hb, h0, h1, hr⟩ := hrow j' hj'
    rw [hx] at hr
    cases hr
    have := (stratum_iff hn h0 h1).1 hx'
    subst this
    have hj'' : j' < perm.length := by omega
    rw [List.getElem?_eq_getElem hj''] at hb
    simp only [Option.some.injEq] at hb
    exact (List.Nodup.getElem_inj_iff hnd).1 (hb.trans hjk.symm)

theorem drawRow_stratified {m : Method} {n : Nat} (hn : 0 < n) {perm : List Nat} {js row : List F}
    (hm : m = .lhs ∨ m = .lhsMidpoint) (hp : perm.Perm (List.range n)) (hjl : js.length = n)
    (hj : ∀ u ∈ js, 0 ≤ u ∧ u < 1) (h : drawRow m n perm js = .ok row) :
    Stratified n row ∧ (m = .lhsMidpoint → Midpoints n row) := by
  have hpl : perm.length = n := by rw [hp.length_eq, List.length_range]
  rcases hm with rfl | rfl
  · simp only [drawRow, Except.ok.injEq] at h
    refine ⟨stratified_of hn perm js row hp (by rw [← h]; simp [hpl, hjl]) ?_, by simp⟩
    intro j hjn
    have h1 : j < perm.length := by omega
    have h2 : j < js.length := by omega
    obtain ⟨a, b⟩ := hj (js[j]) (List.getElem_mem _)
    refine ⟨perm[j], js[j], List.getElem?_eq_getElem h1, a, b, ?_⟩
    rw [← h, List.getElem?_zipWith]
    simp [h1, h2]
  · simp only [drawRow, Except.ok.injEq] at h
    refine ⟨stratified_of hn perm js row hp (by rw [← h]; simp [hpl]) ?_, fun _ => ?_⟩
    · intro j hjn
      have h1 : j < perm.length := by omega
      refine ⟨perm[j], 1 / 2, List.getElem?_eq_getElem h1, by norm_num, by norm_num, ?_⟩
      rw [← h, List.getElem?_map]
      simp [h1]
    · intro x hx
      rw [← h] at hx
      obtain ⟨b, hb, rfl⟩ := List.mem_map.1 hx
      exact ⟨b, List.mem_range.1 (hp.mem_iff.1 hb), rfl⟩

/-- C13: with a Latin hypercube method, after generating `n` realizations the uniform sample of
every registered variable (for an anchored one: the sample of the variable it leads to) has
exactly one value in each of the `n` equal strata, and the midpoint variant puts it in the
middle.  Variables whose root belongs to a correlated set are excluded (the copula rearranges
their values), and so are those driven by an array that a multinomial variable overwrites
(see C22). -/
theorem C13_lhs_stratified (N : Num F) (r r' : Registry F) (n : Nat) (hn : 0 < n) (m : Method)
    (perm : Nat → List Nat) (jitter : Nat → List F) (hm : m = .lhs ∨ m = .lhsMidpoint)
    (hr : RegInv r) (hc : Closed r) (hdraw : GoodDraws n perm jitter)
    (h : generateSample N r n m perm jitter = .ok r')
    (v : RV F) (hv : v ∈ r.vars.map Prod.snd)
    (hset : ∀ s ∈ r.sets.map Prod.snd, ∀ w ∈ s.members, w.name ≠ v.root.name)
    (hmul : ∀ w ∈ r.vars.map Prod.snd, w.kind.isMultinomial = true → w.root.name ≠ v.root.name) :
    ∃ row, Registry.uniOf r'.uni v = some row ∧ Stratified n row ∧
      (m = .lhsMidpoint → Midpoints n row) := by
  unfold generateSample at h
  cases hd : drawUniform r n m perm jitter with
  | error e => rw [hd] at h; simp at h
  | ok uni =>
    rw [hd] at h
    simp only at h
    cases ht : transformAll N n (r.vars.map Prod.snd) (uni, r.samples) with
    | error e => rw [ht] at h; simp at h
    | ok st =>
      rw [ht] at h
      cases h
      unfold Registry.uniOf
      simp only
      have hsame := transformAll_uni N n _ _ _ ht v.root.name hmul
      unfold drawUniform at hd
      cases ha : assignUni m n perm jitter 0 r.free r.uni with
      | error e => rw [ha] at hd; simp at hd
      | ok u0 =>
        rw [ha] at hd
        simp only at hd
        obtain ⟨_, h2⟩ := assignUni_spec m n perm jitter r.free 0 r.uni u0 (free_nodup hr) ha
        obtain ⟨j, hj'⟩ := List.mem_iff_getElem?.1 (root_free hr hc hv)
        obtain ⟨row, hrow, hg⟩ := h2 j _ hj'
        have hk := applySets_get? _ u0 uni v.root.name hset hd
        obtain ⟨d1, d2, d3⟩ := hdraw (0 + j)
        obtain ⟨s1, s2⟩ := drawRow_stratified hn hm d1 d2 d3 hrow
        exact ⟨row, by rw [hsame, hk, hg], s1, s2⟩

/-! ### C15 -/

/-- C15: two non-utility variables that lead to the same root are both driven by one and the
same uniform array `u`: their samples are the transforms of `u`.  (Multinomial variables with
that root are excluded, see C22.) -/
theorem C15_same_uniform (N : Num F) (r r' : Registry F) (n : Nat) (m : Method)
    (perm : Nat → List Nat) (jitter : Nat → List F) (hr : RegInv r)
    (h : generateSample N r n m perm jitter = .ok r')
    (a b : RV F) (ha : a ∈ r.vars.map Prod.snd) (hb : b ∈ r.vars.map Prod.snd)
    (hka : a.kind.utility = false) (hkb : b.kind.utility = false)
    (hroot : a.root = b.root)
    (hmul : ∀ w ∈ r.vars.map Prod.snd, w.kind.isMultinomial = true → w.root.name ≠ a.root.name) :
    ∃ u sa sb, Registry.uniOf r'.uni a = some u ∧ Registry.uniOf r'.uni b = some u ∧
      a.kind.inverse N u = .ok (sa, u) ∧ b.kind.inverse N u = .ok (sb, u) ∧
      r'.samples.get? a.name = some sa ∧ r'.samples.get? b.name = some sb := by
  unfold generateSample at h
  cases hd : drawUniform r n m perm jitter with
  | error e => rw [hd] at h; simp at h
  | ok uni =>
    rw [hd] at h
    simp only at h
    cases ht : transformAll N n (r.vars.map Prod.snd) (uni, r.samples) with
    | error e => rw [ht] at h; simp at h
    | ok st =>
      rw [ht] at h
      cases h
      have hnd : ((r.vars.map Prod.snd).map RV.name).Nodup := by
        rw [List.map_map]
        have : r.vars.map (RV.name ∘ Prod.snd) = r.vars.map Prod.fst :=
          List.map_congr_left (fun p hp => (hr.2 p hp).symm)
        rw [this]; exact hr.1
      have hsame := transformAll_uni N n _ _ _ ht a.root.name hmul
      obtain ⟨u, sa, u1, g1, i1, s1⟩ := transformAll_sample N n _ _ _ hnd ht a ha hka hmul
      obtain ⟨u2, sb, u3, g2, i2, s2⟩ := transformAll_sample N n _ _ _ hnd ht b hb hkb
        (by rw [← hroot]; exact hmul)
      rw [← hroot] at g2
      rw [g1] at g2
      cases g2
      have hma : a.kind.isMultinomial = false := by
        cases hk : a.kind.isMultinomial
        · rfl
        · exact absurd rfl (hmul a ha hk)
      have hmb : b.kind.isMultinomial = false := by
        cases hk : b.kind.isMultinomial
        · rfl
        · exact absurd (by rw [hroot]) (hmul b hb hk)
      have e1 := inverse_pure N _ hma _ _ _ i1
      have e2 := inverse_pure N _ hmb _ _ _ i2
      subst e1; subst e2
      refine ⟨_, sa, sb, ?_, ?_, i1, i2, s1, s2⟩
      · unfold Registry.uniOf; rw [hsame]; exact g1
      · unfold Registry.uniOf; rw [← hroot, hsame]; exact g1

/-- C15: a variable that is anchored to another one, directly or through a chain of anchors, reads the uniform
sample of its anchor; their samples are transforms of one and the same uniform sample. -/
theorem C15_anchored (N : Num F) (r r' : Registry F) (n : Nat) (m : Method)
    (perm : Nat → List Nat) (jitter : Nat → List F) (hr : RegInv r)
    (h : generateSample N r n m perm jitter = .ok r')
    (name : Str) (kind : RVKind F) (anchor : RV F) (ha : RV.mk name kind (some anchor) ∈ r.vars.map Prod.snd)
    (hb : anchor ∈ r.vars.map Prod.snd) (hka : kind.utility = false) (hkb : anchor.kind.utility = false)
    (hmul : ∀ w ∈ r.vars.map Prod.snd, w.kind.isMultinomial = true → w.root.name ≠ anchor.root.name) :
    ∃ u s s', Registry.uniOf r'.uni anchor = some u ∧ Registry.uniOf r'.uni (.mk name kind (some anchor)) = some u ∧
      kind.inverse N u = .ok (s, u) ∧ anchor.kind.inverse N u = .ok (s', u) ∧
      r'.samples.get? name = some s ∧ r'.samples.get? anchor.name = some s' := by
  obtain ⟨u, s, s', h1, h2, h3, h4, h5, h6⟩ :=
    C15_same_uniform N r r' n m perm jitter hr h (.mk name kind (some anchor)) anchor ha hb hka hkb rfl hmul
  exact ⟨u, s, s', h2, h1, h3, h4, h5, h6⟩

/-- A kind whose transform never maps a larger uniform value to a smaller result. -/
def Increasing (N : Num F) (k : RVKind F) : Prop :=
  ∀ u s u', k.inverse N u = .ok (s, u') → (∀ x ∈ u, 0 ≤ x ∧ x ≤ 1) →
    ∀ (i j : Nat) (x y : F) (v w : Ext F), u[i]? = some x → u[j]? = some y → s[i]? = some v →
      s[j]? = some w → x ≤ y → Ext.Le v w

theorem Ext.Le.total {v w : Ext F} (hv : v ≠ .nan) (hw : w ≠ .nan) : Ext.Le v w ∨ Ext.Le w v := by
  cases v with
  | nan => exact absurd rfl hv
  | negInf => exact .inl (.neg hw)
  | posInf => exact .inr (.pos hw)
  | fin x =>
    cases w with
    | nan => exact absurd rfl hw
    | negInf => exact .inr (.neg hv)
    | posInf => exact .inl (.pos hv)
    | fin y => rcases le_total x y with h | h
               · exact .inl (.fin h)
               · exact .inr (.fin h)

/-- C15: for increasing transforms the two samples are ordered alike: in any two realizations,
if the first variable is strictly larger in one of them, the second is not smaller there. -/
theorem C15_ordered_alike (N : Num F) (a b : RVKind F) (u : List F) (sa sb : List (Ext F))
    (ha : a.inverse N u = .ok (sa, u)) (hb : b.inverse N u = .ok (sb, u))
    (hu : ∀ x ∈ u, 0 ≤ x ∧ x ≤ 1) (hia : Increasing N a) (hib : Increasing N b)
    (i j : Nat) (v w v' w' : Ext F) (h1 : sa[i]? = some v) (h2 : sa[j]? = some w)
    (h3 : sb[i]? = some v') (h4 : sb[j]? = some w') (hlt : ¬ Ext.Le w v) : Ext.Le v' w' := by
  have hi : i < u.length := by
    have := (List.getElem?_eq_some_iff.1 h1).1
    rw [(inverse_length N _ _ _ _ ha).1] at this; exact this
  have hj : j < u.length := by
    have := (List.getElem?_eq_some_iff.1 h2).1
    rw [(inverse_length N _ _ _ _ ha).1] at this; exact this
  have gi := List.getElem?_eq_getElem hi
  have gj := List.getElem?_eq_getElem hj
  rcases le_total u[i] u[j] with h | h
  · exact hib u sb u hb hu i j _ _ _ _ gi gj h3 h4 h
  · exact absurd (hia u sa u ha hu j i _ _ _ _ gj gi h2 h1 h) hlt

theorem transformRows_get {m s : F} {g : F → F → F → Except PyErr (Ext F)} {u : List F}
    {l : List (Ext F)} (h : transformRows (.const m s) g u = .ok l) (i : Nat) (x : F) (v : Ext F)
    (hx : u[i]? = some x) (hv : l[i]? = some v) : g m s x = .ok v := by
  unfold transformRows Par.expand at h
  simp only at h
  have := mapE_ok_iff.1 h
  obtain ⟨hl, hall⟩ := List.forall₂_iff_get.1 this
  have hi := (List.getElem?_eq_some_iff.1 hv)
  obtain ⟨hi1, hi2⟩ := hi
  obtain ⟨hj1, hj2⟩ := List.getElem?_eq_some_iff.1 hx
  have := hall i (by rw [hl]; exact hi1) hi1
  simp only [List.get_eq_getElem, List.getElem_zip, List.getElem_replicate] at this
  rw [hj2, hi2] at this
  exact this

/-- C15: normal (positive deviation), lognormal (positive median and dispersion, upper limit not
negative), Weibull and accepted multilinear variables are increasing, so
`C15_ordered_alike` applies to them. -/
theorem C15_increasing_families (N : Num F) (he : 0 < N.eps) :
    (∀ m s a b, 0 < s → Increasing N (.normal (.const m s) a b)) ∧
    (∀ m s a b, 0 < m → 0 < s → (∀ y, b = some y → 0 ≤ y) →
      Increasing N (.lognormal (.const m s) a b)) ∧
    (∀ W a b, Increasing N (.weibull W a b)) ∧
    (∀ t0 t1 a b, a < b → Increasing N (.uniform t0 t1 (some a) (some b))) ∧
    (∀ pts, multilinearInit pts none none = .ok pts → Increasing N (.multilinear pts)) := by
  have hmap : ∀ {α : Type} (e : Except PyErr α) (g : α → List (Ext F) × List F) s u',
      e.map g = .ok (s, u') → ∃ a, e = .ok a ∧ g a = (s, u') := by
    intro α e g s u' he
    cases e with
    | error e => simp [Except.map] at he
    | ok a => simp [Except.map] at he; exact ⟨a, rfl, he⟩
  refine ⟨?_, ?_, ?_, ?_, ?_⟩
  · intro m s a b hs u l u' h hu i j x y v w hx hy hv hw hxy
    obtain ⟨l', hl, e⟩ := hmap _ _ _ _ h
    simp only [Prod.mk.injEq] at e
    obtain ⟨rfl, _⟩ := e
    have h1 := transformRows_get hl i x v hx hv
    have h2 := transformRows_get hl j y w hy hw
    exact C17_normal_monotone N.D he hs (hu x (List.mem_of_getElem? hx)).1 hxy
      (hu y (List.mem_of_getElem? hy)).2 h1 h2
  · intro m s a b hm hs hb u l u' h hu i j x y v w hx hy hv hw hxy
    obtain ⟨l', hl, e⟩ := hmap _ _ _ _ h
    simp only [Prod.mk.injEq] at e
    obtain ⟨rfl, _⟩ := e
    have h1 := transformRows_get hl i x v hx hv
    have h2 := transformRows_get hl j y w hy hw
    exact (C17_lognormal_partial N.D N.E he hm hs hb (hu x (List.mem_of_getElem? hx)).1 hxy
      (hu y (List.mem_of_getElem? hy)).2 h1 h2).2
  · intro W a b u l u' h hu i j x y v w hx hy hv hw hxy
    obtain ⟨l', hl, e⟩ := hmap _ _ _ _ h
    simp only [Prod.mk.injEq] at e
    obtain ⟨rfl, _⟩ := e
    obtain ⟨hlen, hall⟩ := List.forall₂_iff_get.1 (mapE_ok_iff.1 hl)
    obtain ⟨i1, i2⟩ := List.getElem?_eq_some_iff.1 hx
    obtain ⟨j1, j2⟩ := List.getElem?_eq_some_iff.1 hy
    obtain ⟨i3, i4⟩ := List.getElem?_eq_some_iff.1 hv
    obtain ⟨j3, j4⟩ := List.getElem?_eq_some_iff.1 hw
    have h1 := hall i i1 i3
    have h2 := hall j j1 j3
    simp only [List.get_eq_getElem, i2, i4, j2, j4] at h1 h2
    exact (C17_weibull W he (hu x (List.mem_of_getElem? hx)).1 hxy
      (hu y (List.mem_of_getElem? hy)).2 h1 h2).2
  · intro t0 t1 a b hab u l u' h hu i j x y v w hx hy hv hw hxy
    simp only [RVKind.inverse, Except.ok.injEq, Prod.mk.injEq] at h
    obtain ⟨rfl, _⟩ := h
    simp only [List.getElem?_map, hx, hy, Option.map_some, Option.some.injEq] at hv hw
    subst hv hw
    exact (C17_uniform_partial hab (hu x (List.mem_of_getElem? hx)).1 hxy
      (hu y (List.mem_of_getElem? hy)).2).2
  · intro pts hp u l u' h hu i j x y v w hx hy hv hw hxy
    simp only [RVKind.inverse, Except.ok.injEq, Prod.mk.injEq] at h
    obtain ⟨rfl, _⟩ := h
    simp only [List.getElem?_map, hx, hy, Option.map_some, Option.some.injEq] at hv hw
    subst hv hw
    exact .fin (C23_inverse_monotone hp hxy)

/-! ### C22 -/

omit [IsStrictOrderedRing F] in
/-- C22, all families but the multinomial: generating samples leaves the uniform sample of every
variable as it was drawn (and correlated).  Multinomial variables are the exception, see
`C22_multinomial_overwrites`. -/
theorem C22_uniform_kept_partial (N : Num F) (r r' : Registry F) (n : Nat) (m : Method)
    (perm : Nat → List Nat) (jitter : Nat → List F) (uni : Dict Str (List F))
    (hd : drawUniform r n m perm jitter = .ok uni)
    (h : generateSample N r n m perm jitter = .ok r')
    (v : RV F)
    (hmul : ∀ w ∈ r.vars.map Prod.snd, w.kind.isMultinomial = true → w.root.name ≠ v.root.name) :
    Registry.uniOf r'.uni v = Registry.uniOf uni v := by
  unfold generateSample at h
  rw [hd] at h
  simp only at h
  cases ht : transformAll N n (r.vars.map Prod.snd) (uni, r.samples) with
  | error e => rw [ht] at h; simp at h
  | ok st =>
    rw [ht] at h
    cases h
    exact transformAll_uni N n _ _ _ ht v.root.name hmul

end

/-! Violation of C22: a multinomial variable overwrites the uniform sample; a second one that is
anchored to it then repeats the categories of the first instead of using its own weights. -/

/-- Violation of C22: for every multinomial variable with at least one category, every entry of
the uniform sample in `[0, 1]` is replaced by a number of at least ten. -/
theorem C22_multinomial_overwrites {F : Type} [Field F] [LinearOrder F] [IsStrictOrderedRing F]
    (theta values : List F) (hp : ∀ p ∈ (cumsum 0 theta).dropLast, p ≤ 1)
    (hv : ∀ v ∈ values, v ≤ 1) :
    ∀ x ∈ (multinomialInverse theta values).2, 10 ≤ x := by
  unfold multinomialInverse
  simp only
  rw [multinomialLoop_single _ _ _ hp (fun v h => .inl (hv v h)), List.map_map]
  intro x hx
  obtain ⟨v, hvm, rfl⟩ := List.mem_map.1 hx
  have hv1 := hv v hvm
  simp only [Function.comp, hv1, true_and, Nat.zero_add]
  have h1 : (0 : F) ≤ (((cumsum 0 theta).dropLast.findIdx fun p => decide (v < p) : Nat) : F) :=
    Nat.cast_nonneg _
  have h2 : (0 : F) ≤ (((cumsum 0 theta).dropLast.length : Nat) : F) := Nat.cast_nonneg _
  split
  · rw [if_neg (by linarith)]; linarith
  · linarith

/-- Violation of C22, consequence: for `u = 1/2` variable `A` (weights 3/4, 1/4) gives category
0; variable `B` (weights 1/4, 3/4), evaluated afterwards on the shared array, gives 0 although
its own weights assign category 1 to `u = 1/2`. -/
theorem C22_anchored_multinomial_wrong :
    (multinomialInverse [3/4, (1/4 : ℚ)] [1/2]).1 = [0] ∧
    (multinomialInverse [1/4, (3/4 : ℚ)] (multinomialInverse [3/4, (1/4 : ℚ)] [1/2]).2).1 = [0] ∧
    (multinomialInverse [1/4, (3/4 : ℚ)] [1/2]).1 = [1] := by
  refine ⟨?_, ?_, ?_⟩ <;> decide +kernel

/-! Concrete registry meeting the hypotheses of C13–C15: a normal variable, an anchored
lognormal one and a deterministic one. -/

section
variable {F : Type} [Field F] [LinearOrder F] [IsStrictOrderedRing F]

def exA : RV F := .mk (str "A") (.normal (.const 0 1) none none) none
def exB : RV F := .mk (str "B") (.normal (.const 5 2) none none) (some exA)
def exC : RV F := .mk (str "C") (.deterministic [7]) none
def exReg : Registry F := { vars := [(str "A", exA), (str "B", exB), (str "C", exC)] }

example : RegInv (exReg (F := F)) ∧ Closed (exReg (F := F)) := by
  refine ⟨⟨?_, ?_⟩, ?_⟩
  · show [str "A", str "B", str "C"].Nodup
    decide
  · intro p hp; simp [exReg] at hp; rcases hp with rfl | rfl | rfl <;> rfl
  · intro v hv
    simp [exReg] at hv
    rcases hv with rfl | rfl | rfl <;> rfl

example : GoodDraws 2 (fun _ => [1, 0]) (fun _ => [(1/3 : ℚ), 2/3]) := by
  intro i
  refine ⟨?_, rfl, ?_⟩
  · show [1, 0].Perm (List.range 2)
    decide
  intro u hu; simp at hu; rcases hu with rfl | rfl <;> norm_num

/-- The example runs without an exception, for any numeric setting. -/
example (N : Num F) [FloorRing F] :
    ∃ r', generateSample N exReg 2 .lhs (fun _ => [1, 0]) (fun _ => [1/3, 2/3]) = .ok r' := by
  refine ⟨_, rfl⟩

end

/-! ### C16 -/

section
variable {F : Type}

theorem zipIdx_perm_names (names : List Str) :
    (pySort (fun (x y : Str × Nat) => strLe x.1 y.1) names.zipIdx).Perm names.zipIdx :=
  pySort_perm _ _

theorem argsort_perm (names : List Str) : (argsortNames names).Perm (List.range names.length) := by
  unfold argsortNames
  refine ((zipIdx_perm_names names).map Prod.snd).trans ?_
  rw [List.zipIdx_map_snd]
  simp [List.range_eq_range']

theorem argsort_length (names : List Str) : (argsortNames names).length = names.length := by
  rw [(argsort_perm names).length_eq, List.length_range]

theorem getD_map_range (names : List Str) :
    (List.range names.length).map (fun i => names.getD i []) = names := by
  apply List.ext_getElem?
  intro i
  by_cases h : i < names.length
  · simp [h]
  · simp [h]

/-- C16: the stored variables are the given ones, in another order. -/
theorem C16_same_variables (names : List Str) (rho : Nat → Nat → F) :
    (CorrSet.init names rho).names.Perm names := by
  unfold CorrSet.init
  split
  · simp only
    have := (argsort_perm names).map (fun i => names.getD i [])
    rw [getD_map_range] at this
    exact this
  · exact List.Perm.refl _

/-- C16: the correlation stored for two variables is the entry the caller supplied for them:
if `a`, `b` are at positions `i`, `j` of the supplied list and at `k`, `l` of the stored
list, then the stored entry `(k, l)` is the supplied entry `(i, j)`. -/
theorem C16_entries_follow (names : List Str) (hnd : names.Nodup) (rho : Nat → Nat → F)
    (i j k l : Nat) (a b : Str) (ha : names[i]? = some a) (hb : names[j]? = some b)
    (hk : (CorrSet.init names rho).names[k]? = some a)
    (hl : (CorrSet.init names rho).names[l]? = some b) :
    (CorrSet.init names rho).rho k l = rho i j := by
  have inj : ∀ {p q : Nat} {x : Str}, names[p]? = some x → names[q]? = some x → p = q := by
    intro p q x hp hq
    obtain ⟨h1, h2⟩ := List.getElem?_eq_some_iff.1 hp
    obtain ⟨h3, h4⟩ := List.getElem?_eq_some_iff.1 hq
    exact (List.Nodup.getElem_inj_iff hnd).1 (h2.trans h4.symm)
  unfold CorrSet.init at hk hl ⊢
  split at hk
  · rename_i hlen
    rw [if_pos hlen] at hl ⊢
    simp only at hk hl ⊢
    have key : ∀ (k : Nat) (x : Str) (i : Nat), names[i]? = some x →
        ((argsortNames names).map fun i => names.getD i [])[k]? = some x →
        (argsortNames names).getD k 0 = i := by
      intro k x i hi hk
      rw [List.getElem?_map] at hk
      cases hg : (argsortNames names)[k]? with
      | none => rw [hg] at hk; simp at hk
      | some p =>
        rw [hg] at hk
        simp only [Option.map_some, Option.some.injEq] at hk
        rw [List.getD_eq_getElem?_getD, hg]
        simp only [Option.getD_some]
        have hp : p < names.length :=
          List.mem_range.1 ((argsort_perm names).mem_iff.1 (List.mem_of_getElem? hg))
        rw [List.getD_eq_getElem?_getD, List.getElem?_eq_getElem hp] at hk
        simp only [Option.getD_some] at hk
        exact inj (by rw [List.getElem?_eq_getElem hp, hk]) hi
    rw [key k a i ha hk, key l b j hb hl]
  · rename_i hlen
    rw [if_neg hlen] at hl ⊢
    simp only at hk hl ⊢
    rw [inj hk ha, inj hl hb]

/-- The entry of a matrix for two named variables. -/
def entryFor (names : List Str) (rho : Nat → Nat → F) (a b : Str) : F :=
  rho (names.idxOf a) (names.idxOf b)

/-- C16: for a symmetric matrix the sub-matrix for a list of variables has at `(k, l)` the entry
supplied for the `k`-th and `l`-th of them; unknown names are refused. -/
theorem C16_subset (names : List Str) (hnd : names.Nodup) (rho : Nat → Nat → F)
    (hsym : ∀ i j, rho i j = rho j i) (vars : List Str) :
    (∀ m, (CorrSet.init names rho).subset vars = .ok m →
      (∀ v ∈ vars, v ∈ names) ∧
      ∀ (k l : Nat) (a b : Str), vars[k]? = some a → vars[l]? = some b →
        m k l = entryFor names rho a b) ∧
    ((∃ v ∈ vars, v ∉ names) → (CorrSet.init names rho).subset vars = .error .valueError) ∧
    ((∀ v ∈ vars, v ∈ names) → ∃ m, (CorrSet.init names rho).subset vars = .ok m) := by
  set s := CorrSet.init names rho with hs
  have hperm : s.names.Perm names := C16_same_variables names rho
  have hidx : ∀ v i, indexOf s.names v = .ok i → s.names[i]? = some v := by
    intro v i h
    unfold indexOf at h
    cases hq : s.names.idxOf? v with
    | none => rw [hq] at h; simp at h
    | some q =>
      rw [hq] at h; cases h
      rw [List.idxOf?_eq_some_iff] at hq
      obtain ⟨h1, h2, _⟩ := hq
      rw [List.getElem?_eq_getElem h1]
      exact congrArg some (by simpa using h2)
  have hok : ∀ v, v ∈ names → ∃ i, indexOf s.names v = .ok i := by
    intro v hv
    unfold indexOf
    cases hq : s.names.idxOf? v with
    | none => exact absurd (hperm.mem_iff.2 hv) (List.idxOf?_eq_none_iff.1 hq)
    | some q => exact ⟨q, rfl⟩
  have hno : ∀ v, v ∉ names → indexOf s.names v = .error .valueError := by
    intro v hv
    unfold indexOf
    rw [List.idxOf?_eq_none_iff.2 (fun h => hv (hperm.mem_iff.1 h))]
  refine ⟨?_, ?_, ?_⟩
  · intro m hm
    unfold CorrSet.subset at hm
    cases hids : mapE (indexOf s.names) vars with
    | error e => rw [hids] at hm; simp at hm
    | ok ids =>
      rw [hids] at hm
      simp only [Except.ok.injEq] at hm
      obtain ⟨hlen, hall⟩ := List.forall₂_iff_get.1 (mapE_ok_iff.1 hids)
      constructor
      · intro v hv
        obtain ⟨i, hi, rfl⟩ := List.mem_iff_getElem.1 hv
        have := hall i hi (by rw [← hlen]; exact hi)
        exact hperm.mem_iff.1 (List.mem_of_getElem? (hidx _ _ this))
      · intro k l a b ha hb
        obtain ⟨k1, k2⟩ := List.getElem?_eq_some_iff.1 ha
        obtain ⟨l1, l2⟩ := List.getElem?_eq_some_iff.1 hb
        have gk := hidx _ _ (hall k k1 (by rw [← hlen]; exact k1))
        have gl := hidx _ _ (hall l l1 (by rw [← hlen]; exact l1))
        simp only [List.get_eq_getElem, k2, l2] at gk gl
        have ma : a ∈ names := hperm.mem_iff.1 (List.mem_of_getElem? gk)
        have mb : b ∈ names := hperm.mem_iff.1 (List.mem_of_getElem? gl)
        have ga : names[names.idxOf a]? = some a := by
          rw [List.getElem?_eq_getElem (List.idxOf_lt_length_of_mem ma)]; simp
        have gb : names[names.idxOf b]? = some b := by
          rw [List.getElem?_eq_getElem (List.idxOf_lt_length_of_mem mb)]; simp
        rw [← hm]
        simp only
        have ek : ids.getD k 0 = ids[k]'(by rw [← hlen]; exact k1) := by
          rw [List.getD_eq_getElem?_getD, List.getElem?_eq_getElem]; rfl
        have el : ids.getD l 0 = ids[l]'(by rw [← hlen]; exact l1) := by
          rw [List.getD_eq_getElem?_getD, List.getElem?_eq_getElem]; rfl
        rw [ek, el, C16_entries_follow names hnd rho _ _ _ _ b a gb ga gl gk, hsym]
        rfl
  · rintro ⟨v, hv, hn⟩
    unfold CorrSet.subset
    cases hids : mapE (indexOf s.names) vars with
    | error e =>
      obtain ⟨w, _, hw⟩ := mapE_error hids
      by_cases hwn : w ∈ names
      · obtain ⟨i, hi⟩ := hok w hwn; rw [hi] at hw; simp at hw
      · rw [hno w hwn] at hw; cases hw; rfl
    | ok ids =>
      exfalso
      obtain ⟨hlen, hall⟩ := List.forall₂_iff_get.1 (mapE_ok_iff.1 hids)
      obtain ⟨i, hi, rfl⟩ := List.mem_iff_getElem.1 hv
      have := hall i hi (by rw [← hlen]; exact hi)
      simp only [List.get_eq_getElem] at this
      rw [hno _ hn] at this
      simp at this
  · intro h
    unfold CorrSet.subset
    obtain ⟨ids, hids⟩ := mapE_ok_of_forall (f := indexOf s.names) (l := vars) (fun v hv => hok v (h v hv))
    rw [hids]
    exact ⟨_, rfl⟩

example : (CorrSet.init [str "b", str "a"] (fun i j => 10 * i + j)).names = [str "a", str "b"] ∧
    (CorrSet.init [str "b", str "a"] (fun i j => 10 * i + j)).rho 0 1 = 10 := by decide

end
end Verif.UQ
