import Verif.Lemmas.PyStr
import Verif.Model.Logger
import Mathlib.Data.List.Basic
import Mathlib.Data.List.Nodup

/-! # Property C08: warnings are shown once -/

namespace Verif.Logger

/-- The messages queued by a history, in order (specification). -/
def queued : List Op → List Str
  | [] => []
  | .add m :: ops => m :: queued ops
  | .emit :: ops => queued ops
  | .warn m :: ops => m :: queued ops

/-- The formatting constants contain no line break (true of the terminal codes and
of the blanks used by the code). -/
def Style.ok (s : Style) : Prop := '\n' ∉ s.spaces ∧ '\n' ∉ s.red ∧ '\n' ∉ s.reset

theorem body_inj {s : Style} (hs : s.ok) : ∀ (l1 l2 : List Str),
    (∀ w ∈ l1, '\n' ∉ w) → (∀ w ∈ l2, '\n' ∉ w) →
    l1.flatMap (fun line => s.spaces ++ s.red ++ line ++ s.reset ++ ['\n']) =
    l2.flatMap (fun line => s.spaces ++ s.red ++ line ++ s.reset ++ ['\n']) → l1 = l2 := by
  intro l1
  induction l1 with
  | nil =>
    intro l2 _ _ h
    cases l2 with
    | nil => rfl
    | cons a l2 => simp at h
  | cons a l1 ih =>
    intro l2 h1 h2 h
    cases l2 with
    | nil => simp at h
    | cons b l2 =>
      simp only [List.flatMap_cons] at h
      have ha : '\n' ∉ s.spaces ++ s.red ++ a ++ s.reset := by
        simp only [List.mem_append, not_or]
        exact ⟨⟨⟨hs.1, hs.2.1⟩, h1 a (by simp)⟩, hs.2.2⟩
      have hb : '\n' ∉ s.spaces ++ s.red ++ b ++ s.reset := by
        simp only [List.mem_append, not_or]
        exact ⟨⟨⟨hs.1, hs.2.1⟩, h2 b (by simp)⟩, hs.2.2⟩
      have h' := congrArg (splitChar '\n') h
      simp only [List.append_assoc, List.singleton_append] at h'
      simp only [List.append_assoc] at ha hb
      have e1 : ∀ (x t : Str), s.spaces ++ (s.red ++ (x ++ (s.reset ++ '\n' :: t))) =
        (s.spaces ++ (s.red ++ (x ++ s.reset))) ++ '\n' :: t := by intro x t; simp
      rw [e1, e1, splitChar_append_sep _ _ _ ha, splitChar_append_sep _ _ _ hb] at h'
      simp only [List.cons.injEq] at h'
      have hab : a = b := by
        have := h'.1
        simpa using this
      subst hab
      have hrest := congrArg (joinChar '\n') h'.2
      rw [join_split, join_split] at hrest
      have := ih l2 (fun w hw => h1 w (List.mem_cons_of_mem _ hw))
        (fun w hw => h2 w (List.mem_cons_of_mem _ hw)) (by simpa using hrest)
      rw [this]

/-- Different messages are formatted differently. -/
theorem format_inj {s : Style} (hs : s.ok) {m1 m2 : Str} (h : format s m1 = format s m2) :
    m1 = m2 := by
  simp only [format, List.cons.injEq, true_and] at h
  have := body_inj hs _ _ (splitChar_parts_no_sep _ _) (splitChar_parts_no_sep _ _) h
  rw [← join_split '\n' m1, this, join_split]

/-- Invariant tying the logger state to history and output. -/
def Inv (s : Style) (st : State) (q : List Str) (out : List Str) : Prop :=
  st.stack.Nodup ∧ out.Nodup ∧ (∀ f, f ∈ out ↔ f ∈ st.emitted) ∧
  (∀ f, (f ∈ st.stack ∨ f ∈ st.emitted) ↔ ∃ m ∈ q, f = format s m)

theorem inv_add {s : Style} {st : State} {q out : List Str} (m : Str) (h : Inv s st q out) :
    Inv s (addWarning s st m) (q ++ [m]) out := by
  obtain ⟨h1, h2, h3, h4⟩ := h
  unfold addWarning
  by_cases hm : format s m ∈ st.stack
  · simp only [hm, if_true]
    refine ⟨h1, h2, h3, ?_⟩
    intro f
    rw [h4]
    constructor
    · rintro ⟨x, hx, rfl⟩; exact ⟨x, by simp [hx], rfl⟩
    · rintro ⟨x, hx, rfl⟩
      rcases List.mem_append.1 hx with hx | hx
      · exact ⟨x, hx, rfl⟩
      · simp at hx; subst hx; exact (h4 _).1 (Or.inl hm)
  · simp only [hm, if_false]
    refine ⟨?_, h2, h3, ?_⟩
    · rw [List.nodup_append]
      exact ⟨h1, by simp, by intro a ha b hb; simp at hb; subst hb; exact fun e => hm (e ▸ ha)⟩
    · intro f
      simp only [List.mem_append, List.mem_singleton]
      constructor
      · rintro ((hf | rfl) | hf)
        · obtain ⟨x, hx, e⟩ := (h4 f).1 (Or.inl hf); exact ⟨x, Or.inl hx, e⟩
        · exact ⟨m, Or.inr rfl, rfl⟩
        · obtain ⟨x, hx, e⟩ := (h4 f).1 (Or.inr hf); exact ⟨x, Or.inl hx, e⟩
      · rintro ⟨x, (hx | rfl), rfl⟩
        · rcases (h4 _).2 ⟨x, hx, rfl⟩ with h | h
          · exact Or.inl (Or.inl h)
          · exact Or.inr h
        · exact Or.inl (Or.inr rfl)

theorem inv_emit {s : Style} {st : State} {q out : List Str} (h : Inv s st q out) :
    Inv s (emitWarnings st).1 q (out ++ (emitWarnings st).2) := by
  obtain ⟨h1, h2, h3, h4⟩ := h
  simp only [emitWarnings]
  refine ⟨List.nodup_nil, ?_, ?_, ?_⟩
  · rw [List.nodup_append]
    refine ⟨h2, h1.filter _, ?_⟩
    intro a ha b hb e
    subst e
    simp only [List.mem_filter, decide_eq_true_eq] at hb
    exact hb.2 ((h3 a).1 ha)
  · intro f
    simp only [List.mem_append, List.mem_filter, decide_eq_true_eq, h3]
    constructor
    · rintro (h | h)
      · exact Or.inl h
      · exact Or.inr h.1
    · rintro (h | h)
      · exact Or.inl h
      · by_cases hf : f ∈ st.emitted
        · exact Or.inl hf
        · exact Or.inr ⟨h, hf⟩
  · intro f
    simp only [List.not_mem_nil, false_or, List.mem_append]
    rw [← h4]
    exact or_comm

theorem inv_run (s : Style) (ops : List Op) : ∀ (st : State) (q out : List Str), Inv s st q out →
    Inv s (run s st ops).1 (q ++ queued ops) (out ++ (run s st ops).2) := by
  induction ops with
  | nil => intro st q out h; simpa [run, queued] using h
  | cons op ops ih =>
    intro st q out h
    cases op with
    | add m =>
      have := ih _ _ _ (inv_add m h)
      simpa [run, step, queued] using this
    | emit =>
      have := ih _ _ _ (inv_emit h)
      simpa [run, step, queued] using this
    | warn m =>
      have := ih _ _ _ (inv_emit (inv_add m h))
      simpa [run, step, queued] using this

theorem inv_init (s : Style) : Inv s init [] [] := by
  simp [Inv, init]

/-- C08: over any history no text is shown twice, and only queued messages are shown. -/
theorem C08_no_repetition_no_invention (s : Style) (ops : List Op) :
    (run s init ops).2.Nodup ∧
    ∀ f ∈ (run s init ops).2, ∃ m ∈ queued ops, f = format s m := by
  have h := inv_run s ops init [] [] (inv_init s)
  simp only [List.nil_append] at h
  refine ⟨h.2.1, fun f hf => (h.2.2.2 f).1 (Or.inr ((h.2.2.1 f).1 hf))⟩

theorem run_append (s : Style) (a b : List Op) : ∀ st,
    run s st (a ++ b) = ((run s (run s st a).1 b).1, (run s st a).2 ++ (run s (run s st a).1 b).2) := by
  induction a with
  | nil => intro st; simp [run]
  | cons op a ih => intro st; simp [run, ih]

theorem queued_append (a b : List Op) : queued (a ++ b) = queued a ++ queued b := by
  induction a with
  | nil => rfl
  | cons op a ih => cases op <;> simp [queued, ih]

/-- C08: once the pending warnings have been emitted, every distinct message queued
so far has been shown exactly once. -/
theorem C08_exactly_once_after_emit (s : Style) (hs : s.ok) (ops : List Op) (m : Str) :
    List.count (format s m) (run s init (ops ++ [.emit])).2 = if m ∈ queued ops then 1 else 0 := by
  have h := inv_run s (ops ++ [.emit]) init [] [] (inv_init s)
  simp only [List.nil_append, queued_append, queued, List.append_nil] at h
  have hst : (run s init (ops ++ [.emit])).1.stack = [] := by
    rw [run_append]; rfl
  obtain ⟨_, h2, h3, h4⟩ := h
  have key : format s m ∈ (run s init (ops ++ [.emit])).2 ↔ m ∈ queued ops := by
    rw [h3]
    constructor
    · intro hm
      obtain ⟨m', hm', e⟩ := (h4 _).1 (Or.inr hm)
      rw [format_inj hs e]; exact hm'
    · intro hm
      rcases (h4 _).2 ⟨m, hm, rfl⟩ with h | h
      · rw [hst] at h; simp at h
      · exact h
  by_cases hq : m ∈ queued ops
  · rw [if_pos hq]
    exact List.count_eq_one_of_mem h2 (key.2 hq)
  · rw [if_neg hq]
    exact List.count_eq_zero.2 (fun h => hq (key.1 h))

/-- C08: an immediate warning leaves nothing pending and has been shown. -/
theorem C08_immediate_warning (s : Style) (ops : List Op) (m : Str) :
    format s m ∈ (run s init (ops ++ [.warn m])).2 := by
  have h := inv_run s (ops ++ [.warn m]) init [] [] (inv_init s)
  simp only [List.nil_append, queued_append, queued] at h
  have hst : (run s init (ops ++ [.warn m])).1.stack = [] := by
    rw [run_append]; rfl
  rw [h.2.2.1]
  rcases (h.2.2.2 (format s m)).2 ⟨m, by simp, rfl⟩ with h | h
  · rw [hst] at h; simp at h
  · exact h

/-- The real terminal codes satisfy the hypothesis. -/
def exStyle : Style := ⟨str "         ", [Char.ofNat 27, '[', '3', '1', 'm'], [Char.ofNat 27, '[', '0', 'm']⟩
example : exStyle.ok := by unfold Style.ok; decide +kernel
example : (run exStyle init [.add (str "a"), .add (str "b"), .add (str "a"), .emit, .warn (str "a"), .emit]).2
    = [format exStyle (str "a"), format exStyle (str "b")] := by decide +kernel

end Verif.Logger
