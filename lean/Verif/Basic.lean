import Mathlib.Data.Rat.Defs
import Mathlib.Data.List.Forall2
import Mathlib.Algebra.Order.Field.Rat
import Mathlib.Tactic.Linarith
import Mathlib.Tactic.Ring
import Mathlib.Tactic.FieldSimp
import Mathlib.Tactic.NormNum

/-!
# Python basics

Shared vocabulary of the model: exceptions as values, `str` as a list of
characters, `dict` as an association list that preserves insertion order.
-/

namespace Verif

/-- Python exception classes raised by the modelled code (message dropped). -/
inductive PyErr where
  | valueError
  | keyError
  | typeError
  | indexError
  | assertionError
  | runtimeError
  | unboundLocalError
  | invalidConfigError
  | inconsistentUnitsError
  | notImplementedError
  | attributeError
  | fileNotFoundError
  | zeroDivisionError
  | overflowError
  deriving DecidableEq, Repr

/-- A loop that collects one result per item and stops at the first exception. -/
def mapE {α β : Type} (f : α → Except PyErr β) : List α → Except PyErr (List β)
  | [] => .ok []
  | a :: l =>
    match f a with
    | .error e => .error e
    | .ok b =>
      match mapE f l with
      | .error e => .error e
      | .ok bs => .ok (b :: bs)

theorem mapE_ok_iff {α β : Type} {f : α → Except PyErr β} {l : List α} {r : List β} :
    mapE f l = .ok r ↔ List.Forall₂ (fun a b => f a = .ok b) l r := by
  induction l generalizing r with
  | nil =>
    constructor
    · intro h; simp [mapE] at h; subst h; exact .nil
    · intro h; cases h; rfl
  | cons a l ih =>
    simp only [mapE]
    constructor
    · intro h
      split at h
      · simp at h
      · rename_i b hb
        split at h
        · simp at h
        · rename_i bs hbs
          cases h
          exact .cons hb (ih.1 hbs)
    · intro h
      cases h with
      | cons h1 h2 => rw [h1, ih.2 h2]

theorem mapE_ok_of_forall {α β : Type} {f : α → Except PyErr β} {l : List α}
    (h : ∀ a ∈ l, ∃ b, f a = .ok b) : ∃ r, mapE f l = .ok r := by
  induction l with
  | nil => exact ⟨[], rfl⟩
  | cons a l ih =>
    obtain ⟨b, hb⟩ := h a (by simp)
    obtain ⟨r, hr⟩ := ih (fun x hx => h x (List.mem_cons_of_mem _ hx))
    exact ⟨b :: r, by simp [mapE, hb, hr]⟩

theorem mapE_error {α β : Type} {f : α → Except PyErr β} {l : List α} {e : PyErr}
    (h : mapE f l = .error e) : ∃ a ∈ l, f a = .error e := by
  induction l with
  | nil => simp [mapE] at h
  | cons a l ih =>
    simp only [mapE] at h
    split at h
    · rename_i e' he
      cases h; exact ⟨a, by simp, he⟩
    · split at h
      · rename_i e' he
        cases h
        obtain ⟨x, hx, hx'⟩ := ih he
        exact ⟨x, List.mem_cons_of_mem _ hx, hx'⟩
      · simp at h

theorem mapE_length {α β : Type} {f : α → Except PyErr β} {l : List α} {r : List β}
    (h : mapE f l = .ok r) : r.length = l.length := (mapE_ok_iff.1 h).length_eq.symm

theorem mapE_pure {α β : Type} {f : α → Except PyErr β} {g : α → β} {l : List α}
    (h : ∀ a ∈ l, f a = .ok (g a)) : mapE f l = .ok (l.map g) := by
  induction l with
  | nil => rfl
  | cons a l ih =>
    simp [mapE, h a (by simp), ih (fun x hx => h x (List.mem_cons_of_mem _ hx))]

/-- Python `str`, where characters matter. -/
abbrev Str := List Char

/-- A string literal as a `Str`. -/
abbrev str (s : String) : Str := s.toList

/-- Python `dict`: association list in insertion order.  All dictionaries built
by the model keep their keys distinct (`Dict.NoDupKeys`). -/
abbrev Dict (κ α : Type) := List (κ × α)

namespace Dict

variable {κ α : Type} [DecidableEq κ]

/-- `d.get(k)` -/
def get? : Dict κ α → κ → Option α
  | [], _ => none
  | (k', v) :: d, k => if k' = k then some v else get? d k

/-- `k in d` -/
def contains (d : Dict κ α) (k : κ) : Bool := (d.get? k).isSome

/-- `d[k] = v`: replaces in place or appends. -/
def set : Dict κ α → κ → α → Dict κ α
  | [], k, v => [(k, v)]
  | (k', v') :: d, k, v => if k' = k then (k', v) :: d else (k', v') :: set d k v

/-- `del d[k]` (no error if missing; the error branch is handled by callers). -/
def erase : Dict κ α → κ → Dict κ α
  | [], _ => []
  | (k', v') :: d, k => if k' = k then d else (k', v') :: erase d k

/-- `d[k]` with `KeyError`. -/
def getE (d : Dict κ α) (k : κ) : Except PyErr α :=
  match d.get? k with
  | some v => .ok v
  | none => .error .keyError

def keys (d : Dict κ α) : List κ := d.map Prod.fst

def NoDupKeys (d : Dict κ α) : Prop := (keys d).Nodup

@[simp] theorem get?_nil (k : κ) : get? ([] : Dict κ α) k = none := rfl

theorem get?_cons (k' : κ) (v : α) (d : Dict κ α) (k : κ) :
    get? ((k', v) :: d) k = if k' = k then some v else get? d k := rfl

theorem get?_set (d : Dict κ α) (k k' : κ) (v : α) :
    (d.set k v).get? k' = if k = k' then some v else d.get? k' := by
  induction d with
  | nil => simp [set, get?]
  | cons e d ih =>
    obtain ⟨a, b⟩ := e
    by_cases h : a = k
    · subst h
      by_cases h' : a = k' <;> simp [set, get?, h']
    · by_cases h' : a = k'
      · subst h'
        have : ¬ k = a := fun x => h x.symm
        simp [set, get?, h, this]
      · simp [set, get?, h, h', ih]

theorem get?_eq_none_iff (d : Dict κ α) (k : κ) : d.get? k = none ↔ k ∉ d.keys := by
  induction d with
  | nil => simp [keys]
  | cons e d ih =>
    obtain ⟨a, b⟩ := e
    by_cases h : a = k
    · subst h; simp [get?, keys]
    · have : ¬ k = a := fun x => h x.symm
      simp [get?, keys, h, this] at ih ⊢
      exact ih

theorem mem_of_get? {d : Dict κ α} {k : κ} {v : α} (h : d.get? k = some v) : (k, v) ∈ d := by
  induction d with
  | nil => simp at h
  | cons e d ih =>
    obtain ⟨a, b⟩ := e
    by_cases h' : a = k
    · subst h'; simp [get?] at h; subst h; simp
    · simp [get?, h'] at h; exact List.mem_cons_of_mem _ (ih h)

theorem get?_of_mem {d : Dict κ α} (hd : d.NoDupKeys) {k : κ} {v : α} (h : (k, v) ∈ d) :
    d.get? k = some v := by
  induction d with
  | nil => simp at h
  | cons e d ih =>
    obtain ⟨a, b⟩ := e
    simp [NoDupKeys, keys] at hd
    rcases List.mem_cons.1 h with h | h
    · cases h; simp [get?]
    · have : a ≠ k := fun x => hd.1 v (x ▸ h)
      simp [get?, this]
      exact ih hd.2 h

theorem get?_iff_mem {d : Dict κ α} (hd : d.NoDupKeys) {k : κ} {v : α} :
    d.get? k = some v ↔ (k, v) ∈ d := ⟨mem_of_get?, get?_of_mem hd⟩

theorem keys_set (d : Dict κ α) (k : κ) (v : α) :
    (d.set k v).keys = if k ∈ d.keys then d.keys else d.keys ++ [k] := by
  induction d with
  | nil => simp [set, keys]
  | cons e d ih =>
    obtain ⟨a, b⟩ := e
    by_cases h : a = k
    · subst h; simp [set, keys]
    · have : ¬ k = a := fun x => h x.symm
      simp only [keys, List.map_cons, set, h, if_false] at ih ⊢
      rw [ih]
      by_cases hk : k ∈ List.map Prod.fst d <;> simp [hk, this]

theorem noDupKeys_set {d : Dict κ α} (hd : d.NoDupKeys) (k : κ) (v : α) :
    (d.set k v).NoDupKeys := by
  unfold NoDupKeys at *
  rw [keys_set]
  split
  · exact hd
  · rename_i h
    rw [List.nodup_append]
    refine ⟨hd, by simp, ?_⟩
    intro a ha b hb
    simp at hb; subst hb
    exact fun x => h (x ▸ ha)

theorem set_of_not_mem {d : Dict κ α} {k : κ} (h : k ∉ d.keys) (v : α) :
    d.set k v = d ++ [(k, v)] := by
  induction d with
  | nil => rfl
  | cons e d ih =>
    obtain ⟨a, b⟩ := e
    simp only [keys, List.map_cons, List.mem_cons, not_or] at h
    have : ¬ a = k := fun x => h.1 x.symm
    simp only [set, this, if_false, List.cons_append]
    rw [ih h.2]

theorem contains_iff (d : Dict κ α) (k : κ) : d.contains k = true ↔ k ∈ d.keys := by
  unfold contains
  rw [Option.isSome_iff_ne_none, ne_eq, get?_eq_none_iff, Classical.not_not]

end Dict

end Verif
