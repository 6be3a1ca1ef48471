import Verif.Model.RngStream
import Verif.Spec.SampleProb

/-! # Words used in C125 -/

namespace Verif.RngStream

open Verif.UQ MeasureTheory
open Verif.SampleProb (RandomGen)

/-- Steps that need the same numbers, as far as their amount is concerned: for example, the distributions of the variables may be different,
but not the number of free variables. -/
inductive Alike {Seed : Type} : Op Seed → Op Seed → Prop
  | seed (s : Seed) : Alike (.seed s) (.seed s)
  | sample (r r' : Registry ℝ) (n : Nat) (m : Method) (h : r.free.length = r'.free.length) : Alike (.sample r n m) (.sample r' n m)
  | normal (k : Nat) : Alike (.normal k) (.normal k)

/-- A generator that returns a given permutation, row of numbers or normal numbers in call number `c`. -/
def byCall (perm : Nat → List Nat) (row noise : Nat → List ℝ) : Rng Nat Unit where
  start := fun _ => 0
  permutation := fun _ c => (perm c, c + 1)
  random := fun _ c => (row c, c + 1)
  normal := fun _ c => (noise c, c + 1)

/-- Assessments with the steps `ops`, in which the seed is not set again.  The permutations and numbers returned in different calls of the
generator are independent; permutations are equally likely and numbers are uniform.  All samples have `n` realizations, with
one of the two random methods, and can be drawn. -/
structure Assessment {Ω : Type} [MeasurableSpace Ω] (P : Measure Ω) (N : Num ℝ) (n : Nat) (ops : List (Op Unit)) (perm : Ω → Nat → List Nat)
    (row noise : Ω → Nat → List ℝ) (σ : Nat → Ω → Equiv.Perm (Fin n)) (out : Ω → List Out) : Prop where
  eps : 0 < N.eps
  calls : RandomGen P n perm row σ
  once : ∀ s, .seed s ∉ ops
  size : ∀ r k m, .sample r k m ∈ ops → k = n ∧ (m = .monteCarlo ∨ m = .lhs) ∧ RegInv r ∧ Closed r
  run : ∀ ω, (run (byCall (perm ω) (row ω) (noise ω)) N ops 0).1 = out ω
  drawn : ∀ (ω : Ω) (t : Nat) (x : Except PyErr (Registry ℝ)), (out ω)[t]? = some (Out.samples x) → ∃ r', x = Except.ok r'

/-- The value of a variable in step `t` and realization `i` is a number up to `z`. -/
def StepUpTo (out : List Out) (t : Nat) (name : Str) (i : Nat) (z : ℝ) : Prop :=
  ∃ r', out[t]? = some (Out.samples (.ok r')) ∧ SampleProb.UpTo r'.samples name i z

end Verif.RngStream
