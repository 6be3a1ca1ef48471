import Verif.Model.UQRegistry

/-! # Specification vocabulary for the registry -/

namespace Verif.UQ

section
variable {F : Type} [Field F] [LinearOrder F]

/-- One value in each of the `n` equal strata of the unit interval. -/
def Stratified (n : Nat) (row : List F) : Prop :=
  row.length = n ∧ ∀ k : Nat, k < n → ∃ j : Nat,
    (∃ x, row[j]? = some x ∧ (k : F) / n ≤ x ∧ x < ((k : F) + 1) / n) ∧
    ∀ j' : Nat, (∃ x, row[j']? = some x ∧ (k : F) / n ≤ x ∧ x < ((k : F) + 1) / n) → j' = j

/-- Every value is the middle of its stratum. -/
def Midpoints (n : Nat) (row : List F) : Prop :=
  ∀ x ∈ row, ∃ k : Nat, k < n ∧ x = ((k : F) + 1 / 2) / n

/-- What the random generator guarantees: permutations of `0..n-1` and numbers in `[0, 1)`. -/
def GoodDraws (n : Nat) (perm : Nat → List Nat) (jitter : Nat → List F) : Prop :=
  ∀ i, (perm i).Perm (List.range n) ∧ (jitter i).length = n ∧
    ∀ u ∈ jitter i, 0 ≤ u ∧ u < 1

/-- The operations a user can apply to a registry. -/
inductive RegOp (F : Type) [Field F] [LinearOrder F] where
  | add (v : RV F)
  | addSet (s : RVSet F)
  | generate (N : Num F) (n : Nat) (m : Method) (perm : Nat → List Nat) (jitter : Nat → List F)

/-- Run one operation; an exception leaves the registered variables as they were (arrays
may have been touched, which the properties about registration do not look at). -/
def RegOp.run [FloorRing F] (r : Registry F) : RegOp F → Registry F
  | .add v => match r.addRV v with
    | .ok r' => r'
    | .error _ => r
  | .addSet s => r.addRVSet s
  | .generate N n m perm jitter => match generateSample N r n m perm jitter with
    | .ok r' => r'
    | .error _ => r

/-- The root of every registered variable is registered as well (anchors come from the same
registry). -/
def Closed (r : Registry F) : Prop :=
  ∀ v ∈ r.vars.map Prod.snd, r.vars.get? v.root.name = some v.root

end
end Verif.UQ
