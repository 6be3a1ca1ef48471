import Verif.Basic

/-!
# Curves through points

Specification of a function given by points and straight lines between neighbours.  The order in which the
points are listed does not matter.
-/

namespace Verif

/-- `m` is the value at `x` of the curve through the points: the value of a point, or on the line between the
two points around `x` that have no other point between them. -/
def OnGraph (pts : List (ℚ × ℚ)) (x m : ℚ) : Prop :=
  (∃ p ∈ pts, p.1 = x ∧ p.2 = m) ∨
  ∃ a ∈ pts, ∃ b ∈ pts, a.1 < x ∧ x < b.1 ∧ (∀ c ∈ pts, c.1 ≤ a.1 ∨ b.1 ≤ c.1) ∧
    m = a.2 + (b.2 - a.2) / (b.1 - a.1) * (x - a.1)

/-- The same with the value of the outermost point beyond the points. -/
def OnClampedGraph (pts : List (ℚ × ℚ)) (x m : ℚ) : Prop :=
  OnGraph pts x m ∨
  (∃ p ∈ pts, x < p.1 ∧ (∀ c ∈ pts, p.1 ≤ c.1) ∧ m = p.2) ∨
  ∃ p ∈ pts, p.1 < x ∧ (∀ c ∈ pts, c.1 ≤ p.1) ∧ m = p.2

end Verif
