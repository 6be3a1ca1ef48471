import Verif.Model.UQDist

/-!
# Specification vocabulary for the distributions
-/

namespace Verif.UQ

section
variable {F : Type} [Field F] [LinearOrder F]

/-- `x ≤ y` for floating point numbers (false as soon as one is `nan`). -/
inductive Ext.Le : Ext F → Ext F → Prop
  | neg {y} : y ≠ .nan → Ext.Le .negInf y
  | pos {x} : x ≠ .nan → Ext.Le x .posInf
  | fin {x y : F} : x ≤ y → Ext.Le (.fin x) (.fin y)

/-- `v` is a number between the limits that are present. -/
def Within (a b : Option F) (v : Ext F) : Prop :=
  v ≠ .nan ∧ (∀ x, a = some x → Ext.Le (.fin x) v) ∧ (∀ y, b = some y → Ext.Le v (.fin y))

/-- `f * v`. -/
def Ext.scale (f : F) : Ext F → Ext F
  | .fin x => .fin (x * f)
  | .posInf => .posInf
  | .negInf => .negInf
  | .nan => .nan

end
end Verif.UQ
