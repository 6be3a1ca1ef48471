import Verif.Model.Units

/-! # Vocabulary for the unit and mapping properties -/

namespace Verif.Units

/-- Apply a function to each number. -/
def Vals.each (f : ℚ → ℚ) : Vals → Vals
  | .flt q => .flt (f q)
  | .lst qs => .lst (qs.map f)
  | .arr qs => .arr (qs.map f)
  | .other => .other

/-- The category in which a conversion from `unit` takes place: the named one, or the
first one in the table that lists `unit`. -/
def Chosen (t : Table) (unit : Str) (category : Option Str) (us : Dict Str ℚ) : Prop :=
  if category.getD [] = [] then
    ∃ (i : Nat) (c : Str), t[i]? = some (c, us) ∧ unit ∈ us.keys ∧
      ∀ j < i, ∀ c' us', t[j]? = some (c', us') → unit ∉ us'.keys
  else t.get? (category.getD []) = some us

/-- All unit names are distinct, over all categories. -/
def UniqueNames (t : Table) : Prop := (t.flatMap (fun e => Dict.keys e.2)).Nodup

/-- No factor is zero. -/
def NonzeroFactors (t : Table) : Prop := ∀ e ∈ t, ∀ p ∈ e.2, p.2 ≠ 0

/-- The unit entries written in the categories of a unit file, in file order. -/
def fileEntries : RawFile → List (Str × RawVal)
  | .obj pairs => pairs.flatMap (fun p => match p.2 with
    | .obj us => us
    | .other _ => [])
  | _ => []

/-- What a value written in a unit file stands for: a number for itself, a text for the number that
Python's `float` reads from it; `null`, lists and objects for nothing. -/
def Means (pyFloat : Str → Option ℚ) : RawVal → ℚ → Prop
  | .num q', q => q' = q
  | .text s, q => pyFloat s = some q
  | .null, _ => False
  | .nested _, _ => False

/-- The factor of a unit in the flattened table. -/
def factorOf (t : Table) (u : Str) : Option ℚ := Dict.get? (t.flatMap Prod.snd) u

end Verif.Units
