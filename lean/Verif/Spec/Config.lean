import Verif.Model.Config

/-!
# Vocabulary for the configuration properties

A configuration is seen from outside as the partial map from paths (lists of
keys) to what is stored there.
-/

namespace Verif.Config

/-- The plain value stored at a path, if there is one. -/
def leafAt (t : Js) (path : List Str) : Option Leaf :=
  match t.at path with
  | some (.leaf l) => some l
  | _ => none

/-- A dictionary is stored at the path. -/
def dictAt (t : Js) (path : List Str) : Prop := ∃ g, t.at path = some (.dict g)

/-- One side has a dictionary where the other one has a plain value. -/
def clashAt (u p : Js) (path : List Str) : Prop :=
  (dictAt u path ∧ (leafAt p path).isSome) ∨ ((leafAt u path).isSome ∧ dictAt p path)

/-- Every dictionary in the tree has distinct keys (true of every Python dict). -/
def WF (t : Js) : Prop := ∀ path g, t.at path = some (.dict g) → g.keys.Nodup

/-- Which values the documentation of `is_unspecified` calls unspecified:
"None, NaN, or an empty dictionary or list". -/
def docUnspecified : Js → Prop
  | .leaf (.atom .null) => True
  | .leaf (.atom .nan) => True
  | .leaf (.list []) => True
  | .dict .nil => True
  | _ => False

end Verif.Config
