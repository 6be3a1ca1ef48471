import Verif.Model.LossAgg
import Verif.Model.Interp

/-!
# Combining losses of several components

pelicun/model/loss_model.py `_apply_loss_combinations` (1044-1103), `_loss_combination_add_combinable`
(1105-1199), `_identify_potential_groups` (1201-1236), `_map_component_ids_to_loss_ids` (1238-1265)
and `_deconstruct_loss_combination_arrays` (1267-1311).
-/

namespace Verif.LossComb

open LossAgg (LKey Sample)

/-- `loc`, `dir` and `uid` of a column. -/
abbrev LDU := Str × Str × Str

def lduOf (k : LKey) : LDU := (k.loc, k.dir, k.uid)

/-- Are the values strictly ascending? -/
def ascending : List ℚ → Bool
  | a :: b :: l => decide (a < b) && ascending (b :: l)
  | _ => true

/-- `a ≤ x ≤ b` for the first and last value of an axis. -/
def inRange (axis : List ℚ) (x : ℚ) : Bool :=
  match axis.head?, axis.getLast? with
  | some a, some b => decide (a ≤ x ∧ x ≤ b)
  | _, _ => false

/-- The first axis of the table, `combination_array[:, 0]` (1301). -/
def axis0 (arr : List (List ℚ)) : List ℚ := arr.map fun r => r.headD 0

/-- The second axis of the table, `combination_array[0, :]` (1302). -/
def axis1 (arr : List (List ℚ)) : List ℚ := arr.headD []

/-- Linear interpolation in a table with two axes. -/
def bilinear (xs ys : List ℚ) (arr : List (List ℚ)) (x y : ℚ) : ℚ :=
  interp (xs.zip (arr.map fun r => interp (ys.zip r) y)) x

/-- `RegularGridInterpolator(domains, reference_values)(values)` of scipy for one point: an error if
the number of coordinates is not two, the axes are not ascending or the point is outside.  Axes in
descending order, which scipy accepts, are not modelled. -/
def gridInterp (arr : List (List ℚ)) (vals : List ℚ) : Except PyErr ℚ :=
  match vals with
  | [x, y] =>
    if ascending (axis0 arr) && ascending (axis1 arr) && inRange (axis0 arr) x && inRange (axis1 arr) y then
      .ok (bilinear (axis0 arr) (axis1 arr) arr x y)
    else .error .valueError
  | _ => .error .valueError

/-- A `frozenset` of component ids: sorted, without duplicates. -/
def canon (l : List Str) : List Str := pySort strLe (FileIO.uniqueVals [] l)

/-- The components with a loss of the decision variable at a location, direction and uid. -/
def compsAt (cols : List LKey) (dv : Str) (u : LDU) : List Str :=
  (cols.filter fun k => decide (k.dv = dv ∧ lduOf k = u)).map (·.dmg)

def ldusOf (cols : List LKey) (dv : Str) : List LDU :=
  FileIO.uniqueVals [] ((cols.filter fun k => decide (k.dv = dv)).map lduOf)

/-- 1201-1236 `_identify_potential_groups` for one decision variable. -/
def groupsOf (cols : List LKey) (dv : Str) : List (List Str × List LDU) :=
  (FileIO.uniqueVals [] ((ldusOf cols dv).map fun u => canon (compsAt cols dv u))).map fun g =>
    (g, (ldusOf cols dv).filter fun u => decide (canon (compsAt cols dv u) = g))

/-- 1238-1265: the loss id of the last column of the component. -/
def lossId (cols : List LKey) (c : Str) : Option Str := (cols.reverse.find? fun k => decide (k.dmg = c)).map (·.loss)

/-- `', '.join(components)` in parentheses, 1189 -/
def commaJoin : List Str → Str
  | [] => []
  | [a] => a
  | a :: l => a ++ str ", " ++ commaJoin l

def combKey (dv : Str) (comps : List Str) (u : LDU) : LKey :=
  ⟨dv, str "combination", str "(" ++ commaJoin comps ++ str ")", u.1, u.2.1, u.2.2⟩

/-- The columns that are left and the combined columns. -/
abbrev State := List LKey × Dict LKey (List ℚ)

/-- 1169-1172: the columns of the components at a location. -/
def keysAt (cols : List LKey) (dv : Str) (order : List Str) (u : LDU) : Except PyErr (List LKey) :=
  mapE (fun x => match lossId cols x with
      | none => Except.error PyErr.keyError
      | some l => .ok (LKey.mk dv l x u.1 u.2.1 u.2.2)) order

/-- 1167-1198: one location.  `order` is the iteration order of the group of components. -/
def combineAt (cols : List LKey) (rows : List (LKey → ℚ)) (dv : Str) (comps : List Str) (arr : List (List ℚ))
    (order : List Str) (st : State) (u : LDU) : Except PyErr State :=
  match keysAt cols dv order u with
  | .error e => .error e
  | .ok keys =>
    if ∃ k ∈ keys, k ∉ st.1 then .error .keyError
    else
      match mapE (fun row => gridInterp arr (keys.map row)) rows with
      | .error e => .error e
      | .ok vals => .ok (st.1.filter fun k => decide (k ∉ keys), st.2.set (combKey dv comps u) vals)

/-- The loop over the locations of a group. -/
def combineLoop (cols : List LKey) (rows : List (LKey → ℚ)) (dv : Str) (comps : List Str) (arr : List (List ℚ))
    (order : List Str) : State → List LDU → Except PyErr State
  | st, [] => .ok st
  | st, u :: us =>
    match combineAt cols rows dv comps arr order st u with
    | .error e => .error e
    | .ok st => combineLoop cols rows dv comps arr order st us

/-- 1155-1166: the first group that has all the components. -/
def targetGroup (cols : List LKey) (dv : Str) (comps : List Str) : Option (List Str × List LDU) :=
  (groupsOf cols dv).find? fun g => comps.all fun c => decide (c ∈ g.1)

/-- 1150-1199 for one entry of the configuration.  `iter` gives the order in which Python iterates
over a set. -/
def combineOne (iter : List Str → List Str) (s : Sample LKey) (st : State) (dv : Str) (comps : List Str)
    (arr : List (List ℚ)) : Except PyErr State :=
  match targetGroup s.cols dv comps with
  | none => .error .assertionError
  | some g => combineLoop s.cols s.rows dv comps arr (iter g.1) st g.2

def combineAll (iter : List Str → List Str) (s : Sample LKey) : State → List (Str × List Str × List (List ℚ)) → Except PyErr State
  | st, [] => .ok st
  | st, (dv, comps, arr) :: l =>
    match combineOne iter s st dv comps arr with
    | .error e => .error e
    | .ok st => combineAll iter s st l

/-- 1044-1103 `_apply_loss_combinations`: the combined columns and the ones that are left. -/
def applyCombinations (iter : List Str → List Str) (combos : List (Str × List Str × List (List ℚ))) (s : Sample LKey) :
    Except PyErr (Dict LKey (List ℚ)) :=
  match combineAll iter s (s.cols, []) combos with
  | .error e => .error e
  | .ok (left, comb) => .ok (left.foldl (fun d k => d.set k (s.rows.map fun row => row k)) comb)

end Verif.LossComb
