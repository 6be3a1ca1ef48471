import Verif.Model.PyStr

/-!
# Units and mappings (pelicun/base.py)

Floats are rationals; rounding, infinities and NaN are not modelled.
-/

namespace Verif.Units

/-- A parsed unit table with its categories. -/
abbrev Table := Dict Str (Dict Str ℚ)

/-- The `values` argument of `convert_units`: a float, a list of floats, an array, or
anything else (an `int`, for example). -/
inductive Vals where
  | flt (q : ℚ)
  | lst (qs : List ℚ)
  | arr (qs : List ℚ)
  | other
  deriving DecidableEq, Repr

/-- base.py:1620-1631: multiply and divide elementwise, same container type. -/
def Vals.scale (a b : ℚ) : Vals → Vals
  | .flt q => .flt (q * a / b)
  | .lst qs => .lst (qs.map (fun q => q * a / b))
  | .arr qs => .arr (qs.map (fun q => q * a / b))
  | .other => .other

/-- base.py:1603-1608: the first category that contains the unit. -/
def findCategory : Table → Str → Option (Dict Str ℚ)
  | [], _ => none
  | (_, us) :: rest, unit => if us.contains unit then some us else findCategory rest unit

/-- base.py:1602-1618: no category given. -/
def inferUnits (t : Table) (unit toUnit : Str) : Except PyErr (Dict Str ℚ) :=
  match findCategory t unit with
  | none => .error .valueError
  | some us => if us.contains toUnit then .ok us else .error .valueError

/-- base.py:1592-1601: category given. -/
def givenUnits (t : Table) (unit toUnit category : Str) : Except PyErr (Dict Str ℚ) :=
  match t.get? category with
  | none => .error .valueError
  | some us =>
    if us.contains unit then
      (if us.contains toUnit then .ok us else .error .valueError)
    else .error .valueError

/-- base.py:1593: an empty category string is falsy, hence treated as not given. -/
def selectUnits (t : Table) (unit toUnit : Str) : Option Str → Except PyErr (Dict Str ℚ)
  | none => inferUnits t unit toUnit
  | some [] => inferUnits t unit toUnit
  | some (c :: cs) => givenUnits t unit toUnit (c :: cs)

/-- base.py:1539-1631 `convert_units`, with the table loaded by `parse_units` as a
parameter. -/
def convertUnits (t : Table) (values : Vals) (unit toUnit : Str) (category : Option Str) :
    Except PyErr Vals :=
  if values = .other then .error .typeError
  else
    match selectUnits t unit toUnit category with
    | .error e => .error e
    | .ok us =>
      match us.get? unit, us.get? toUnit with
      | some a, some b => .ok (values.scale a b)
      | _, _ => .error .keyError

/-- base.py:1666-1696 `invert_mapping`, inner loop over one list of values. -/
def invertInner {κ ν : Type} [DecidableEq ν] (acc : Dict ν κ) (key : κ) :
    List ν → Except PyErr (Dict ν κ)
  | [] => .ok acc
  | v :: vs => if acc.contains v then .error .valueError else invertInner (acc.set v key) key vs

/-- base.py:1689-1696 `invert_mapping`, outer loop. -/
def invertLoop {κ ν : Type} [DecidableEq ν] (acc : Dict ν κ) :
    Dict κ (List ν) → Except PyErr (Dict ν κ)
  | [] => .ok acc
  | (k, vs) :: rest =>
    match invertInner acc k vs with
    | .error e => .error e
    | .ok acc' => invertLoop acc' rest

/-- base.py:1666-1696 `invert_mapping` -/
def invertMapping {κ ν : Type} [DecidableEq ν] (d : Dict κ (List ν)) : Except PyErr (Dict ν κ) :=
  invertLoop [] d

/-! ### Unit files -/

/-- A value inside a category of a unit file.  Nested lists and objects only matter
through whether some object in them repeats a key. -/
inductive RawVal where
  | num (q : ℚ)
  | text (s : Str)
  | null
  | nested (dup : Bool)
  deriving DecidableEq

/-- A first-level value: an object with its pairs in file order (keys may repeat), or
something else. -/
inductive RawCat where
  | obj (pairs : List (Str × RawVal))
  | other (dup : Bool)
  deriving DecidableEq

/-- A JSON unit file. -/
inductive RawFile where
  | obj (pairs : List (Str × RawCat))
  | other (dup : Bool)
  | invalid
  deriving DecidableEq

/-- base.py:1353-1400 `dict_raise_on_duplicates` -/
def dictRaiseOnDuplicates {α : Type} (d : Dict Str α) : List (Str × α) → Except PyErr (Dict Str α)
  | [] => .ok d
  | (k, v) :: rest =>
    if d.contains k then .error .valueError else dictRaiseOnDuplicates (d.set k v) rest

/-- base.py:1489: the hook runs on every nested object while the text is parsed. -/
def hookVal : RawVal → Except PyErr RawVal
  | .nested true => .error .valueError
  | v => .ok v

/-- base.py:1489: the hook on one first-level value. -/
def hookCat : RawCat → Except PyErr RawCat
  | .other true => .error .valueError
  | .other false => .ok (.other false)
  | .obj pairs =>
    match mapE (fun p => (hookVal p.2).map (fun v => (p.1, v))) pairs with
    | .error e => .error e
    | .ok ps =>
      match dictRaiseOnDuplicates [] ps with
      | .error e => .error e
      | .ok d => .ok (.obj d)

/-- base.py:1487-1495: `json.load` with the duplicate check. -/
def loadFile : RawFile → Except PyErr RawFile
  | .invalid => .error .valueError
  | .other true => .error .valueError
  | .other false => .ok (.other false)
  | .obj pairs =>
    match mapE (fun p => (hookCat p.2).map (fun v => (p.1, v))) pairs with
    | .error e => .error e
    | .ok ps =>
      match dictRaiseOnDuplicates [] ps with
      | .error e => .error e
      | .ok d => .ok (.obj d)

/-- base.py:1507: `float(val)`; `pyFloat` is Python's string to float conversion. -/
def toFloat (pyFloat : Str → Option ℚ) : RawVal → Except PyErr ℚ
  | .num q => .ok q
  | .text s => match pyFloat s with
    | some q => .ok q
    | none => .error .valueError
  | .null => .error .typeError
  | .nested _ => .error .typeError

/-- base.py:1496-1513: one category. -/
def catFloats (pyFloat : Str → Option ℚ) : RawCat → Except PyErr (Dict Str ℚ)
  | .other _ => .error .typeError
  | .obj pairs => mapE (fun p => (toFloat pyFloat p.2).map (fun q => (p.1, q))) pairs

/-- base.py:1487-1516 with `preserve_categories=True`. -/
def parseCategories (pyFloat : Str → Option ℚ) (f : RawFile) : Except PyErr Table :=
  match loadFile f with
  | .error e => .error e
  | .ok (.obj pairs) => mapE (fun p => (catFloats pyFloat p.2).map (fun us => (p.1, us))) pairs
  | .ok _ => .error .attributeError

/-- base.py:1520-1524: the units of one category. -/
def flattenCat (acc : Dict Str ℚ) : List (Str × ℚ) → Except PyErr (Dict Str ℚ)
  | [] => .ok acc
  | (u, q) :: rest =>
    if acc.contains u then .error .valueError else flattenCat (acc.set u q) rest

/-- base.py:1518-1526 -/
def flatten (acc : Dict Str ℚ) : Table → Except PyErr (Dict Str ℚ)
  | [] => .ok acc
  | (_, us) :: rest =>
    match flattenCat acc us with
    | .error e => .error e
    | .ok acc' => flatten acc' rest

/-- base.py:1403-1536 `parse_units` with `preserve_categories=False`.  A given custom
file replaces the default file. -/
def parseUnits (pyFloat : Str → Option ℚ) (default : RawFile) (custom : Option RawFile) :
    Except PyErr (Dict Str ℚ) :=
  match parseCategories pyFloat (custom.getD default) with
  | .error e => .error e
  | .ok t => flatten [] t

/-! ### Scaling of selected rows -/

/-- A labelled line of a table: a row (axis 0) or a column (axis 1), with one label per
index level. -/
structure Line (L : Type) where
  labels : List L
  data : List ℚ
  deriving DecidableEq

/-- base.py:991-992: position of a level name; unknown level: `KeyError`. -/
def levelPos (names : List Str) (level : Str) : Except PyErr Nat :=
  match names.idxOf? level with
  | some i => .ok i
  | none => .error .keyError

/-- base.py:988-992: the mask after applying all conditions. -/
def maskLoop {L : Type} [DecidableEq L] (names : List Str) (lines : List (Line L))
    (mask : List Bool) : Dict Str L → Except PyErr (List Bool)
  | [] => .ok mask
  | (level, value) :: rest =>
    match levelPos names level with
    | .error e => .error e
    | .ok i => maskLoop names lines
        (List.zipWith (fun m l => m && decide (l.labels[i]? = some value)) mask lines) rest

/-- base.py:937-1001 `multiply_factor_multiple_levels` (the selected axis; an invalid axis
number is not modelled). -/
def multiplyFactor {L : Type} [DecidableEq L] (names : List Str) (lines : List (Line L))
    (conditions : Dict Str L) (factor : ℚ) (raiseMissing : Bool) :
    Except PyErr (List (Line L)) :=
  match maskLoop names lines (lines.map (fun _ => true)) conditions with
  | .error e => .error e
  | .ok mask =>
    if mask.all (fun b => b == false) && raiseMissing then .error .valueError
    else .ok (List.zipWith
      (fun m l => if m then { l with data := l.data.map (fun x => x * factor) } else l) mask lines)

/-! ### The unit table shipped with the package -/

/-- pelicun/settings/default_units.json:1-101, decimals as exact rationals. -/
def defaultUnits : Table := [
  (str "time",
    [(str "sec", 1),
     (str "minute", 60),
     (str "hour", 3600),
     (str "day", 86400)]),
  (str "length",
    [(str "m", 1),
     (str "mm", 1/1000),
     (str "cm", 1/100),
     (str "km", 1000),
     (str "in", 127/5000),
     (str "inch", 127/5000),
     (str "ft", 381/1250),
     (str "mile", 201168/125),
     (str "m2", 1),
     (str "mm2", 1/1000000),
     (str "cm2", 1/10000),
     (str "km2", 1000000),
     (str "in2", 16129/25000000),
     (str "inch2", 16129/25000000),
     (str "ft2", 145161/1562500),
     (str "mile2", 40468564224/15625)]),
  (str "volume",
    [(str "m3", 1),
     (str "in3", 2048383/125000000000),
     (str "inch3", 2048383/125000000000),
     (str "ft3", 55306341/1953125000)]),
  (str "velocity",
    [(str "cmps", 1/100),
     (str "mps", 1),
     (str "mph", 1397/3125),
     (str "inps", 127/5000),
     (str "inchps", 127/5000),
     (str "ftps", 381/1250)]),
  (str "acceleration",
    [(str "mps2", 1),
     (str "inps2", 127/5000),
     (str "inchps2", 127/5000),
     (str "ftps2", 381/1250),
     (str "g", 196133/20000)]),
  (str "mass",
    [(str "kg", 1),
     (str "ton", 1000),
     (str "lb", 56699/125000)]),
  (str "force",
    [(str "N", 1),
     (str "kN", 1000),
     (str "lbf", 11120544967/2500000000),
     (str "kip", 11120544967/2500000),
     (str "kips", 11120544967/2500000)]),
  (str "line_force",
    [(str "Npm", 1),
     (str "kNpm", 1000),
     (str "lbpft", 145939/10000),
     (str "kippft", 145939/10),
     (str "kipspft", 145939/10)]),
  (str "pressure",
    [(str "Pa", 1),
     (str "kPa", 1000),
     (str "MPa", 1000000),
     (str "GPa", 1000000000),
     (str "psi", 3447375834521669/500000000000),
     (str "ksi", 3447375834521669/500000000),
     (str "Mpsi", 3447375834521669/500000)]),
  (str "misc",
    [(str "A", 1),
     (str "V", 1),
     (str "kV", 1000),
     (str "ea", 1),
     (str "unitless", 1),
     (str "rad", 1),
     (str "C", 1),
     (str "USD_2011", 1),
     (str "USD", 1),
     (str "loss_ratio", 1),
     (str "worker_day", 1),
     (str "EA", 1),
     (str "SF", 145161/1562500),
     (str "LF", 381/1250),
     (str "TN", 1000),
     (str "AP", 1),
     (str "CF", 18435447/39062500000),
     (str "KV", 1000),
     (str "J", 1),
     (str "MJ", 1000000),
     (str "test_two", 2),
     (str "test_three", 3)])]

end Verif.Units
