import Verif.Model.PyStr

/-!
# Configuration trees (`pelicun/base.py`)

JSON-like nested dictionaries and the functions that merge, read and write them.
-/

namespace Verif.Config

/-- Scalars inside a JSON list. -/
inductive Atom where
  | null
  | nan
  | bool (b : Bool)
  | num (q : ℚ)
  | str (s : Str)
  deriving DecidableEq

/-- Everything stored in a configuration that is not a dictionary.
Simplification: list items are scalars (no lists of lists or of dictionaries). -/
inductive Leaf where
  | atom (a : Atom)
  | list (l : List Atom)
  deriving DecidableEq

mutual
/-- A configuration value: a plain value or a dictionary. -/
inductive Js where
  | leaf (l : Leaf)
  | dict (f : Fields)
/-- The entries of a dictionary in insertion order. -/
inductive Fields where
  | nil
  | cons (k : Str) (v : Js) (rest : Fields)
end

deriving instance DecidableEq for Js, Fields

namespace Fields

/-- `d.get(k)` -/
def get? : Fields → Str → Option Js
  | nil, _ => none
  | cons k' v f, k => if k' = k then some v else get? f k

/-- `d[k] = v` -/
def set : Fields → Str → Js → Fields
  | nil, k, v => cons k v nil
  | cons k' v' f, k, v => if k' = k then cons k' v f else cons k' v' (set f k v)

/-- The keys in order. -/
def keys : Fields → List Str
  | nil => []
  | cons k _ f => k :: keys f

end Fields

/-- base.py:1745 / 1793: `path.strip('/').split('/')` -/
def pathKeys (path : Str) : List Str := splitChar '/' (strip (· = '/') path)

/-- base.py:1746-1752, the loop of `get`: `none` stands for the `KeyError` or
`TypeError` that makes `get` return its default (indexing a str, number, None,
bool or list with a string raises `TypeError`). -/
def Js.at : Js → List Str → Option Js
  | t, [] => some t
  | .leaf _, _ :: _ => none
  | .dict f, k :: ks =>
    match f.get? k with
    | some v => Js.at v ks
    | none => none

/-- base.py:1699-1752 `get`. `d = None` is covered by the `none` case. -/
def get (d : Option Js) (path : Str) (default : Js) : Js :=
  match d with
  | none => default
  | some t => (t.at (pathKeys path)).getD default

/-- `pd.isna` of a scalar. -/
def Atom.isNa : Atom → Bool
  | .null => true
  | .nan => true
  | _ => false

/-- base.py:1846-1853, the body of `is_unspecified` for a value that `get` returned.
`np22` tells whether the installed NumPy (>= 2.2) raises on the truth value of an
empty array (older versions return `False` with a DeprecationWarning):
`if pd.isna(value)` converts a list to an object array and takes its truth value. -/
def valueUnspecified (np22 : Bool) : Js → Except PyErr Bool
  | .leaf (.atom .null) => .ok true                 -- value is None
  | .leaf (.atom .nan) => .ok true                  -- pd.isna(value)
  | .leaf (.atom _) => .ok false
  | .leaf (.list []) => if np22 then .error .valueError else .ok true   -- value == []
  | .leaf (.list [a]) => .ok a.isNa                 -- one-element array; then [a] == [] is False
  | .leaf (.list (_ :: _ :: _)) => .error .valueError  -- truth value of an array is ambiguous
  | .dict .nil => .ok true                          -- value == {}
  | .dict (.cons _ _ _) => .ok false

/-- base.py:1806-1853 `is_unspecified` -/
def isUnspecified (np22 : Bool) (d : Js) (path : Str) : Except PyErr Bool :=
  valueUnspecified np22 (get (some d) path (.leaf (.atom .null)))

/-- base.py:1856-1873 `is_specified` -/
def isSpecified (np22 : Bool) (d : Js) (path : Str) : Except PyErr Bool := do
  let b ← isUnspecified np22 d path
  return !b

/-- base.py:1796-1798: the dictionary the loop of `update` descends into; anything
that is missing or not a dictionary is replaced by a fresh `{}`. -/
def subDict : Option Js → Fields
  | some (.dict g) => g
  | _ => .nil

/-- base.py:1793-1803, the body of `update` after the path is split into
`keys[:-1]` and `keys[-1]`.  The nested dictionary is mutated in place, here the
new dictionary is returned.  `is_unspecified(current_dict, keys[-1])` splits
`keys[-1]` again, which gives `[keys[-1]]` because it contains no '/'. -/
def updateAt (np22 only : Bool) (v : Js) : Fields → List Str → Str → Except PyErr Fields
  | f, [], k =>
    if only then
      match valueUnspecified np22 ((f.get? k).getD (.leaf (.atom .null))) with
      | .ok true => .ok (f.set k v)
      | .ok false => .ok f
      | .error e => .error e
    else .ok (f.set k v)
  | f, k0 :: ks, k =>
    match updateAt np22 only v (subDict (f.get? k0)) ks k with
    | .ok g => .ok (f.set k0 (.dict g))
    | .error e => .error e

/-- base.py:1755-1803 `update` -/
def update (np22 : Bool) (d : Fields) (path : Str) (v : Js) (only : Bool) :
    Except PyErr Fields :=
  let keys := pathKeys path
  updateAt np22 only v d keys.dropLast (keys.getLast?.getD [])

mutual
/-- base.py:626-664, one iteration of the loop in `update_vals`: the new value of
`update_value[key]` given its current value (if any) and `primary[key]`. -/
def mergeVal : Option Js → Js → Except PyErr Js
  | none, .dict p =>                       -- 629-630: start from {}
    match updateVals .nil p with
    | .ok g => .ok (.dict g)
    | .error e => .error e
  | some (.dict u), .dict p =>             -- 645-650: recursion
    match updateVals u p with
    | .ok g => .ok (.dict g)
    | .error e => .error e
  | some (.leaf _), .dict _ => .error .valueError   -- 633-643
  | none, .leaf l => .ok (.leaf l)         -- 652-653
  | some (.dict _), .leaf _ => .error .valueError   -- 654-664
  | some (.leaf x), .leaf _ => .ok (.leaf x)
/-- base.py:587-664 `update_vals`: loop over the keys of `primary`. -/
def updateVals : Fields → Fields → Except PyErr Fields
  | u, .nil => .ok u
  | u, .cons k v rest =>
    match mergeVal (u.get? k) v with
    | .ok w => updateVals (u.set k w) rest
    | .error e => .error e
end

/-- base.py:667-698 `merge_default_config`; the default options file is a parameter. -/
def mergeDefaultConfig (user : Option Fields) (defaults : Fields) : Except PyErr Fields :=
  updateVals (user.getD .nil) defaults

end Verif.Config
