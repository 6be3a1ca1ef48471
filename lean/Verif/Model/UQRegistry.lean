import Verif.Model.UQDist
import Verif.Model.PySort

/-!
# Random variables, sets and registry (`/repo/pelicun/uq.py` 1117-1526, 2479-2878)

Variables are identified by their (unique) names.  Random draws are inputs of the model:
`perm i` and `jitter i` are the permutation and the uniform numbers the generator returns for
the `i`-th free variable.  The Gaussian copula of a set (Cholesky or SVD, uq.py 2582-2619) is
an arbitrary function on the table of uniform samples.  `f_map` is left out.
-/

namespace Verif.UQ

/-- `theta` of a normal or lognormal variable: constant, or one row per realization. -/
inductive Par (F : Type) where
  | const (m s : F)
  | rows (l : List (F × F))

/-- The random variable classes of uq.py 1240-2476. -/
inductive RVKind (F : Type) [Field F] [LinearOrder F] where
  | normal (par : Par F) (a b : Option F)
  | lognormal (par : Par F) (a b : Option F)
  | uniform (t0 t1 a b : Option F)
  | weibull (W : PosDist F) (a b : Option F)
  | multilinear (pts : List (F × F))
  | empirical (theta : List F)
  | multinomial (theta : List F)
  | coupledEmpirical (theta : List F)
  | deterministic (theta : List F)

/-- A random variable object; `anchor = none` means the variable is its own anchor
(uq.py 1160-1163). -/
inductive RV (F : Type) [Field F] [LinearOrder F] where
  | mk (name : Str) (kind : RVKind F) (anchor : Option (RV F))

section
variable {F : Type} [Field F] [LinearOrder F]

def RV.name : RV F → Str
  | .mk n _ _ => n

def RV.kind : RV F → RVKind F
  | .mk _ k _ => k

/-- The variable whose own array the `uni_sample` getter returns (uq.py 1212-1225). -/
def RV.root : RV F → RV F
  | .mk n k none => .mk n k none
  | .mk _ _ (some a) => a.root

/-- `RV.anchor == RV` (object identity). -/
def RV.selfAnchored : RV F → Bool
  | .mk _ _ none => true
  | .mk _ _ (some _) => false

/-- Instances of `UtilityRandomVariable` (uq.py 2248, 2328): the `deterministic` and
`coupled_empirical` distributions. -/
def RVKind.utility : RVKind F → Bool
  | .coupledEmpirical _ => true
  | .deterministic _ => true
  | _ => false

/-- One parameter pair per realization (uq.py 1343-1417). -/
def Par.expand (p : Par F) (n : Nat) : Except PyErr (List (F × F)) :=
  match p with
  | .const m s => .ok (List.replicate n (m, s))
  | .rows l => if l.length = n then .ok l else .error .valueError

/-- The numeric setting shared by all variables. -/
structure Num (F : Type) [Field F] [LinearOrder F] where
  D : StdDist F
  E : ExpLog F
  eps : F

/-- Apply a transform realization by realization. -/
def transformRows (p : Par F) (g : F → F → F → Except PyErr (Ext F)) (values : List F) :
    Except PyErr (List (Ext F)) :=
  match p.expand values.length with
  | .error e => .error e
  | .ok ps => mapE (fun x => g x.1.1 x.1.2 x.2) (ps.zip values)

/-- `inverse_transform(values)` of a `RandomVariable` subclass: the returned array and the
content of the argument array afterwards. -/
def RVKind.inverse [FloorRing F] (N : Num F) (k : RVKind F) (values : List F) :
    Except PyErr (List (Ext F) × List F) :=
  match k with
  | .normal p a b =>
    (transformRows p (fun m s u => normalInverse N.D N.eps m s a b u) values).map (·, values)
  | .lognormal p a b =>
    (transformRows p (fun m s u => lognormalInverse N.D N.E N.eps m s a b u) values).map (·, values)
  | .uniform t0 t1 a b => .ok (values.map (uniformInverse t0 t1 a b), values)
  | .weibull W a b => (mapE (weibullInverse W N.eps a b) values).map (·, values)
  | .multilinear pts => .ok (values.map fun u => .fin (multilinearInverse pts u), values)
  | .empirical theta =>
    (empiricalInverse theta values).map fun l => (l.map Ext.fin, values)
  | .multinomial theta =>
    .ok ((multinomialInverse theta values).1.map .fin, (multinomialInverse theta values).2)
  | .coupledEmpirical _ => .error .typeError
  | .deterministic _ => .error .typeError

/-- `inverse_transform(sample_size)` of a `UtilityRandomVariable` subclass. -/
def RVKind.generate (k : RVKind F) (n : Nat) : Except PyErr (List (Ext F)) :=
  match k with
  | .coupledEmpirical theta => (coupledInverse theta n).map (·.map .fin)
  | .deterministic theta => (deterministicInverse theta n).map (·.map .fin)
  | _ => .error .typeError

/-- `RandomVariableSet` as seen by the registry: members in stored order and the copula. -/
structure RVSet (F : Type) [Field F] [LinearOrder F] where
  name : Str
  members : List (RV F)
  copula : List (List F) → List (List F)

/-- `RandomVariableRegistry` (uq.py 2714-2878) with the arrays held by the variables:
`uni` is `_uni_sample`, `samples` is `_sample`, both by variable name. -/
structure Registry (F : Type) [Field F] [LinearOrder F] where
  vars : Dict Str (RV F) := []
  sets : Dict Str (RVSet F) := []
  uni : Dict Str (List F) := []
  samples : Dict Str (List (Ext F)) := []

namespace Registry

/-- uq.py 2764-2777 `add_RV`. -/
def addRV (r : Registry F) (v : RV F) : Except PyErr (Registry F) :=
  if r.vars.contains v.name then .error .valueError
  else .ok { r with vars := r.vars.set v.name v }

/-- uq.py 2792-2794 `add_RV_set`. -/
def addRVSet (r : Registry F) (s : RVSet F) : Registry F :=
  { r with sets := r.sets.set s.name s }

/-- The `uni_sample` getter (uq.py 1212-1225). -/
def uniOf (uni : Dict Str (List F)) (v : RV F) : Option (List F) := uni.get? v.root.name

/-- Names of the free variables (uq.py 2833-2841). -/
def free (r : Registry F) : List Str :=
  (r.vars.filter fun p => p.2.selfAnchored || p.2.kind.utility).map Prod.fst

end Registry

/-- The `method` argument of `generate_sample`. -/
inductive Method where
  | lhs
  | lhsMidpoint
  | monteCarlo
  | other

/-- One row of `u_rv` (uq.py 2844-2859). -/
def drawRow (m : Method) (n : Nat) (perm : List Nat) (jitter : List F) : Except PyErr (List F) :=
  match m with
  | .lhs => .ok (List.zipWith (fun (b : Nat) (u : F) => ((b : F) + u) / (n : F)) perm jitter)
  | .lhsMidpoint => .ok (perm.map fun (b : Nat) => ((b : F) + 1 / 2) / (n : F))
  | .monteCarlo => .ok jitter
  | .other => .error .unboundLocalError

/-- Assign the controlling samples to the free variables (uq.py 2861-2863). -/
def assignUni (m : Method) (n : Nat) (perm : Nat → List Nat) (jitter : Nat → List F) :
    Nat → List Str → Dict Str (List F) → Except PyErr (Dict Str (List F))
  | _, [], uni => .ok uni
  | i, name :: l, uni =>
    match drawRow m n (perm i) (jitter i) with
    | .error e => .error e
    | .ok row => assignUni m n perm jitter (i + 1) l (uni.set name row)

/-- `rv.uni_sample = ucrv` for the members of a set (uq.py 2618-2619). -/
def setRows : List (RV F) → List (List F) → Dict Str (List F) → Dict Str (List F)
  | v :: vs, row :: rows, uni => setRows vs rows (uni.set v.name row)
  | _, _, uni => uni

/-- uq.py 2582-2619 `apply_correlation`.  A member without uniform sample makes numpy fail
(`TypeError`). -/
def applyCorrelation (s : RVSet F) (uni : Dict Str (List F)) :
    Except PyErr (Dict Str (List F)) :=
  match mapE (fun v => match Registry.uniOf uni v with
      | some row => .ok row
      | none => .error .typeError) s.members with
  | .error e => .error e
  | .ok rows => .ok (setRows s.members (s.copula rows) uni)

/-- uq.py 2865-2868. -/
def applySets : List (RVSet F) → Dict Str (List F) → Except PyErr (Dict Str (List F))
  | [], uni => .ok uni
  | s :: l, uni =>
    match applyCorrelation s uni with
    | .error e => .error e
    | .ok uni' => applySets l uni'

/-- `inverse_transform_sampling` of one variable (uq.py 1461-1475, 1506-1524): the uniform
array is the one of the root variable and is updated in place by `inverse`. -/
def transformOne [FloorRing F] (N : Num F) (n : Nat) (v : RV F)
    (st : Dict Str (List F) × Dict Str (List (Ext F))) :
    Except PyErr (Dict Str (List F) × Dict Str (List (Ext F))) :=
  if v.kind.utility then
    match v.kind.generate n with
    | .error e => .error e
    | .ok s => .ok (st.1, st.2.set v.name s)
  else
    match Registry.uniOf st.1 v with
    | none => .error .valueError
    | some u =>
      match v.kind.inverse N u with
      | .error e => .error e
      | .ok (s, u') => .ok (st.1.set v.root.name u', st.2.set v.name s)

/-- uq.py 2870-2878. -/
def transformAll [FloorRing F] (N : Num F) (n : Nat) :
    List (RV F) → Dict Str (List F) × Dict Str (List (Ext F)) →
    Except PyErr (Dict Str (List F) × Dict Str (List (Ext F)))
  | [], st => .ok st
  | v :: l, st =>
    match transformOne N n v st with
    | .error e => .error e
    | .ok st' => transformAll N n l st'

/-- The uniform samples in place before the transformation (uq.py 2833-2868). -/
def drawUniform (r : Registry F) (n : Nat) (m : Method) (perm : Nat → List Nat)
    (jitter : Nat → List F) : Except PyErr (Dict Str (List F)) :=
  match assignUni m n perm jitter 0 r.free r.uni with
  | .error e => .error e
  | .ok uni => applySets (r.sets.map Prod.snd) uni

/-- uq.py 2809-2878 `generate_sample`. -/
def generateSample [FloorRing F] (N : Num F) (r : Registry F) (n : Nat) (m : Method)
    (perm : Nat → List Nat) (jitter : Nat → List F) : Except PyErr (Registry F) :=
  match drawUniform r n m perm jitter with
  | .error e => .error e
  | .ok uni =>
    match transformAll N n (r.vars.map Prod.snd) (uni, r.samples) with
    | .error e => .error e
    | .ok st => .ok { r with uni := st.1, samples := st.2 }

/-! Correlation matrices (uq.py 2505-2580). -/

/-- `np.argsort(names)`: the indices in the order of the sorted names (names are distinct, so
stability does not matter). -/
def argsortNames (names : List Str) : List Nat :=
  (pySort (fun (x y : Str × Nat) => strLe x.1 y.1) names.zipIdx).map Prod.snd

/-- The part of `RandomVariableSet` that concerns the matrix: names in stored order and
`_Rho`, as a function of row and column. -/
structure CorrSet (F : Type) where
  names : List Str
  rho : Nat → Nat → F

/-- uq.py 2505-2526 `RandomVariableSet.__init__`: `rho[reorder].T[reorder].T`. -/
def CorrSet.init (names : List Str) (rho : Nat → Nat → F) : CorrSet F :=
  if 1 < names.length then
    let reorder := argsortNames names
    -- `{rv_list[i].name: rv_list[i] for i in reorder}`
    { names := reorder.map fun i => names.getD i [],
      -- `rho[reorder]` has rows `reorder`; transposing, indexing and transposing back does the
      -- same to the columns
      rho := fun i j => rho (reorder.getD i 0) (reorder.getD j 0) }
  else { names := names, rho := rho }

/-- `list(self._variables.keys()).index(var)`. -/
def indexOf (names : List Str) (v : Str) : Except PyErr Nat :=
  match names.idxOf? v with
  | some i => .ok i
  | none => .error .valueError

/-- uq.py 2567-2580 `Rho(var_subset)`: `(_Rho[ids]).T[ids]`, i.e. entry `(k, l)` is
`_Rho[ids[l]][ids[k]]`. -/
def CorrSet.subset (s : CorrSet F) (vars : List Str) : Except PyErr (Nat → Nat → F) :=
  match mapE (indexOf s.names) vars with
  | .error e => .error e
  | .ok ids => .ok fun k l => s.rho (ids.getD l 0) (ids.getD k 0)

end
end Verif.UQ
