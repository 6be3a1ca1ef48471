import Verif.Model.UQRegistry
import Verif.Model.FileIO
import Verif.Model.Labels

/-!
# Generating a demand sample and a component quantity sample

`/repo/pelicun/model/demand_model.py` 953-1030 (`_create_RVs`), 1129-1225 (`generate_sample`),
822-951 (`save_model`, `load_model`: which data is kept) and
`/repo/pelicun/model/asset_model.py` 446-553 (`generate_cmp_sample`, `_create_cmp_RVs`).

The construction of a random variable from the parameters of a row (families, parameters and
truncation limits) is the subject of the `UQ` modules: a row of the parameter table carries the
distribution already.  Random draws and the Gaussian copula are parameters, as in
`Model/UQRegistry.lean`.  Demand cloning (1213-1214) is in `Model/DemandCalib.lean`; the log is
left out.
-/

namespace Verif.DemandGen

open Verif.UQ Verif.FileIO

/-- The distribution in a row of the parameter table: `Family == 'empirical'`, or a distribution
with parameters. -/
inductive Marginal (F : Type) [Field F] [LinearOrder F] where
  | empirical
  | dist (kind : RVKind F)

section
variable {F : Type} [Field F] [LinearOrder F]

/-- demand_model.py 963, asset_model.py 527: `f'EDP-{edp[0]}-{edp[1]}-{edp[2]}'` and
`f'CMP-{cmp[0]}-{cmp[1]}-{cmp[2]}-{cmp[3]}'`, for labels with three and four levels. -/
def tag (pre : Str) (l : Label) : Str := joinChar '-' (pre :: l)

/-- demand_model.py 964-1002: the random variable class of a row.  `self.empirical_data` may be
`None` (`None.loc`: `AttributeError`) or have no column for the demand (`KeyError`). -/
def kindOf (preserve : Bool) (emp : Option (Dict Label (List F))) (e : Label × Marginal F) :
    Except PyErr (RVKind F) :=
  match e.2 with
  | .dist k => .ok k
  | .empirical =>
    match emp with
    | none => .error .attributeError
    | some d =>
      match d.get? e.1 with
      | none => .error .keyError
      | some v => .ok (if preserve then .coupledEmpirical v else .empirical v)

/-- demand_model.py 961-1002, asset_model.py 520-546: one variable for each row, in the order of
the table. -/
def addAll (pre : Str) (preserve : Bool) (emp : Option (Dict Label (List F))) :
    List (Label × Marginal F) → Registry F → Except PyErr (Registry F)
  | [], r => .ok r
  | e :: es, r =>
    match kindOf preserve emp e with
    | .error x => .error x
    | .ok k =>
      match r.addRV (.mk (tag pre e.1) k none) with
      | .error x => .error x
      | .ok r' => addAll pre preserve emp es r'

/-- uq.py 2747-2761 `RVs(keys)`: a missing name is a `KeyError`. -/
def pick (r : Registry F) (names : List Str) : Except PyErr (List (RV F)) :=
  mapE (fun x => match r.vars.get? x with
    | some v => .ok v
    | none => .error .keyError) names

/-- demand_model.py 1011-1028: the variables named in the correlation matrix form one set.  Its
members are kept in the order of their names (uq.py 2503-2525).  The labels of the matrix are
distinct; the copula is a function of the uniform samples. -/
def addCorr (pre : Str) (r : Registry F)
    (corr : Option (List Label × (List (List F) → List (List F)))) : Except PyErr (Registry F) :=
  match corr with
  | none => .ok r
  | some (ls, copula) =>
    match pick r (ls.map (tag pre)) with
    | .error x => .error x
    | .ok vs => .ok (r.addRVSet ⟨str "EDP_set",
        pySort (fun a b => strLe a.name b.name) vs, copula⟩)

/-- demand_model.py 953-1030 `_create_RVs` and asset_model.py 513-553 `_create_cmp_RVs` (without
empirical rows and without a correlation matrix). -/
def createRVs (pre : Str) (preserve : Bool) (emp : Option (Dict Label (List F)))
    (rows : List (Label × Marginal F))
    (corr : Option (List Label × (List (List F) → List (List F)))) : Except PyErr (Registry F) :=
  match addAll pre preserve emp rows {} with
  | .error x => .error x
  | .ok r => addCorr pre r corr

/-- uq.py 2728-2735 `RV_sample`: the sample of every variable by its name. -/
def rvSample (r : Registry F) : List (Str × List (Ext F)) :=
  r.vars.map fun p => (p.1, (r.samples.get? p.1).getD [])

/-- demand_model.py 1201-1210, asset_model.py 496-503: columns sorted by name, names split at the
dashes, the columns under the prefix selected and the levels named (`ValueError` when their
number is not `nlev`). -/
def toColumns (pre : Str) (nlev : Nat) (s : List (Str × List (Ext F))) :
    Except PyErr (List (Label × List (Ext F))) :=
  let t := pySort (fun a b => strLe a.1 b.1) s
  match Labels.toMulti (.simple (t.map Prod.fst)) with
  | .error x => .error x
  | .ok (.simple _) => .error .keyError
  | .ok (.multi m ls) =>
    if m = nlev + 1 then
      .ok (((ls.zip (t.map Prod.snd)).filter fun c => c.1.head? = some pre).map
        fun c => (c.1.tail, c.2))
    else .error .valueError

variable [FloorRing F]

/-- The common part of the two functions. -/
def sampleOf (N : Num F) (pre : Str) (nlev : Nat) (r : Registry F) (n : Nat) (m : Method)
    (perm : Nat → List Nat) (jitter : Nat → List F) : Except PyErr (List (Label × List (Ext F))) :=
  match generateSample N r n m perm jitter with
  | .error x => .error x
  | .ok r' => toColumns pre nlev (rvSample r')

/-- demand_model.py 1183-1211 `generate_sample`: `rows` is `marginal_params`, `emp` is
`empirical_data`, `preserve` the setting `PreserveRawOrder`. -/
def generateDemand (N : Num F) (rows : Option (List (Label × Marginal F)))
    (emp : Option (Dict Label (List F)))
    (corr : Option (List Label × (List (List F) → List (List F))))
    (preserve : Bool) (n : Nat) (m : Method) (perm : Nat → List Nat) (jitter : Nat → List F) :
    Except PyErr (List (Label × List (Ext F))) :=
  match rows with
  | none => .error .valueError
  | some rows =>
    match createRVs (str "EDP") preserve emp rows corr with
    | .error x => .error x
    | .ok r => sampleOf N (str "EDP") 3 r n m perm jitter

/-- asset_model.py 469-503 `generate_cmp_sample`: `size` is the argument, `demand` the number of
realizations of the demand sample, if there is one. -/
def generateCmp (N : Num F) (rows : Option (List (Label × RVKind F))) (size demand : Option Nat)
    (m : Method) (perm : Nat → List Nat) (jitter : Nat → List F) :
    Except PyErr (List (Label × List (Ext F))) :=
  match rows with
  | none => .error .valueError
  | some rows =>
    match size.or demand with
    | none => .error .valueError
    | some n =>
      match createRVs (str "CMP") false none (rows.map fun e => (e.1, .dist e.2)) none with
      | .error x => .error x
      | .ok r => sampleOf N (str "CMP") 4 r n m perm jitter

end

/-! ### Saving and loading a demand model: the empirical data and the correlation -/

/-- The argument of `load_model`: a dictionary with the tables, or a prefix of files (`none`: the
file does not exist). -/
inductive Source (D C : Type) where
  | dict (empirical : Option D) (correlation : Option C)
  | files (empirical : Option D) (correlation : Option C)

/-- demand_model.py 884-926 `load_model`: the empirical data and the correlation of the model
afterwards; `prev` is the empirical data the model had before.  A table in a dictionary is not a
`str`, so it is passed over (900-913).  Reading a missing correlation file fails (917-922). -/
def loadSources {D C : Type} (prev : Option D) : Source D C → Except PyErr (Option D × Option C)
  | .dict none c => .ok (none, c)
  | .dict (some _) c => .ok (prev, c)
  | .files _ none => .error .fileNotFoundError
  | .files none (some c) => .ok (prev, some c)
  | .files (some d) (some c) => .ok (some d, some c)

/-- demand_model.py 827-836 `save_model`: the files under the prefix afterwards.  A table that is
`None` is not written (file_io.py 166-169), an older file stays. -/
def saveSources {D C : Type} (old : Option D × Option C) (st : Option D × Option C) : Source D C :=
  .files (st.1.or old.1) (st.2.or old.2)

end Verif.DemandGen
