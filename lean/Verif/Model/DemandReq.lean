import Verif.Model.PyNum

/-!
# Required demands (`/repo/pelicun/model/demand_model.py` 1226-1584)

The parameter table gives for each component its demand definitions (`Demand`, `Demand2`, ...)
and its expression.  The number of variables in an expression and its value are computed by the
numexpr library and enter as parameters.
-/

namespace Verif.DemandReq

/-- base.py 1308-1350 `EDP_to_demand_type`. -/
def edpToDemandType : Dict Str Str :=
  [(str "Story Drift Ratio", str "PID"), (str "Peak Interstory Drift Ratio", str "PID"),
   (str "Roof Drift Ratio", str "PRD"), (str "Peak Roof Drift Ratio", str "PRD"),
   (str "Damageable Wall Drift", str "DWD"), (str "Racking Drift Ratio", str "RDR"),
   (str "Mega Drift Ratio", str "PMD"), (str "Residual Drift Ratio", str "RID"),
   (str "Residual Interstory Drift Ratio", str "RID"), (str "Peak Effective Drift Ratio", str "EDR"),
   (str "Peak Floor Acceleration", str "PFA"), (str "Peak Floor Velocity", str "PFV"),
   (str "Peak Floor Displacement", str "PFD"), (str "Peak Link Rotation Angle", str "LR"),
   (str "Peak Link Beam Chord Rotation", str "LBR"), (str "Peak Gust Wind Speed", str "PWS"),
   (str "Peak Wind Force", str "PWF"), (str "Peak Internal Force", str "PIF"),
   (str "Peak Line Force", str "PLF"), (str "Peak Wind Pressure", str "PWP"),
   (str "Peak Inundation Height", str "PIH"), (str "Peak Ground Acceleration", str "PGA"),
   (str "Peak Ground Velocity", str "PGV"), (str "Spectral Acceleration", str "SA"),
   (str "Spectral Velocity", str "SV"), (str "Spectral Displacement", str "SD"),
   (str "Peak Spectral Acceleration", str "SA"), (str "Peak Spectral Velocity", str "SV"),
   (str "Peak Spectral Displacement", str "SD"), (str "Permanent Ground Deformation", str "PGD"),
   (str "One", str "ONE")]

/-- A performance group: component, location, direction, unique id. -/
structure PGid where
  cmp : Str
  loc : Str
  dir : Str
  uid : Str
  deriving DecidableEq

/-- One demand of a component.  Missing numbers (NaN) are `none`. -/
structure DemandDef where
  type : Str
  offset : Option ℚ
  directional : Option ℚ

/-- The cell `('Demand', 'Expression')`: the column does not exist, is empty in this row, or has
a text. -/
inductive Expression where
  | absent
  | nan
  | text (s : Str)
  deriving DecidableEq

structure CmpDemand where
  demands : List DemandDef
  expression : Expression

/-- `_clean_up_expression`, demand_model.py 1491-1536: the allowed characters
`[0-9a-zA-Z^+-*/()\s]`. -/
def allowedChar (c : Char) : Bool :=
  ('0' ≤ c && c ≤ '9') || ('a' ≤ c && c ≤ 'z') || ('A' ≤ c && c ≤ 'Z') ||
    c = '^' || c = '+' || c = '-' || c = '*' || c = '/' || c = '(' || c = ')' || isSpace c

/-- `expression.replace('^', '**')` -/
def replaceCaret (s : Str) : Str := s.flatMap fun c => if c = '^' then ['*', '*'] else [c]

/-- demand_model.py 1491-1536. -/
def cleanUpExpression (s : Str) : Except PyErr Str :=
  if s.all allowedChar then .ok (replaceCaret s) else .error .valueError

/-- demand_model.py 1301-1321: a number of terms given by the expression, `KeyError` when the
table has fewer demands; an empty cell is not `None` and is refused by the regular expression
(`TypeError`). -/
def termsOf (nvars : Str → Except PyErr Nat) (c : CmpDemand) : Except PyErr (List DemandDef) :=
  match c.expression with
  | .absent =>
    match c.demands with
    | [] => .error .keyError
    | d :: _ => .ok [d]
  | .nan => .error .typeError
  | .text s =>
    match cleanUpExpression s with
    | .error e => .error e
    | .ok s' =>
      match nvars s' with
      | .error e => .error e
      | .ok n => if n ≤ c.demands.length then .ok (c.demands.take n) else .error .keyError

/-- `base.EDP_to_demand_type[...]` -/
def demandCode (name : Str) : Except PyErr Str := edpToDemandType.getE name

/-- demand_model.py 1336-1354: code of the demand type without and with the subtype. -/
def edpType (type : Str) : Except PyErr (Str × Str) :=
  if hasChar '|' type then
    match splitChar '|' type with
    | [name, sub] =>
      match demandCode name with
      | .ok code => .ok (code, code ++ '_' :: sub)
      | .error e => .error e
    | _ => .error .valueError
  else
    match demandCode type with
    | .ok code => .ok (code, code)
    | .error e => .error e

/-- `int(x)` of a number that may be NaN. -/
def intOf : Option ℚ → Except PyErr Int
  | some q => .ok (truncQ q)
  | none => .error .valueError

/-- demand_model.py 1357-1366: the offset of the component plus that of the demand type. -/
def totalOffset (offsets : Dict Str ℚ) (code : Str) (offset : Option ℚ) : Except PyErr Int :=
  match offsets.get? code with
  | some o => intOf (offset.map (· + o))
  | none => intOf offset

/-- Truth value of a number; NaN is true. -/
def truthy : Option ℚ → Bool
  | none => true
  | some q => q ≠ 0

/-- demand_model.py 1369-1383: the demand label; negative locations are refused. -/
def edpLabel (pg : PGid) (d : DemandDef) (edpT : Str) (offset : Int) : Except PyErr Str :=
  match pyInt? pg.loc with
  | none => .error .valueError
  | some loc =>
    if loc + offset < 0 then .error .valueError
    else .ok (edpT ++ '-' :: (intStr (loc + offset) ++ '-' :: (if truthy d.directional then pg.dir else str "0")))

/-- demand_model.py 1326-1383: one demand of a performance group. -/
def edpOf (offsets : Dict Str ℚ) (pg : PGid) (d : DemandDef) : Except PyErr Str :=
  match edpType d.type with
  | .error e => .error e
  | .ok (code, edpT) =>
    match totalOffset offsets code d.offset with
    | .error e => .error e
    | .ok o => edpLabel pg d edpT o

/-- demand_model.py 1296-1387: the key a performance group is filed under. -/
def keyOf (nvars : Str → Except PyErr Nat) (params : Dict Str CmpDemand) (offsets : Dict Str ℚ)
    (pg : PGid) : Except PyErr (List Str × Expression) :=
  match params.get? pg.cmp with
  | none => .error .keyError
  | some c =>
    match termsOf nvars c with
    | .error e => .error e
    | .ok terms =>
      match mapE (edpOf offsets pg) terms with
      | .error e => .error e
      | .ok edps => .ok (edps, c.expression)

/-- `required_edps[key].append(pg)` on a `defaultdict(list)`. -/
def addTo {κ : Type} [DecidableEq κ] (d : Dict κ (List PGid)) (k : κ) (pg : PGid) : Dict κ (List PGid) :=
  match d.get? k with
  | some g => d.set k (g ++ [pg])
  | none => d.set k [pg]

/-- demand_model.py 1296-1389: the loop over performance groups. -/
def requiredLoop (nvars : Str → Except PyErr Nat) (params : Dict Str CmpDemand)
    (offsets : Dict Str ℚ) : Dict (List Str × Expression) (List PGid) → List PGid →
    Except PyErr (Dict (List Str × Expression) (List PGid))
  | d, [] => .ok d
  | d, pg :: pgs =>
    match keyOf nvars params offsets pg with
    | .error e => .error e
    | .ok k => requiredLoop nvars params offsets (addTo d k pg) pgs

/-- demand_model.py 1226-1389 `_get_required_demand_type`. -/
def requiredDemands (nvars : Str → Except PyErr Nat) (params : Dict Str CmpDemand)
    (offsets : Dict Str ℚ) (pgs : List PGid) : Except PyErr (Dict (List Str × Expression) (List PGid)) :=
  requiredLoop nvars params offsets [] pgs

/-- The demand sample: columns labelled by type, location, direction; `none` is NaN. -/
abbrev DemandTable := Dict (Str × Str × Str) (List (Option ℚ))

/-- The larger of two cells, skipping NaN. -/
def maxCell : Option ℚ → Option ℚ → Option ℚ
  | none, b => b
  | a, none => a
  | some a, some b => some (max a b)

/-- `.max(axis=1)` over columns: row-wise maximum that skips NaN. -/
def rowMax : List (List (Option ℚ)) → List (Option ℚ)
  | [] => []
  | [c] => c
  | c :: cs => List.zipWith maxCell c (rowMax cs)

/-- demand_model.py 1453-1467: the type-specific factor, the one for `ALL`, or an error. -/
def multiplierOf (mults : Dict Str ℚ) (edpT : Str) : Except PyErr ℚ :=
  match mults.get? edpT with
  | some m => .ok m
  | none =>
    match mults.get? (str "ALL") with
    | some m => .ok m
    | none => .error .valueError

/-- demand_model.py 1442-1469: non-directional demand; `.loc` raises `KeyError` when there is no
column of that type and location. -/
def nonDirectional (mults : Dict Str ℚ) (sample : DemandTable) (t l : Str) :
    Except PyErr (List (Option ℚ)) :=
  match sample.filter fun c => c.1.1 = t ∧ c.1.2.1 = l with
  | [] => .error .keyError
  | cols =>
    match multiplierOf mults t with
    | .error e => .error e
    | .ok m => .ok ((rowMax (cols.map Prod.snd)).map (Option.map (· * m)))

/-- demand_model.py 1439-1475: the values of one required demand. -/
def edpValues (mults : Dict Str ℚ) (sample : DemandTable) (edp : Str) : Except PyErr (List (Option ℚ)) :=
  match splitChar '-' edp with
  | [t, l, d] =>
    if d = str "0" then nonDirectional mults sample t l
    else sample.getE (t, l, d)
  | _ => .error .valueError

/-- demand_model.py 1437-1477: `edp_values` is a dictionary, so equal demands are stored once. -/
def edpDict (mults : Dict Str ℚ) (sample : DemandTable) :
    Dict Str (List (Option ℚ)) → List Str → Except PyErr (Dict Str (List (Option ℚ)))
  | d, [] => .ok d
  | d, e :: es =>
    match edpValues mults sample e with
    | .error err => .error err
    | .ok v => edpDict mults sample (d.set e v) es

/-- demand_model.py 1480-1489: with an expression its value (`eval` is numexpr, applied to the
stored demands as `X1`, `X2`, ...), otherwise the last demand read. -/
def demandOf (eval : Str → List (List (Option ℚ)) → Except PyErr (List (Option ℚ)))
    (mults : Dict Str ℚ) (sample : DemandTable) (key : List Str × Expression) :
    Except PyErr (List (Option ℚ)) :=
  match edpDict mults sample [] key.1 with
  | .error e => .error e
  | .ok d =>
    match key.2 with
    | .text s =>
      match cleanUpExpression s with
      | .error e => .error e
      | .ok s' => eval s' (d.map Prod.snd)
    | .nan => .error .typeError
    | .absent =>
      match key.1.getLast? with
      | none => .error .unboundLocalError
      | some e => d.getE e

/-- demand_model.py 1389-1488 `_assemble_required_demand_data`. -/
def assembleDemands (eval : Str → List (List (Option ℚ)) → Except PyErr (List (Option ℚ)))
    (mults : Dict Str ℚ) (sample : DemandTable) (keys : List (List Str × Expression)) :
    Except PyErr (Dict (List Str × Expression) (List (Option ℚ))) :=
  mapE (fun k => match demandOf eval mults sample k with
    | .ok v => .ok (k, v)
    | .error e => .error e) keys

/-- damage_model.py 826-834 and loss_model.py 2586-2593: the types and locations in the demand
sample (with the directions, a nonempty list for each). -/
def availableEdps (sample : DemandTable) : List (Str × Str) := sample.map fun c => (c.1.1, c.1.2.1)

/-- demand_model.py 1563-1571: one demand; `split` into other than three parts raises. The checks
in lines 1575-1584 never fail because every listed type and location has a direction. -/
def verifyEdp (avail : List (Str × Str)) (edp : Str) : Except PyErr Unit :=
  match splitChar '-' edp with
  | [t, l, _] => if (t, l) ∈ avail then .ok () else .error .valueError
  | _ => .error .valueError

/-- demand_model.py 1539-1584 `_verify_edps_available`. -/
def verifyEdps (sample : DemandTable) (keys : List (List Str × Expression)) : Except PyErr (List (List Unit)) :=
  mapE (fun k => mapE (verifyEdp (availableEdps sample)) k.1) keys

end Verif.DemandReq
