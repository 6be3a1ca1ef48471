import Verif.Model.PyStr

/-!
# Warnings of the logger (pelicun/base.py:340-480)
-/

namespace Verif.Logger

/-- base.py:372-388, 443-448: constant pieces of a formatted warning. `spaces` depends
on the `log_show_ms` option, which is taken as fixed for the life of the logger. -/
structure Style where
  spaces : Str
  red : Str
  reset : Str

/-- base.py:443-448 -/
def format (s : Style) (msg : Str) : Str :=
  '\n' :: (splitChar '\n' msg).flatMap (fun line => s.spaces ++ s.red ++ line ++ s.reset ++ ['\n'])

/-- base.py:344-370: `warning_stack` and `emitted`. -/
structure State where
  stack : List Str
  emitted : List Str

/-- base.py:369-370 -/
def init : State := ⟨[], []⟩

/-- base.py:430-451 `add_warning` -/
def addWarning (s : Style) (st : State) (msg : Str) : State :=
  let f := format s msg
  if f ∈ st.stack then st else { st with stack := st.stack ++ [f] }

/-- base.py:453-467 `emit_warnings`: new state and the messages handed to
`warnings.warn`, in order.  Python's own warning filters are not modelled. -/
def emitWarnings (st : State) : State × List Str :=
  (⟨[], st.emitted ++ st.stack⟩, st.stack.filter (fun m => m ∉ st.emitted))

inductive Op where
  | add (msg : Str)
  | emit
  | warn (msg : Str)

/-- One call on the logger. base.py:469-480 for `warning`. -/
def step (s : Style) (st : State) : Op → State × List Str
  | .add m => (addWarning s st m, [])
  | .emit => emitWarnings st
  | .warn m => emitWarnings (addWarning s st m)

/-- A history of calls; returns everything handed to `warnings.warn`. -/
def run (s : Style) (st : State) : List Op → State × List Str
  | [] => (st, [])
  | op :: ops =>
    let r := step s st op
    let r' := run s r.1 ops
    (r'.1, r.2 ++ r'.2)

end Verif.Logger
