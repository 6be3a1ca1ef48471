import Verif.Model.PyStr
import Verif.Model.ToolConfig

/-!
# The command line of a calculation

Models `main` of `pelicun/tools/DL_calculation.py` (1574-1693) and `str2bool` of `pelicun/base.py` (1126-1164), with the
part of `argparse` of the standard library (`ArgumentParser.parse_args`) that a parser of options only uses.

Simplifications: the separator `--` is refused.  Whether the program ends with the help text or with a message about the
arguments is not distinguished: in both cases there is no calculation.  Texts are ASCII where they are converted.
-/

namespace Verif.CommandLine


/-- A value of the parsed arguments. -/
inductive Value where
  | missing
  | text (s : Str)
  | flag (b : Bool)
deriving DecidableEq, Repr

/-- What an option takes. -/
inductive Kind where
  /-- exactly one argument -/
  | value
  /-- `type=str2bool, nargs='?'` with the value of `const` -/
  | toggle (const : Bool)
  /-- `-h` -/
  | help
deriving DecidableEq, Repr

/-- An argument of the parser: its names, the name of its entry in the result, and its default. -/
structure Opt where
  names : List Str
  dest : Str
  kind : Kind
  dflt : Value
deriving DecidableEq, Repr

/-- 1578-1671 of pelicun/tools/DL_calculation.py, and the option `-h` that `argparse` adds. -/
def options : List Opt := [
  ⟨[str "-h", str "--help"], str "help", .help, .missing⟩,
  ⟨[str "-c", str "--filenameDL"], str "filenameDL", .value, .missing⟩,
  ⟨[str "-d", str "--demandFile"], str "demandFile", .value, .missing⟩,
  ⟨[str "-s", str "--Realizations"], str "Realizations", .value, .missing⟩,
  ⟨[str "--dirnameOutput"], str "dirnameOutput", .value, .missing⟩,
  ⟨[str "--detailed_results"], str "detailed_results", .toggle true, .flag true⟩,
  ⟨[str "--coupled_EDP"], str "coupled_EDP", .toggle false, .flag false⟩,
  ⟨[str "--log_file"], str "log_file", .toggle true, .flag true⟩,
  ⟨[str "--auto_script"], str "auto_script", .value, .missing⟩,
  ⟨[str "--custom_model_dir"], str "custom_model_dir", .value, .missing⟩,
  ⟨[str "--output_format"], str "output_format", .value, .missing⟩,
  ⟨[str "--ground_failure"], str "ground_failure", .toggle false, .flag false⟩,
  ⟨[str "--regional"], str "regional", .toggle false, .flag false⟩,
  ⟨[str "--resource_dir"], str "resource_dir", .value, .missing⟩]

/-- `_option_string_actions` of argparse -/
def optionStrings : Dict Str Opt := options.flatMap (fun o => o.names.map (fun n => (n, o)))

/-- `s.lower()` -/
def lower (s : Str) : Str := s.map Char.toLower

/-- pelicun/base.py:1126-1164 for a text: `none` for the error. -/
def str2bool (s : Str) : Option Bool :=
  if lower s ∈ [str "yes", str "true", str "True", str "t", str "y", str "1"] then some true
  else if lower s ∈ [str "no", str "false", str "False", str "f", str "n", str "0"] then some false
  else none

/-- `_get_option_tuples` of argparse: the options a text that starts with `-` may stand for, with the argument that is
part of the text. -/
def candidates : Str → List (Opt × Option Str)
  | '-' :: '-' :: rest =>
    let p := splitChar1 '=' ('-' :: '-' :: rest)
    (optionStrings.filter (fun e => p.1.isPrefixOf e.1)).map (fun e => (e.2, p.2))
  | '-' :: c :: rest =>
    optionStrings.filterMap (fun e =>
      if e.1 = ['-', c] then some (e.2, some rest)
      else if ('-' :: c :: rest).isPrefixOf e.1 then some (e.2, none)
      else none)
  | _ => []

/-- `_negative_number_matcher` of argparse: `^-\d+$|^-\d*\.\d+$` -/
def negativeNumber : Str → Bool
  | '-' :: rest =>
    (rest ≠ [] && rest.all Char.isDigit) ||
    (match splitChar1 '.' rest with
      | (a, some b) => a.all Char.isDigit && b ≠ [] && b.all Char.isDigit
      | _ => false)
  | _ => false

/-- A classified text of the command line. -/
inductive Token where
  | arg (s : Str)
  | opt (o : Opt) (explicit : Option Str)
  | unknown
deriving DecidableEq, Repr

/-- The last part of `_parse_optional`: abbreviations, joined short options, negative numbers and texts with blanks. -/
def guess (s : Str) : Option Token :=
  match candidates s with
  | [] => some (if negativeNumber s || hasChar ' ' s then .arg s else .unknown)
  | [(o, e)] => some (.opt o e)
  | _ => none

/-- The middle part of `_parse_optional`: `name=value`. -/
def withValue (s : Str) : Option Token :=
  match splitChar1 '=' s with
  | (n, some e) =>
    (match optionStrings.get? n with
      | some o => some (.opt o (some e))
      | none => guess s)
  | _ => guess s

/-- `_parse_optional` of argparse; `none` if the text is ambiguous, and for `--`. -/
def classify (s : Str) : Option Token :=
  if s.head? ≠ some '-' then some (.arg s)
  else if s = str "--" then none
  else match optionStrings.get? s with
    | some o => some (.opt o none)
    | none => if s.length = 1 then some (.arg s) else withValue s

/-- `_get_value` of argparse -/
def convert (k : Kind) (s : Str) : Option Value :=
  match k with
  | .value => some (.text s)
  | .toggle _ => (str2bool s).map .flag
  | .help => none

/-- The value of an option without an argument: `const` -/
def bare (k : Kind) : Option Value :=
  match k with
  | .toggle b => some (.flag b)
  | _ => none

/-- `consume_optional` of argparse in a loop; texts that belong to no option end in an error. -/
def consume : List Token → Dict Str Value → Option (Dict Str Value)
  | [], a => some a
  | .opt o (some e) :: rest, a => (convert o.kind e).bind (fun v => consume rest (a.set o.dest v))
  | .opt o none :: .arg s :: rest, a => (convert o.kind s).bind (fun v => consume rest (a.set o.dest v))
  | .opt o none :: rest, a => (bare o.kind).bind (fun v => consume rest (a.set o.dest v))
  | .arg _ :: _, _ => none
  | .unknown :: _, _ => none

/-- The defaults, which `parse_known_args` of argparse sets first. -/
def defaults : Dict Str Value := options.map (fun o => (o.dest, o.dflt))

/-- All texts are classified before any of them is used. -/
def classifyAll : List Str → Option (List Token)
  | [] => some []
  | s :: rest => (classify s).bind (fun t => (classifyAll rest).map (t :: ·))

/-- 1673-1677 of pelicun/tools/DL_calculation.py: `none` if there is no calculation. -/
def parseArgs (args : List Str) : Option (Dict Str Value) :=
  if args = [] then none else (classifyAll args).bind (fun ts => consume ts defaults)

/-- The arguments of `run_pelicun`, 1681-1691. -/
structure Run where
  configPath : Value
  demandFile : Value
  outputPath : Value
  realizations : Value
  autoScript : Value
  modelDir : Value
  format : Value
  detailed : Value
  coupled : Value
deriving DecidableEq, Repr

/-- `args.name` -/
def attr (a : Dict Str Value) (name : String) : Value := (a.get? (str name)).getD .missing

/-- 1681-1691 -/
def runOf (a : Dict Str Value) : Run where
  configPath := attr a "filenameDL"
  demandFile := attr a "demandFile"
  outputPath := attr a "dirnameOutput"
  realizations := attr a "Realizations"
  autoScript := attr a "auto_script"
  modelDir := attr a "custom_model_dir"
  format := attr a "output_format"
  detailed := attr a "detailed_results"
  coupled := attr a "coupled_EDP"

/-- 1574-1693: the calculation that a command line starts. -/
def main (args : List Str) : Option Run := (parseArgs args).map runOf

/-- `str(value)` -/
def valueText : Value → Str
  | .missing => str "None"
  | .text s => s
  | .flag true => str "True"
  | .flag false => str "False"

/-- an optional text -/
def valueText? : Value → Option Str
  | .text s => some s
  | _ => none

/-- `sub in s` for texts -/
def isSubtext (sub : Str) : Str → Bool
  | [] => decide (sub = [])
  | c :: s => sub.isPrefixOf (c :: s) || isSubtext sub s

/-- 844-852: `'csv' in output_format` for a text is a search in the text.  The list of formats that has the same effect as the
text. -/
def formats (s : Str) : List Str := [str "csv", str "json"].filter (fun f => isSubtext f s)

/-- The arguments of `_parse_config_file`, 314-323. -/
def toCall (r : Run) (responseFile componentFile : Str) : ToolConfig.Call where
  demandFile := valueText? r.demandFile
  realizations := valueText r.realizations
  format := (valueText? r.format).map formats
  coupled := decide (r.coupled = .flag true)
  detailed := decide (r.detailed ≠ .flag false)
  responseFile := responseFile
  componentFile := componentFile

end Verif.CommandLine
