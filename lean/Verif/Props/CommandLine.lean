import Verif.Model.CommandLine
import Verif.Lemmas.PyNum
import Verif.Props.ToolConfig
import Mathlib.Data.List.Forall2
import Mathlib.Data.List.Perm.Basic
import Mathlib.Data.List.Nodup
import Mathlib.Data.List.Induction

/-!
# C111: the options of the command line
-/

namespace Verif.CommandLine

/-! ## Specification -/

/-- How an option may be written. -/
inductive Given where
  /-- `name value` -/
  | separate (name value : Str)
  /-- `name=value` -/
  | joined (name value : Str)
  /-- `name` -/
  | alone (name : Str)

/-- The texts of an option on the command line. -/
def Given.texts : Given → List Str
  | .separate n v => [n, v]
  | .joined n v => [n ++ '=' :: v]
  | .alone n => [n]

/-- A command line. -/
def commandLine (gs : List Given) : List Str := gs.flatMap Given.texts

/-- The options with a value, and the argument they stand for. -/
def valueOptions : List (Str × Str) := [
  (str "-c", str "filenameDL"), (str "--filenameDL", str "filenameDL"),
  (str "-d", str "demandFile"), (str "--demandFile", str "demandFile"),
  (str "-s", str "Realizations"), (str "--Realizations", str "Realizations"),
  (str "--dirnameOutput", str "dirnameOutput"), (str "--auto_script", str "auto_script"),
  (str "--custom_model_dir", str "custom_model_dir"), (str "--output_format", str "output_format"),
  (str "--resource_dir", str "resource_dir")]

/-- The options that are on or off. -/
def switches : List (Str × Str) := [
  (str "--detailed_results", str "detailed_results"), (str "--coupled_EDP", str "coupled_EDP"),
  (str "--log_file", str "log_file"), (str "--ground_failure", str "ground_failure"), (str "--regional", str "regional")]

/-- The words for on and off, in any case. -/
def Word (s : Str) (b : Bool) : Prop :=
  (b = true ∧ s.map Char.toLower ∈ [str "yes", str "true", str "t", str "y", str "1"]) ∨
  (b = false ∧ s.map Char.toLower ∈ [str "no", str "false", str "f", str "n", str "0"])

/-- A name with a value asks for a value of an argument. -/
def AsksWith (n t : Str) (a : Str × Value) : Prop :=
  ((n, a.1) ∈ valueOptions ∧ a.2 = .text t) ∨ ((n, a.1) ∈ switches ∧ ∃ b, Word t b ∧ a.2 = .flag b)

/-- What an option asks for: an argument and its value.  A switch without a value is on. -/
def Asks (g : Given) (a : Str × Value) : Prop :=
  match g with
  | .separate n t => t.head? ≠ some '-' ∧ AsksWith n t a
  | .joined n t => AsksWith n t a
  | .alone n => (n, a.1) ∈ switches ∧ a.2 = .flag true

/-- The value of an argument: the last one that is asked for, or the default. -/
def chosen (asked : List (Str × Value)) (name : String) (dflt : Value) : Value :=
  match asked.reverse.find? (fun a => a.1 = str name) with
  | some a => a.2
  | none => dflt

/-- The calculation that is asked for. -/
def wanted (asked : List (Str × Value)) : Run where
  configPath := chosen asked "filenameDL" .missing
  demandFile := chosen asked "demandFile" .missing
  outputPath := chosen asked "dirnameOutput" .missing
  realizations := chosen asked "Realizations" .missing
  autoScript := chosen asked "auto_script" .missing
  modelDir := chosen asked "custom_model_dir" .missing
  format := chosen asked "output_format" .missing
  detailed := chosen asked "detailed_results" (.flag true)
  coupled := chosen asked "coupled_EDP" (.flag false)

/-! ## Proofs -/

/-- What an option does. -/
inductive Does : Given → Str × Value → Prop
  | separate {n t : Str} {o : Opt} {v : Value} (hn : optionStrings.get? n = some o) (ht : t.head? ≠ some '-')
      (hv : convert o.kind t = some v) : Does (.separate n t) (o.dest, v)
  | joined {n t : Str} {o : Opt} {v : Value} (hn : optionStrings.get? n = some o)
      (hv : convert o.kind t = some v) : Does (.joined n t) (o.dest, v)
  | alone {n : Str} {o : Opt} {v : Value} (hn : optionStrings.get? n = some o)
      (hv : bare o.kind = some v) : Does (.alone n) (o.dest, v)

theorem name_shape {n : Str} {o : Opt} (h : optionStrings.get? n = some o) :
    n.head? = some '-' ∧ '=' ∉ n ∧ n ≠ str "--" ∧ 2 ≤ n.length := by
  have hm := Dict.mem_of_get? h
  have : ∀ e ∈ optionStrings, e.1.head? = some '-' ∧ '=' ∉ e.1 ∧ e.1 ≠ str "--" ∧ 2 ≤ e.1.length := by decide +kernel
  exact this _ hm

theorem classify_name {n : Str} {o : Opt} (h : optionStrings.get? n = some o) : classify n = some (.opt o none) := by
  obtain ⟨h1, h2, h3, h4⟩ := name_shape h
  unfold classify
  rw [if_neg (by simpa using h1), if_neg h3, h]

theorem classify_arg {s : Str} (h : s.head? ≠ some '-') : classify s = some (.arg s) := by
  unfold classify
  rw [if_pos h]

theorem classify_joined {n t : Str} {o : Opt} (h : optionStrings.get? n = some o) :
    classify (n ++ '=' :: t) = some (.opt o (some t)) := by
  obtain ⟨h1, h2, h3, h4⟩ := name_shape h
  have e0 : (n ++ '=' :: t).head? = some '-' := by
    cases n with
    | nil => simp at h4
    | cons c n => simpa using h1
  have e1 : n ++ '=' :: t ≠ str "--" := by
    intro e
    have : '=' ∈ str "--" := by rw [← e]; simp
    exact absurd this (by decide)
  have e2 : optionStrings.get? (n ++ '=' :: t) = none := by
    cases hg : optionStrings.get? (n ++ '=' :: t) with
    | none => rfl
    | some o' =>
      exact absurd (by simp : '=' ∈ n ++ '=' :: t) (name_shape hg).2.1
  unfold classify
  rw [if_neg (by simpa using e0), if_neg e1, e2]
  simp only
  rw [if_neg (by simp; omega)]
  unfold withValue
  rw [splitChar1_sep h2]
  simp only [h]

/-- The tokens of an option. -/
def tokens : Given → List Token → Prop
  | .separate n t, ts => ∃ o, optionStrings.get? n = some o ∧ ts = [.opt o none, .arg t]
  | .joined n t, ts => ∃ o, optionStrings.get? n = some o ∧ ts = [.opt o (some t)]
  | .alone n, ts => ∃ o, optionStrings.get? n = some o ∧ ts = [.opt o none]

theorem classifyAll_append (l m : List Str) :
    classifyAll (l ++ m) = (classifyAll l).bind (fun a => (classifyAll m).map (a ++ ·)) := by
  induction l with
  | nil => simp [classifyAll]
  | cons s l ih =>
    simp only [List.cons_append, classifyAll, ih]
    cases classify s with
    | none => rfl
    | some t =>
      cases classifyAll l with
      | none => simp
      | some a =>
        cases classifyAll m with
        | none => simp
        | some b => simp

/-- The first token of the rest is an option, or there is no rest. -/
def StartsWithOption (ts : List Token) : Prop := ∀ s rest, ts ≠ .arg s :: rest

theorem does_tokens {g : Given} {a : Str × Value} (h : Does g a) :
    ∃ ts, classifyAll g.texts = some ts ∧ StartsWithOption ts ∧
      ∀ rest d, StartsWithOption rest → consume (ts ++ rest) d = consume rest (d.set a.1 a.2) := by
  cases h with
  | @separate n t o v hn ht hv =>
    refine ⟨[.opt o none, .arg t], ?_, fun s r e => by simp at e, fun rest d _ => ?_⟩
    · simp only [Given.texts, classifyAll, classify_name hn, classify_arg ht]; rfl
    · simp only [List.cons_append, List.nil_append, consume, hv, Option.bind_some]
  | @joined n t o v hn hv =>
    refine ⟨[.opt o (some t)], ?_, fun s r e => by simp at e, fun rest d _ => ?_⟩
    · simp only [Given.texts, classifyAll, classify_joined hn]; rfl
    · simp only [List.cons_append, List.nil_append, consume, hv, Option.bind_some]
  | @alone n o v hn hv =>
    refine ⟨[.opt o none], ?_, fun s r e => by simp at e, fun rest d hr => ?_⟩
    · simp only [Given.texts, classifyAll, classify_name hn]; rfl
    · cases rest with
      | nil => simp only [List.append_nil, consume, hv, Option.bind_some]
      | cons r rest =>
        cases r with
        | arg s => exact absurd rfl (hr s rest)
        | opt o' e => simp only [List.cons_append, List.nil_append, consume, hv, Option.bind_some]
        | unknown => simp only [List.cons_append, List.nil_append, consume, hv, Option.bind_some]

theorem does_all {gs : List Given} {evs : List (Str × Value)} (h : List.Forall₂ Does gs evs) :
    ∃ ts, classifyAll (commandLine gs) = some ts ∧ StartsWithOption ts ∧
      ∀ rest d, StartsWithOption rest → consume (ts ++ rest) d = consume rest (evs.foldl (fun d a => d.set a.1 a.2) d) := by
  induction h with
  | nil => exact ⟨[], rfl, fun s r e => by simp at e, fun rest d _ => rfl⟩
  | @cons g a gs evs h1 _ ih =>
    obtain ⟨t1, e1, s1, c1⟩ := does_tokens h1
    obtain ⟨t2, e2, s2, c2⟩ := ih
    refine ⟨t1 ++ t2, ?_, ?_, fun rest d hr => ?_⟩
    · show classifyAll (g.texts ++ commandLine gs) = _
      rw [classifyAll_append, e1, e2]; rfl
    · cases t1 with
      | nil => exact s2
      | cons x t1 =>
        intro s r e
        rw [List.cons_append] at e
        injection e with e3 e4
        exact s1 s t1 (by rw [e3])
    · have hs : StartsWithOption (t2 ++ rest) := by
        cases t2 with
        | nil => exact hr
        | cons x t2 =>
          intro s r e
          rw [List.cons_append] at e
          injection e with e3 e4
          exact s2 s t2 (by rw [e3])
      rw [List.append_assoc, c1 _ _ hs, c2 _ _ hr]
      rfl

theorem get_foldl (evs : List (Str × Value)) (d : Dict Str Value) (k : Str) :
    (evs.foldl (fun d a => d.set a.1 a.2) d).get? k =
      match evs.reverse.find? (fun a => a.1 = k) with
      | some a => some a.2
      | none => d.get? k := by
  induction evs generalizing d with
  | nil => rfl
  | cons a evs ih =>
    rw [List.foldl_cons, ih, List.reverse_cons, List.find?_append]
    cases List.find? (fun a => decide (a.1 = k)) evs.reverse with
    | some b => rfl
    | none =>
      simp only [Option.none_or, List.find?_cons, List.find?_nil, Dict.get?_set]
      by_cases e : a.1 = k
      · simp [e]
      · have e' : ¬ k = a.1 := fun h => e h.symm
        simp [e, e']

theorem attr_foldl (evs : List (Str × Value)) (name : String) (v : Value) (h : defaults.get? (str name) = some v) :
    attr (evs.foldl (fun d a => d.set a.1 a.2) defaults) name = chosen evs name v := by
  unfold attr chosen
  rw [get_foldl]
  cases List.find? (fun a => decide (a.1 = str name)) evs.reverse with
  | some b => rfl
  | none => simp only [h, Option.getD_some]

theorem runOf_foldl (evs : List (Str × Value)) : runOf (evs.foldl (fun d a => d.set a.1 a.2) defaults) = wanted evs := by
  unfold runOf wanted
  congr 1 <;> exact attr_foldl _ _ _ (by decide +kernel)

theorem does_main {gs : List Given} {evs : List (Str × Value)} (h : List.Forall₂ Does gs evs) (hne : gs ≠ []) :
    main (commandLine gs) = some (wanted evs) := by
  obtain ⟨ts, e, _, c⟩ := does_all h
  unfold main parseArgs
  have hc : commandLine gs ≠ [] := by
    cases gs with
    | nil => exact absurd rfl hne
    | cons g gs => cases g <;> simp [commandLine, Given.texts]
  rw [if_neg hc, e]
  have := c [] defaults (fun s r e => by simp at e)
  rw [List.append_nil] at this
  simp only [Option.bind_some, this, consume, Option.map_some, runOf_foldl]

theorem toLower_ne (c : Char) : c.toLower ≠ 'T' := by
  intro h
  have hv : c.toLower.val = 84 := by rw [h]; rfl
  unfold Char.toLower at hv
  split at hv
  · rename_i hc
    obtain ⟨h1, h2⟩ := hc
    have e1 : ('A'.val : UInt32) = 65 := rfl
    have e2 : ('Z'.val : UInt32) = 90 := rfl
    have e3 : ('a'.val : UInt32) = 97 := rfl
    rw [e1] at h1
    rw [e2] at h2
    simp only [e1, e3] at hv
    have h1' : 65 ≤ c.val.toNat := h1
    have h2' : c.val.toNat ≤ 90 := h2
    have := congrArg UInt32.toNat hv
    rw [UInt32.toNat_add] at this
    have e4 : (97 - 65 : UInt32).toNat = 32 := rfl
    have e5 : (84 : UInt32).toNat = 84 := rfl
    rw [e4, e5] at this
    omega
  · rename_i hc
    apply hc
    rw [hv]
    decide

theorem toLower_ne' (c : Char) : c.toLower ≠ 'F' := by
  intro h
  have hv : c.toLower.val = 70 := by rw [h]; rfl
  unfold Char.toLower at hv
  split at hv
  · rename_i hc
    obtain ⟨h1, h2⟩ := hc
    have e1 : ('A'.val : UInt32) = 65 := rfl
    have e2 : ('Z'.val : UInt32) = 90 := rfl
    have e3 : ('a'.val : UInt32) = 97 := rfl
    rw [e1] at h1
    rw [e2] at h2
    simp only [e1, e3] at hv
    have h1' : 65 ≤ c.val.toNat := h1
    have h2' : c.val.toNat ≤ 90 := h2
    have := congrArg UInt32.toNat hv
    rw [UInt32.toNat_add] at this
    have e4 : (97 - 65 : UInt32).toNat = 32 := rfl
    have e5 : (70 : UInt32).toNat = 70 := rfl
    rw [e4, e5] at this
    omega
  · rename_i hc
    apply hc
    rw [hv]
    decide

theorem str2bool_iff {s : Str} {b : Bool} : str2bool s = some b ↔ Word s b := by
  have hT : lower s ≠ str "True" := by
    intro e
    cases s with
    | nil => cases e
    | cons c s => exact toLower_ne c (List.cons.inj e).1
  have hF : lower s ≠ str "False" := by
    intro e
    cases s with
    | nil => cases e
    | cons c s => exact toLower_ne' c (List.cons.inj e).1
  have m1 : lower s ∈ [str "yes", str "true", str "True", str "t", str "y", str "1"] ↔
      s.map Char.toLower ∈ [str "yes", str "true", str "t", str "y", str "1"] := by
    show lower s ∈ _ ↔ lower s ∈ _
    simp only [List.mem_cons, hT, false_or]
  have m2 : lower s ∈ [str "no", str "false", str "False", str "f", str "n", str "0"] ↔
      s.map Char.toLower ∈ [str "no", str "false", str "f", str "n", str "0"] := by
    show lower s ∈ _ ↔ lower s ∈ _
    simp only [List.mem_cons, hF, false_or]
  have hdis : s.map Char.toLower ∈ [str "yes", str "true", str "t", str "y", str "1"] →
      s.map Char.toLower ∉ [str "no", str "false", str "f", str "n", str "0"] := by
    generalize s.map Char.toLower = t
    intro h1 h2
    simp only [List.mem_cons, List.not_mem_nil, or_false] at h1 h2
    rcases h1 with rfl | rfl | rfl | rfl | rfl <;> revert h2 <;> decide
  unfold str2bool Word
  simp only [m1, m2]
  split
  · rename_i h
    constructor
    · intro e; cases e; exact .inl ⟨rfl, h⟩
    · rintro (⟨rfl, _⟩ | ⟨_, h2⟩)
      · rfl
      · exact absurd h2 (hdis h)
  · rename_i h
    split
    · rename_i h2
      constructor
      · intro e; cases e; exact .inr ⟨rfl, h2⟩
      · rintro (⟨_, h1⟩ | ⟨rfl, _⟩)
        · exact absurd h1 h
        · rfl
    · rename_i h2
      constructor
      · intro e; cases e
      · rintro (⟨_, h1⟩ | ⟨_, h1⟩)
        · exact absurd h1 h
        · exact absurd h1 h2

theorem value_option {n d : Str} (h : (n, d) ∈ valueOptions) : ∃ o, optionStrings.get? n = some o ∧ o.dest = d ∧ o.kind = .value := by
  have : ∀ e ∈ valueOptions, ∃ o ∈ options, optionStrings.get? e.1 = some o ∧ o.dest = e.2 ∧ o.kind = .value := by decide +kernel
  obtain ⟨o, _, h⟩ := this _ h
  exact ⟨o, h⟩

theorem switch_option {n d : Str} (h : (n, d) ∈ switches) :
    ∃ o, optionStrings.get? n = some o ∧ o.dest = d ∧ (o.kind = .toggle true ∨ o.kind = .toggle false) := by
  have : ∀ e ∈ switches, ∃ o ∈ options, optionStrings.get? e.1 = some o ∧ o.dest = e.2 ∧ (o.kind = .toggle true ∨ o.kind = .toggle false) := by
    decide +kernel
  obtain ⟨o, _, h⟩ := this _ h
  exact ⟨o, h⟩

/-- The switches that are on without a value. -/
def effective : List Str := [str "--detailed_results", str "--log_file"]

theorem alone_option {n d : Str} (h : (n, d) ∈ switches) (he : n ∈ effective) :
    ∃ o, optionStrings.get? n = some o ∧ o.dest = d ∧ o.kind = .toggle true := by
  have : ∀ e ∈ switches, e.1 ∈ effective → ∃ o ∈ options, optionStrings.get? e.1 = some o ∧ o.dest = e.2 ∧ o.kind = .toggle true := by
    decide +kernel
  obtain ⟨o, _, h⟩ := this _ h he
  exact ⟨o, h⟩

theorem alone_off {n d : Str} (h : (n, d) ∈ switches) (he : n ∉ effective) :
    ∃ o, optionStrings.get? n = some o ∧ o.dest = d ∧ o.kind = .toggle false := by
  have : ∀ e ∈ switches, e.1 ∉ effective → ∃ o ∈ options, optionStrings.get? e.1 = some o ∧ o.dest = e.2 ∧ o.kind = .toggle false := by
    decide +kernel
  obtain ⟨o, _, h⟩ := this _ h he
  exact ⟨o, h⟩

theorem asksWith_does {n t : Str} {a : Str × Value} (h : AsksWith n t a) :
    ∃ o, optionStrings.get? n = some o ∧ convert o.kind t = some a.2 ∧ o.dest = a.1 := by
  rcases h with ⟨hn, hv⟩ | ⟨hn, b, hb, hv⟩
  · obtain ⟨o, h1, h2, h3⟩ := value_option hn
    exact ⟨o, h1, by rw [h3, hv]; rfl, h2⟩
  · obtain ⟨o, h1, h2, h3⟩ := switch_option hn
    refine ⟨o, h1, ?_, h2⟩
    rw [hv]
    rcases h3 with h3 | h3 <;> rw [h3] <;> simp only [convert, str2bool_iff.2 hb, Option.map_some]

/-- What a switch without a value does. -/
def outcome (g : Given) (a : Str × Value) : Str × Value :=
  match g with
  | .alone n => if n ∈ effective then a else (a.1, .flag false)
  | _ => a

theorem outcome_fst (g : Given) (a : Str × Value) : (outcome g a).1 = a.1 := by
  unfold outcome
  split
  · split <;> rfl
  · rfl

theorem asks_does {g : Given} {a : Str × Value} (h : Asks g a) : Does g (outcome g a) := by
  obtain ⟨d, v⟩ := a
  cases g with
  | separate n t =>
    obtain ⟨ht, h⟩ := h
    obtain ⟨o, h1, h2, rfl⟩ := asksWith_does h
    exact .separate h1 ht h2
  | joined n t =>
    obtain ⟨o, h1, h2, rfl⟩ := asksWith_does h
    exact .joined h1 h2
  | alone n =>
    obtain ⟨hn, hv⟩ := h
    cases hv
    unfold outcome
    simp only
    split
    · rename_i he
      obtain ⟨o, h1, rfl, h3⟩ := alone_option hn he
      exact .alone h1 (by rw [h3]; rfl)
    · rename_i he
      obtain ⟨o, h1, rfl, h3⟩ := alone_off hn he
      exact .alone h1 (by rw [h3]; rfl)

theorem asks_main {gs : List Given} {asked : List (Str × Value)} (h : List.Forall₂ Asks gs asked) (hne : gs ≠ []) :
    main (commandLine gs) = some (wanted (List.zipWith outcome gs asked)) := by
  apply does_main _ hne
  clear hne
  induction h with
  | nil => exact .nil
  | cons h1 _ ih => exact .cons (asks_does h1) ih

/-! ## Theorems -/

/-- **C111 (options).** Every option that is given on the command line, in whatever order and in either of the forms
`name value` and `name=value`, has the effect it asks for; the last one counts if there are several, and what is not asked
for has its default.  The full statement has no last hypothesis; it fails because three switches are off when they are given without a
value, see `C111_coupled_flag_ignored`. -/
theorem C111_options_partial (gs : List Given) (asked : List (Str × Value)) (h : List.Forall₂ Asks gs asked) (hne : gs ≠ [])
    (hon : ∀ n, Given.alone n ∈ gs → n = str "--detailed_results" ∨ n = str "--log_file") :
    main (commandLine gs) = some (wanted asked) := by
  rw [asks_main h hne]
  congr 2
  clear hne
  induction h with
  | nil => rfl
  | @cons g a gs asked h1 h2 ih =>
    rw [List.zipWith_cons_cons, ih (fun n hn => hon n (List.mem_cons_of_mem _ hn))]
    congr 1
    cases g with
    | alone n =>
      have := hon n List.mem_cons_self
      unfold outcome
      simp only
      rw [if_pos]
      simpa [effective] using this
    | separate n t => rfl
    | joined n t => rfl

/-- C111: `--coupled_EDP` without a value does not ask for coupled demands: wherever it is on a command line whose other options do
not speak about it, the demands are not coupled. -/
theorem C111_coupled_flag_ignored (gs gs' : List Given) (asked asked' : List (Str × Value))
    (h : List.Forall₂ Asks gs asked) (h' : List.Forall₂ Asks gs' asked')
    (hno : ∀ a ∈ asked ++ asked', a.1 ≠ str "coupled_EDP") :
    ∃ r, main (commandLine (gs ++ .alone (str "--coupled_EDP") :: gs')) = some r ∧ r.coupled = .flag false := by
  have hf : List.Forall₂ Asks (gs ++ .alone (str "--coupled_EDP") :: gs') (asked ++ (str "coupled_EDP", .flag true) :: asked') :=
    List.rel_append h (.cons ⟨by decide, rfl⟩ h')
  refine ⟨_, asks_main hf (by simp), ?_⟩
  show chosen _ "coupled_EDP" (.flag false) = .flag false
  unfold chosen
  split
  · rename_i a ha
    have hm := List.mem_of_find?_eq_some ha
    have hp := List.find?_some ha
    rw [List.mem_reverse] at hm
    rw [List.zipWith_append (List.Forall₂.length_eq h), List.zipWith_cons_cons, List.mem_append, List.mem_cons] at hm
    have fst : ∀ (l : List Given) (m : List (Str × Value)) a, a ∈ List.zipWith outcome l m → ∃ b ∈ m, b.1 = a.1 := by
      intro l
      induction l with
      | nil => intro m a ha; simp at ha
      | cons g l ih =>
        intro m a ha
        cases m with
        | nil => simp at ha
        | cons b m =>
          rw [List.zipWith_cons_cons, List.mem_cons] at ha
          rcases ha with rfl | ha
          · exact ⟨b, List.mem_cons_self, (outcome_fst g b).symm⟩
          · obtain ⟨c, hc, e⟩ := ih m a ha
            exact ⟨c, List.mem_cons_of_mem _ hc, e⟩
    simp only [decide_eq_true_eq] at hp
    rcases hm with hm | hm | hm
    · obtain ⟨b, hb, e⟩ := fst _ _ _ hm
      exact absurd (e.trans hp) (hno b (List.mem_append_left _ hb))
    · rw [hm]
      decide
    · obtain ⟨b, hb, e⟩ := fst _ _ _ hm
      exact absurd (e.trans hp) (hno b (List.mem_append_right _ hb))
  · rfl

theorem find_perm {l m : List (Str × Value)} (h : l.Perm m) (hd : (l.map Prod.fst).Nodup) (k : Str) :
    l.find? (fun a => a.1 = k) = m.find? (fun a => a.1 = k) := by
  have key : ∀ {l : List (Str × Value)}, (l.map Prod.fst).Nodup → ∀ a, l.find? (fun a => a.1 = k) = some a ↔ a ∈ l ∧ a.1 = k := by
    intro l hl a
    constructor
    · intro h
      exact ⟨List.mem_of_find?_eq_some h, by simpa using List.find?_some h⟩
    · rintro ⟨hm, he⟩
      cases hf : l.find? (fun a => a.1 = k) with
      | none =>
        rw [List.find?_eq_none] at hf
        exact absurd (by simpa using he) (hf a hm)
      | some b =>
        have hb := List.mem_of_find?_eq_some hf
        have he' : b.1 = k := by simpa using List.find?_some hf
        exact congrArg some (List.inj_on_of_nodup_map hl hb hm (he'.trans he.symm))
  have hm : (m.map Prod.fst).Nodup := (h.map Prod.fst).nodup_iff.1 hd
  cases hf : m.find? (fun a => a.1 = k) with
  | some a => exact (key hd a).2 ⟨h.mem_iff.2 ((key hm a).1 hf).1, ((key hm a).1 hf).2⟩
  | none =>
    rw [List.find?_eq_none] at hf ⊢
    intro a ha
    exact hf a (h.mem_iff.1 ha)

theorem wanted_perm {l m : List (Str × Value)} (h : l.Perm m) (hd : (l.map Prod.fst).Nodup) : wanted l = wanted m := by
  have : ∀ name v, chosen l name v = chosen m name v := by
    intro name v
    unfold chosen
    have hr : l.reverse.Perm m.reverse := (List.reverse_perm l).trans (h.trans (List.reverse_perm m).symm)
    have hdr : (l.reverse.map Prod.fst).Nodup := by rw [List.map_reverse]; exact (List.reverse_perm _).nodup_iff.2 hd
    rw [find_perm hr hdr]
  unfold wanted
  simp only [this]

/-- C111: the order of options that speak about different arguments does not matter. -/
theorem C111_any_order (gs gs' : List Given) (asked : List (Str × Value))
    (h : List.Forall₂ Asks gs asked) (hp : gs'.Perm gs) (hd : (asked.map Prod.fst).Nodup) :
    main (commandLine gs') = main (commandLine gs) := by
  by_cases hne : gs = []
  · subst hne
    rw [hp.eq_nil]
  have hdoes : List.Forall₂ Does gs (List.zipWith outcome gs asked) := by
    clear hne hd hp
    induction h with
    | nil => exact .nil
    | cons h1 _ ih => exact .cons (asks_does h1) ih
  have hfst : (List.zipWith outcome gs asked).map Prod.fst = asked.map Prod.fst := by
    clear hne hd hp hdoes
    induction h with
    | nil => rfl
    | cons h1 _ ih => rw [List.zipWith_cons_cons, List.map_cons, List.map_cons, ih, outcome_fst]
  obtain ⟨m, hm, hpm⟩ := List.perm_comp_forall₂ hp hdoes
  have hne' : gs' ≠ [] := by
    intro e; subst e
    exact hne hp.symm.eq_nil
  rw [does_main hm hne', does_main hdoes hne, wanted_perm hpm.symm (by rw [hfst]; exact hd)]

theorem consume_two {s t : Str} (l m : List Token) (d : Dict Str Value) : consume (l ++ .arg s :: .arg t :: m) d = none := by
  induction l using List.twoStepInduction generalizing d with
  | nil => rfl
  | singleton x =>
    cases x with
    | arg _ => rfl
    | unknown => rfl
    | opt o e =>
      cases e with
      | none =>
        simp only [List.cons_append, List.nil_append, consume]
        cases convert o.kind s <;> rfl
      | some e =>
        simp only [List.cons_append, List.nil_append, consume]
        cases convert o.kind e <;> rfl
  | cons_cons x y l ih1 ih2 =>
    cases x with
    | arg _ => rfl
    | unknown => rfl
    | opt o e =>
      cases e with
      | some e =>
        have := fun d => ih2 d
        simp only [List.cons_append, consume] at this ⊢
        cases convert o.kind e with
        | none => rfl
        | some v => exact ih2 y _
      | none =>
        cases y with
        | arg u =>
          simp only [List.cons_append, consume]
          cases convert o.kind u with
          | none => rfl
          | some v => exact ih1 _
        | unknown =>
          simp only [List.cons_append, consume]
          cases bare o.kind <;> rfl
        | opt o' e' =>
          rw [List.cons_append, List.cons_append]
          simp only [consume]
          cases bare o.kind with
          | none => rfl
          | some v => exact ih2 (.opt o' e') _

/-- C111: a text that belongs to no option is not overlooked: there is no calculation if two texts follow each other that are no
options, or if the first one is none. -/
theorem C111_stray_text_refused (l m : List Str) (s t : Str) (hs : s.head? ≠ some '-') (ht : t.head? ≠ some '-') :
    main (l ++ s :: t :: m) = none ∧ main (s :: m) = none := by
  constructor
  · unfold main parseArgs
    rw [if_neg (by simp), classifyAll_append]
    simp only [classifyAll, classify_arg hs, classify_arg ht, Option.bind_some]
    cases classifyAll l with
    | none => rfl
    | some a =>
      cases classifyAll m with
      | none => rfl
      | some b =>
        simp only [Option.map_some, Option.bind_some, consume_two, Option.map_none]
  · unfold main parseArgs
    rw [if_neg (by simp)]
    simp only [classifyAll, classify_arg hs, Option.bind_some]
    cases classifyAll m with
    | none => rfl
    | some b => simp only [Option.map_some, Option.bind_some, consume, Option.map_none]

/-- C111: a switch with a word that is neither on nor off is refused, whatever follows. -/
theorem C111_unknown_word_refused (gs : List Given) (asked : List (Str × Value)) (h : List.Forall₂ Asks gs asked)
    (n d t : Str) (hn : (n, d) ∈ switches) (ht : t.head? ≠ some '-') (hw : ∀ b, ¬ Word t b) (rest : List Str) :
    main (commandLine gs ++ n :: t :: rest) = none ∧ main (commandLine gs ++ (n ++ '=' :: t) :: rest) = none := by
  have hdoes : ∃ evs, List.Forall₂ Does gs evs := by
    induction h with
    | nil => exact ⟨_, .nil⟩
    | cons h1 _ ih => obtain ⟨evs, he⟩ := ih; exact ⟨_, .cons (asks_does h1) he⟩
  obtain ⟨evs, hdoes⟩ := hdoes
  obtain ⟨ts, e, _, c⟩ := does_all hdoes
  obtain ⟨o, h1, h2, h3⟩ := switch_option hn
  have hc : convert o.kind t = none := by
    have hb : str2bool t = none := by
      cases hb : str2bool t with
      | none => rfl
      | some b => exact absurd (str2bool_iff.1 hb) (hw b)
    rcases h3 with h3 | h3 <;> rw [h3] <;> simp only [convert, hb, Option.map_none]
  constructor
  · unfold main parseArgs
    rw [if_neg (by simp), classifyAll_append, e]
    simp only [classifyAll, classify_name h1, classify_arg ht, Option.bind_some]
    cases classifyAll rest with
    | none => rfl
    | some b =>
      simp only [Option.map_some, Option.bind_some]
      rw [c _ _ (fun s r e => by simp at e)]
      simp only [consume, hc, Option.bind_none, Option.map_none]
  · unfold main parseArgs
    rw [if_neg (by simp), classifyAll_append, e]
    simp only [classifyAll, classify_joined h1, Option.bind_some]
    cases classifyAll rest with
    | none => rfl
    | some b =>
      simp only [Option.map_some, Option.bind_some]
      rw [c _ _ (fun s r e => by simp at e)]
      simp only [consume, hc, Option.bind_none, Option.map_none]

/-- The names of all options. -/
def allNames : List Str := [str "-h", str "--help"] ++ (valueOptions ++ switches).map Prod.fst

theorem names_iff {n : Str} : n ∈ allNames ↔ n ∈ optionStrings.keys := by
  have h1 : ∀ n ∈ allNames, n ∈ optionStrings.keys := by decide +kernel
  have h2 : ∀ n ∈ optionStrings.keys, n ∈ allNames := by decide +kernel
  exact ⟨h1 n, h2 n⟩

theorem classifyAll_swap {p n : Str} (h : classify p = classify n) (l m : List Str) :
    classifyAll (l ++ p :: m) = classifyAll (l ++ n :: m) := by
  rw [classifyAll_append, classifyAll_append]
  simp only [classifyAll, h]

theorem classify_prefix {p : Str} (hp : str "--" <+: p) (hlen : 2 < p.length) (he : '=' ∉ p) (hno : p ∉ allNames) :
    classify p = guess p ∧ candidates p = (optionStrings.filter (fun e => p.isPrefixOf e.1)).map (fun e => (e.2, none)) := by
  obtain ⟨q, hq⟩ := hp
  have hq' : p = '-' :: '-' :: q := hq.symm
  clear hq
  subst hq'
  have hg : optionStrings.get? ('-' :: '-' :: q) = none := by
    rw [Dict.get?_eq_none_iff, ← names_iff]
    exact hno
  have hs : splitChar1 '=' ('-' :: '-' :: q) = ('-' :: '-' :: q, none) := splitChar1_none he
  constructor
  · unfold classify
    rw [if_neg (by simp), if_neg (by intro e; rw [e] at hlen; exact absurd hlen (by decide)), hg]
    simp only
    rw [if_neg (by omega)]
    unfold withValue
    rw [hs]
  · show List.map _ (List.filter _ optionStrings) = _
    rw [hs]

theorem filter_single {p n : Str} (hn : n ∈ optionStrings.keys) (hp : p <+: n)
    (hu : ∀ m ∈ optionStrings.keys, p <+: m → m = n) :
    ∃ o, optionStrings.get? n = some o ∧ optionStrings.filter (fun e => p.isPrefixOf e.1) = [(n, o)] := by
  have hnd : optionStrings.NoDupKeys := by unfold Dict.NoDupKeys; decide +kernel
  obtain ⟨⟨n', o⟩, hm, rfl⟩ := List.mem_map.1 hn
  refine ⟨o, Dict.get?_of_mem hnd hm, ?_⟩
  have key : ∀ (l : Dict Str Opt), (l.map Prod.fst).Nodup → (n', o) ∈ l → (∀ m ∈ l.map Prod.fst, p <+: m → m = n') →
      l.filter (fun e => p.isPrefixOf e.1) = [(n', o)] := by
    intro l
    induction l with
    | nil => intro _ h; simp at h
    | cons x l ih =>
      intro hd hm hu
      rw [List.map_cons, List.nodup_cons] at hd
      rw [List.mem_cons] at hm
      rcases hm with rfl | hm
      · rw [List.filter_cons_of_pos (by simpa using hp)]
        congr 1
        rw [List.filter_eq_nil_iff]
        intro e he hpe
        have := hu e.1 (List.mem_cons_of_mem _ (List.mem_map_of_mem he)) (by simpa using hpe)
        have h2 : e.1 ∈ l.map Prod.fst := List.mem_map_of_mem he
        rw [this] at h2
        exact hd.1 h2
      · have hx : ¬ (p.isPrefixOf x.1 = true) := by
          intro hpx
          have := hu x.1 (by simp) (by simpa using hpx)
          have h2 : n' ∈ l.map Prod.fst := List.mem_map_of_mem hm
          rw [← this] at h2
          exact hd.1 h2
        rw [List.filter_cons_of_neg (by simpa using hx)]
        exact ih hd.2 hm (fun m hm => hu m (by rw [List.map_cons]; exact List.mem_cons_of_mem _ hm))
  exact key _ hnd hm hu

theorem classify_prefix_value {p t : Str} (hp : str "--" <+: p) (he : '=' ∉ p) (hno : p ∉ allNames) :
    classify (p ++ '=' :: t) = guess (p ++ '=' :: t) ∧
    candidates (p ++ '=' :: t) = (optionStrings.filter (fun e => p.isPrefixOf e.1)).map (fun e => (e.2, some t)) := by
  obtain ⟨q, hq⟩ := hp
  have hq' : p = '-' :: '-' :: q := hq.symm
  clear hq
  subst hq'
  have hg : optionStrings.get? ('-' :: '-' :: q) = none := by
    rw [Dict.get?_eq_none_iff, ← names_iff]
    exact hno
  have hs : splitChar1 '=' ('-' :: '-' :: q ++ '=' :: t) = ('-' :: '-' :: q, some t) := splitChar1_sep he
  have hg' : optionStrings.get? ('-' :: '-' :: q ++ '=' :: t) = none := by
    cases hg : optionStrings.get? ('-' :: '-' :: q ++ '=' :: t) with
    | none => rfl
    | some o' => exact absurd (by simp : '=' ∈ '-' :: '-' :: q ++ '=' :: t) (name_shape hg).2.1
  have hne : '-' :: '-' :: q ++ '=' :: t ≠ str "--" := by
    intro e
    have h1 : '=' ∈ str "--" := by rw [← e]; simp
    exact absurd h1 (by decide)
  constructor
  · unfold classify
    rw [if_neg (by simp), if_neg hne, hg']
    simp only
    rw [if_neg (by simp)]
    unfold withValue
    rw [hs]
    simp only [hg]
  · have hs' : splitChar1 '=' ('-' :: '-' :: (q ++ '=' :: t)) = ('-' :: '-' :: q, some t) := hs
    show (optionStrings.filter (fun e => (splitChar1 '=' ('-' :: '-' :: (q ++ '=' :: t))).1.isPrefixOf e.1)).map
      (fun e => (e.2, (splitChar1 '=' ('-' :: '-' :: (q ++ '=' :: t))).2)) = _
    rw [hs']

/-- C111: the beginning of the name of an option stands for the option if no other one begins like this. -/
theorem C111_abbreviation (p n : Str) (hp : str "--" <+: p) (hlen : 2 < p.length) (hn : n ∈ allNames) (hpn : p <+: n)
    (hu : ∀ m ∈ allNames, p <+: m → m = n) (l m : List Str) :
    main (l ++ p :: m) = main (l ++ n :: m) ∧ ∀ t, main (l ++ (p ++ '=' :: t) :: m) = main (l ++ (n ++ '=' :: t) :: m) := by
  by_cases hex : p ∈ allNames
  · rw [hu p hex (List.prefix_refl p)]
    exact ⟨rfl, fun _ => rfl⟩
  have hn' := names_iff.1 hn
  obtain ⟨o, h1, h2⟩ := filter_single hn' hpn (fun m hm => hu m (names_iff.2 hm))
  have he : '=' ∉ p := fun h => (name_shape h1).2.1 (hpn.subset h)
  obtain ⟨e1, e2⟩ := classify_prefix hp hlen he hex
  have hswap : ∀ a b : Str, classify a = classify b → main (l ++ a :: m) = main (l ++ b :: m) := by
    intro a b hab
    unfold main parseArgs
    rw [if_neg (by simp), if_neg (by simp), classifyAll_swap hab]
  constructor
  · apply hswap
    rw [e1, classify_name h1]
    unfold guess
    rw [e2, h2]
    rfl
  · intro t
    apply hswap
    obtain ⟨e3, e4⟩ := classify_prefix_value (t := t) hp he hex
    rw [e3, classify_joined h1]
    unfold guess
    rw [e4, h2]
    rfl

/-- C111: a beginning that fits several options is refused, and so is a long name that fits none. -/
theorem C111_unclear_refused (p : Str) (hp : str "--" <+: p) (hlen : 2 < p.length) (he : '=' ∉ p) (hsp : ' ' ∉ p) (hno : p ∉ allNames)
    (hu : ¬ ∃ n ∈ allNames, p <+: n ∧ ∀ m ∈ allNames, p <+: m → m = n) (l m : List Str) : main (l ++ p :: m) = none := by
  obtain ⟨e1, e2⟩ := classify_prefix hp hlen he hno
  have hc : classify p = some .unknown ∨ classify p = none := by
    rw [e1]
    unfold guess
    rw [e2]
    cases hf : optionStrings.filter (fun e => p.isPrefixOf e.1) with
    | nil =>
      left
      have hneg : negativeNumber p = false := by
        obtain ⟨q, rfl⟩ := hp
        show negativeNumber ('-' :: '-' :: q) = false
        have hd : Char.isDigit '-' = false := by decide
        simp only [negativeNumber, List.all_cons, hd, Bool.false_and, Bool.and_false, Bool.false_or]
        rw [splitChar1]
        simp only [show ('-' : Char) ≠ '.' by decide, if_false]
        split
        · rename_i a b hab
          have : a = '-' :: (splitChar1 '.' q).1 := (congrArg Prod.fst hab).symm
          rw [this, List.all_cons, hd]
          rfl
        · rfl
      have hsp' : hasChar ' ' p = false := by
        unfold hasChar
        simpa using hsp
      simp [hneg, hsp']
    | cons x t =>
      cases t with
      | nil =>
        exfalso
        have hx : x ∈ optionStrings.filter (fun e => p.isPrefixOf e.1) := by rw [hf]; simp
        rw [List.mem_filter] at hx
        apply hu
        refine ⟨x.1, names_iff.2 (List.mem_map_of_mem hx.1), by simpa using hx.2, ?_⟩
        intro m hm hpm
        obtain ⟨y, hy, rfl⟩ := List.mem_map.1 (names_iff.1 hm)
        have : y ∈ optionStrings.filter (fun e => p.isPrefixOf e.1) := List.mem_filter.2 ⟨hy, by simpa using hpm⟩
        rw [hf, List.mem_singleton] at this
        rw [this]
      | cons y t => right; rfl
  unfold main parseArgs
  rw [if_neg (by simp), classifyAll_append]
  cases classifyAll l with
  | none => rfl
  | some a =>
    rcases hc with hc | hc
    · simp only [classifyAll, hc, Option.bind_some]
      cases classifyAll m with
      | none => rfl
      | some b =>
        simp only [Option.map_some, Option.bind_some]
        have : ∀ (a b : List Token) d, consume (a ++ .unknown :: b) d = none := by
          intro a b
          induction a using List.twoStepInduction with
          | nil => intro d; rfl
          | singleton x =>
            intro d
            cases x with
            | arg _ => rfl
            | unknown => rfl
            | opt o e =>
              cases e with
              | none => simp only [List.cons_append, List.nil_append, consume]; cases bare o.kind <;> rfl
              | some e => simp only [List.cons_append, List.nil_append, consume]; cases convert o.kind e <;> rfl
          | cons_cons x y a ih1 ih2 =>
            intro d
            cases x with
            | arg _ => rfl
            | unknown => rfl
            | opt o e =>
              cases e with
              | some e =>
                simp only [List.cons_append, consume]
                cases convert o.kind e with
                | none => rfl
                | some v => exact ih2 y _
              | none =>
                cases y with
                | arg u =>
                  simp only [List.cons_append, consume]
                  cases convert o.kind u with
                  | none => rfl
                  | some v => exact ih1 _
                | unknown =>
                  simp only [List.cons_append, consume]
                  cases bare o.kind <;> rfl
                | opt o' e' =>
                  rw [List.cons_append, List.cons_append]
                  simp only [consume]
                  cases bare o.kind with
                  | none => rfl
                  | some v => exact ih2 (.opt o' e') _
        rw [this]
        rfl
    · simp only [classifyAll, hc, Option.bind_none]
      rfl

theorem isSubtext_iff (sub s : Str) : isSubtext sub s = true ↔ sub <:+: s := by
  induction s with
  | nil => simp [isSubtext]
  | cons c s ih => rw [isSubtext, Bool.or_eq_true, ih, List.infix_cons_iff, List.isPrefixOf_iff_prefix]

open ToolConfig in
/-- C111: `--output_format` asks for the formats whose name, in small letters, is somewhere in its text; a format in the configuration
does not count then.  So `CSV` asks for no format at all. -/
theorem C111_formats (np22 : Bool) (ds : Defaults) (fmt : Config.Js → Str)
    (scripts : Except PyErr ((Config.Fields → Except PyErr Config.Fields) × List (Config.Fields → Except PyErr Config.Fields)))
    (c c' : Config.Fields) (o : Config.Js) (r : Run) (f1 f2 t : Str) (csv json : Bool) (hr : r.format = .text t)
    (hcsv : csv = true ↔ str "csv" <:+: t) (hjson : json = true ↔ str "json" <:+: t)
    (hDL : ToolConfig.Given np22 c "DL") (ho : Outputs np22 ds c o)
    (h : parseConfig np22 ds (toCall r f1 f2) fmt scripts c = .ok (some c')) :
    val c' "DL/Outputs/Format" = formatValue csv json := by
  have hc := C106_completed np22 ds (toCall r f1 f2) fmt scripts c c' hDL h
  have := (hc.outputs o ho).2.2.2.2.1
  have hf : (toCall r f1 f2).format = some (formats t) := by
    simp [toCall, hr, valueText?]
  rw [hf] at this
  simp only at this
  rw [this]
  have e1 : decide (str "csv" ∈ formats t) = csv := by
    rw [Bool.eq_iff_iff, decide_eq_true_eq, hcsv, ← isSubtext_iff]
    simp [formats]
  have e2 : decide (str "json" ∈ formats t) = json := by
    rw [Bool.eq_iff_iff, decide_eq_true_eq, hjson, ← isSubtext_iff]
    simp [formats]
  rw [e1, e2]

open ToolConfig in
/-- C111: with a configuration that has an entry `DL`, the options `--Realizations`, `--coupled_EDP`
and `--detailed_results` have no effect. -/
theorem C111_options_not_used (np22 : Bool) (ds : Defaults) (fmt : Config.Js → Str)
    (scripts : Except PyErr ((Config.Fields → Except PyErr Config.Fields) × List (Config.Fields → Except PyErr Config.Fields)))
    (c : Config.Fields) (r r' : Run) (f1 f2 : Str) (hDL : ToolConfig.Given np22 c "DL")
    (hd : r.demandFile = r'.demandFile) (hf : r.format = r'.format) :
    parseConfig np22 ds (toCall r f1 f2) fmt scripts c = parseConfig np22 ds (toCall r' f1 f2) fmt scripts c := by
  have h1 : ∀ a a' : Call, a.demandFile = a'.demandFile → fillDemand np22 a c = fillDemand np22 a' c := by
    intro a a' e
    unfold fillDemand Call.demand
    rw [e]
  have h2 : ∀ (a a' : Call) c, a.format = a'.format → a.responseFile = a'.responseFile → finish np22 ds a c = finish np22 ds a' c := by
    intro a a' c e er
    have e' : outputDefaults np22 ds a = outputDefaults np22 ds a' := by
      funext c
      unfold outputDefaults overrideFormat
      rw [e]
    have e'' : optionDefaults np22 a = optionDefaults np22 a' := by
      funext c
      unfold optionDefaults
      rw [er]
    unfold finish
    rw [e', e'']
  have e1 : (toCall r f1 f2).demandFile = (toCall r' f1 f2).demandFile := by simp [toCall, hd]
  have e2 : (toCall r f1 f2).format = (toCall r' f1 f2).format := by simp [toCall, hf]
  have hg := fun c0 (h : fillDemand np22 (toCall r f1 f2) c = .ok c0) => filled_given hDL ((fillDemand_ok hDL c0).1 h)
  unfold parseConfig
  rw [← h1 _ _ e1]
  cases hfd : fillDemand np22 (toCall r f1 f2) c with
  | error e => rfl
  | ok c0 =>
    have := (given_iff ..).1 (hg c0 hfd)
    simp only [bind, Except.bind, this]
    rw [h2 _ _ c0 e2 rfl]
    rfl

open ToolConfig in
/-- C111: a calculation that generates its configuration and is started with `--coupled_EDP` without a value fits a distribution to the
demands instead of using them as they are. -/
theorem C111_coupled_flag_calibrates (np22 : Bool) (ds : Defaults) (fmt : Config.Js → Str)
    (scripts : Except PyErr ((Config.Fields → Except PyErr Config.Fields) × List (Config.Fields → Except PyErr Config.Fields)))
    (c c' : Config.Fields) (f1 f2 : Str) (gs gs' : List Given) (asked asked' : List (Str × Value))
    (h : List.Forall₂ Asks gs asked) (h' : List.Forall₂ Asks gs' asked')
    (hno : ∀ a ∈ asked ++ asked', a.1 ≠ str "coupled_EDP") (r : Run)
    (hr : main (commandLine (gs ++ .alone (str "--coupled_EDP") :: gs')) = some r)
    (hDL : Missing np22 c "DL") (hp : parseConfig np22 ds (toCall r f1 f2) fmt scripts c = .ok (some c')) :
    val c' "DL/Demands/Calibration/ALL/DistributionFamily" = text (str "lognormal") := by
  obtain ⟨r', hr', hc⟩ := C111_coupled_flag_ignored gs gs' asked asked' h h' hno
  rw [hr] at hr'
  cases hr'
  refine (C106_generated np22 ds (toCall r f1 f2) fmt scripts c c' hDL hp).2.2.2.1 ?_
  simp [toCall, hc]

open ToolConfig in
/-- C111: a calculation whose configuration names no demands uses those of `--demandFile`; it is refused without this option. -/
theorem C111_demands (np22 : Bool) (ds : Defaults) (fmt : Config.Js → Str)
    (scripts : Except PyErr ((Config.Fields → Except PyErr Config.Fields) × List (Config.Fields → Except PyErr Config.Fields)))
    (c : Config.Fields) (r : Run) (f1 f2 : Str) (hDL : ToolConfig.Given np22 c "DL") (hd : Missing np22 c "DL/Demands/DemandFilePath") :
    (r.demandFile = .missing → parseConfig np22 ds (toCall r f1 f2) fmt scripts c = .error .invalidConfigError) ∧
    (∀ t c', r.demandFile = .text t → parseConfig np22 ds (toCall r f1 f2) fmt scripts c = .ok (some c') →
      val c' "DL/Demands/DemandFilePath" = text t) := by
  constructor
  · intro h
    exact C106_response_file_not_used np22 ds _ fmt scripts c hDL hd (by simp [toCall, h, valueText?])
  · intro t c' h hp
    obtain ⟨s, hs, hv⟩ := (C106_completed np22 ds _ fmt scripts c c' hDL hp).demand.2 hd
    have : s = t := by
      have h2 : (toCall r f1 f2).demandFile = some t := by simp [toCall, h, valueText?]
      rw [h2] at hs
      exact (Option.some.inj hs).symm
    rw [hv, this]

/-! ## Examples -/

/-- A command line in three forms. -/
def exampleLine : List Given := [.separate (str "-c") (str "input.json"), .alone (str "--detailed_results"),
  .joined (str "--coupled_EDP") (str "Yes"), .separate (str "--Realizations") (str "500")]

def exampleAsked : List (Str × Value) := [(str "filenameDL", .text (str "input.json")), (str "detailed_results", .flag true),
  (str "coupled_EDP", .flag true), (str "Realizations", .text (str "500"))]

theorem example_asks : List.Forall₂ Asks exampleLine exampleAsked := by
  refine .cons ⟨by decide, .inl ⟨by decide, rfl⟩⟩ (.cons ⟨by decide, rfl⟩ (.cons (.inr ⟨by decide, true, .inl ⟨rfl, ?_⟩, rfl⟩)
    (.cons ⟨by decide, .inl ⟨by decide, rfl⟩⟩ .nil)))
  decide +kernel

/-- the hypotheses of `C111_options_partial`, and the result -/
example : ∃ r, main (commandLine exampleLine) = some r ∧ r.configPath = .text (str "input.json") ∧ r.coupled = .flag true ∧
    r.demandFile = .missing :=
  ⟨_, C111_options_partial exampleLine exampleAsked example_asks (by simp [exampleLine]) (by
    intro n hn
    simp only [exampleLine, List.mem_cons, List.not_mem_nil, or_false, reduceCtorEq, false_or] at hn
    exact .inl (Given.alone.inj hn)), by decide +kernel, by decide +kernel, by decide +kernel⟩

/-- `C111_any_order`: the arguments are distinct -/
example : (exampleAsked.map Prod.fst).Nodup := by decide +kernel

/-- `C111_coupled_flag_ignored`: a configuration and the switch -/
example : ∃ r, main [str "-c", str "input.json", str "--coupled_EDP"] = some r ∧ r.coupled = .flag false := by
  have := C111_coupled_flag_ignored [.separate (str "-c") (str "input.json")] [] [(str "filenameDL", .text (str "input.json"))] []
    (.cons ⟨by decide, .inl ⟨by decide, rfl⟩⟩ .nil) .nil (by decide)
  exact this

/-- `C111_abbreviation`: `--out` stands for `--output_format` -/
example (l m : List Str) : main (l ++ str "--out" :: m) = main (l ++ str "--output_format" :: m) :=
  (C111_abbreviation _ _ ⟨str "out", rfl⟩ (by decide) (by decide +kernel) ⟨str "put_format", rfl⟩ (by decide +kernel) l m).1

/-- `C111_unclear_refused`: `--d` fits `--demandFile`, `--dirnameOutput` and `--detailed_results` -/
example (l m : List Str) : main (l ++ str "--d" :: m) = none :=
  C111_unclear_refused _ ⟨str "d", rfl⟩ (by decide) (by decide) (by decide) (by decide +kernel) (by decide +kernel) l m

/-- `C111_unknown_word_refused`: `on` is no word for a switch -/
example : ∀ b, ¬ Word (str "on") b := by
  intro b
  cases b <;> simp only [Word] <;> decide +kernel

/-- `C111_formats`: `CSV` contains neither name -/
example : (false = true ↔ str "csv" <:+: str "CSV") ∧ (false = true ↔ str "json" <:+: str "CSV") := by
  rw [← isSubtext_iff, ← isSubtext_iff]
  decide +kernel

end Verif.CommandLine
