import Verif.Model.DlmlTarget
import Verif.Lemmas.PyNum
import Verif.Props.Dlml
import Mathlib.Data.List.TakeWhile

/-!
# C112: the commit and the files of an update of the model library
-/

namespace Verif.DlmlTarget

open Verif.DlmlCheck (validSha Request)

/-! ## Specification -/

/-- What a tag points to: a commit, or an object of its own with a text, which points to something again. -/
inductive Target where
  | commit (sha : Str)
  | object (sha : Str)
deriving DecidableEq

/-- A repository: its tags, the objects of tags, its releases with their branches, the latest release and the commits, newest first. -/
structure Repo where
  tags : Str → Option Target
  objects : Str → Option Target
  released : Str → Bool
  branch : Str → Str
  latest : Option Str
  commits : List Str

def Target.sha : Target → Str
  | .commit s => s
  | .object s => s

def Target.type : Target → Str
  | .commit _ => str "commit"
  | .object _ => str "tag"

/-- The server answers these requests as the repository is. -/
structure Releases (repo : Repo) (api : Api) : Prop where
  tag : ∀ v, api.release (some v) = if repo.released v then some (some v, some (repo.branch v)) else none
  latest : api.release none = repo.latest.map (fun v => (some v, some (repo.branch v)))
  commits : api.commits = some repo.commits

/-- The server answers the requests for tags as the repository is. -/
structure Tags (repo : Repo) (api : Api) : Prop where
  ref : ∀ t x, repo.tags t = some x → api.ref t = some (some x.sha, some x.type)
  object : ∀ o x, repo.objects o = some x → api.tagObject o = some (some x.sha)

/-- The commit that a tag stands for, directly or by an object of its own. -/
inductive StandsFor (repo : Repo) (tag sha : Str) : Prop
  | direct (h : repo.tags tag = some (.commit sha))
  | annotated (o : Str) (h : repo.tags tag = some (.object o)) (ho : repo.objects o = some (.commit sha))

/-- Seven hexadecimal digits. -/
def SevenDigits (s : Str) : Prop := s.length = 7 ∧ ∀ c ∈ s, c ∈ str "0123456789abcdefABCDEF"

/-! ## Proofs -/

theorem tagCommit_ok {repo : Repo} {api : Api} (ht : Tags repo api) {tag sha : Str} (h : StandsFor repo tag sha) (f : Option Str) :
    tagCommit api tag f = some sha := by
  unfold tagCommit
  cases h with
  | direct h =>
    rw [ht.ref _ _ h]
    simp only [Target.type, Target.sha, if_true]
  | annotated o h ho =>
    rw [ht.ref _ _ h]
    simp only [Target.type, Target.sha]
    rw [if_neg (by decide), if_pos trivial]
    simp only [Option.getD_some, ht.object _ _ ho, Target.sha]

theorem resolve_version {api : Api} {v tag sha : Str} {t : Option Str}
    (hr : api.release (if (if v = [] then str "latest" else v) = str "latest" then none else some (if v = [] then str "latest" else v)) = some (some tag, t))
    (hc : tagCommit api tag t = some sha) (hne : sha ≠ []) :
    resolve api (.version v) = .ok (sha, if v ≠ str "latest" then v else tag) := by
  unfold resolve
  simp only [hr, Option.getD_some, hc]
  cases sha with
  | nil => exact absurd rfl hne
  | cons c h => rfl

theorem request_version {v : Str} (h : ¬ str "commit " <+: v) : request v = .version v := by
  unfold request
  rw [if_neg (by rw [List.isPrefixOf_iff_prefix]; exact h)]

theorem request_commit (s : Str) : request (str "commit " ++ s) = .commit s := by
  unfold request
  rw [if_pos (by rw [List.isPrefixOf_iff_prefix]; exact List.prefix_append _ _)]
  have : str "commit " ++ s = str "commit" ++ ' ' :: s := rfl
  rw [this, splitChar1_sep (by decide)]
  rfl

theorem hex_iff (c : Char) : ((('0' ≤ c && c ≤ '9') || ('a' ≤ c && c ≤ 'f') || ('A' ≤ c && c ≤ 'F')) = true) ↔
    c ∈ str "0123456789abcdefABCDEF" := by
  constructor
  · intro h
    simp only [Bool.or_eq_true, Bool.and_eq_true, decide_eq_true_eq, Char.le_def] at h
    have hn : (48 ≤ c.toNat ∧ c.toNat ≤ 57) ∨ (97 ≤ c.toNat ∧ c.toNat ≤ 102) ∨ (65 ≤ c.toNat ∧ c.toNat ≤ 70) := by
      rcases h with (⟨h1, h2⟩ | ⟨h1, h2⟩) | ⟨h1, h2⟩
      · exact .inl ⟨h1, h2⟩
      · exact .inr (.inl ⟨h1, h2⟩)
      · exact .inr (.inr ⟨h1, h2⟩)
    have hof : c = Char.ofNat c.toNat := (Char.ofNat_toNat c).symm
    rw [hof]
    generalize c.toNat = n at hn
    clear hof h c
    have : n ∈ [48,49,50,51,52,53,54,55,56,57,97,98,99,100,101,102,65,66,67,68,69,70] := by
      simp only [List.mem_cons, List.not_mem_nil, or_false]
      omega
    clear hn
    revert n
    decide +kernel
  · revert c
    decide +kernel

theorem validSha_iff {s : Str} (hn : '\n' ∉ s) (hl : s ≠ str "latest") : validSha s = true ↔ SevenDigits s := by
  unfold validSha SevenDigits
  have h8 : (s.getLast? = some '\n') = False := by
    rw [eq_iff_iff, iff_false]
    intro h
    exact hn (List.mem_of_getLast? h)
  simp only [hl, decide_false, Bool.false_or, h8, Bool.and_false, Bool.or_false, Bool.and_eq_true, decide_eq_true_eq, List.all_eq_true]
  constructor
  · rintro ⟨h1, h2⟩
    refine ⟨h1, fun c hc => (hex_iff c).1 (h2 c ?_)⟩
    rw [List.take_of_length_le (by omega)]
    exact hc
  · rintro ⟨h1, h2⟩
    refine ⟨h1, fun c hc => (hex_iff c).2 (h2 c (List.mem_of_mem_take hc))⟩

/-! ## Theorems -/

/-- **C112 (releases).** An update to a release, or to the latest one, is made to the commit that the tag of the release stands for.
The server answers all requests.  Missing: tags that point to other tags (`C112_nested_tag`), and requests for tags that fail
(`C112_branch_instead`). -/
theorem C112_release_partial (repo : Repo) (api : Api) (hr : Releases repo api) (ht : Tags repo api) (tag sha : Str)
    (hs : StandsFor repo tag sha) (hne : sha ≠ []) :
    (tag ≠ [] → tag ≠ str "latest" → ¬ str "commit " <+: tag → repo.released tag = true → resolve api (request tag) = .ok (sha, tag)) ∧
    (repo.latest = some tag → resolve api (request (str "latest")) = .ok (sha, tag)) := by
  constructor
  · intro h1 h2 h3 h4
    rw [request_version h3]
    have := resolve_version (api := api) (v := tag) (tag := tag) (t := some (repo.branch tag)) (sha := sha)
      (by rw [if_neg h1, if_neg h2, hr.tag, h4]; rfl) (tagCommit_ok ht hs _) hne
    rw [if_pos h2] at this
    exact this
  · intro h1
    rw [request_version (by decide)]
    have := resolve_version (api := api) (v := str "latest") (tag := tag) (t := some (repo.branch tag)) (sha := sha)
      (by rw [if_pos (by decide), hr.latest, h1]; rfl) (tagCommit_ok ht hs _) hne
    rw [if_neg (by simp)] at this
    exact this

/-- C112: an update to something that is no release is refused, whatever the server answers otherwise. -/
theorem C112_unknown_release_refused (repo : Repo) (api : Api) (hr : Releases repo api) (v : Str) (h1 : v ≠ []) (h2 : v ≠ str "latest")
    (h3 : ¬ str "commit " <+: v) (h4 : repo.released v = false) : resolve api (request v) = .error .runtimeError := by
  rw [request_version h3]
  unfold resolve
  simp only [h1, h2, if_false, hr.tag, h4, Bool.false_eq_true]

/-- **C112 (commits).** An update to `commit s` is made to the commit `s`, if `s` is seven hexadecimal digits, or to the newest one for
`commit latest`; others are refused. -/
theorem C112_commit (repo : Repo) (api : Api) (hr : Releases repo api) (s h name : Str) (hn : '\n' ∉ s) :
    resolve api (request (str "commit " ++ s)) = .ok (h, name) ↔
      ((s = str "latest" ∧ repo.commits.head? = some h) ∨ (SevenDigits s ∧ h = s)) ∧ name = str "commit-" ++ h.take 7 := by
  rw [request_commit]
  unfold resolve
  by_cases hl : s = str "latest"
  · subst hl
    have h7 : ¬ SevenDigits (str "latest") := by rintro ⟨h, _⟩; revert h; decide
    simp only [ne_eq, not_true_eq_false, false_and, if_false, if_true, hr.commits, h7, or_false, true_and]
    cases repo.commits with
    | nil => simp
    | cons c l =>
      simp only [Except.ok.injEq, Prod.mk.injEq, List.head?_cons, Option.some.injEq]
      constructor
      · rintro ⟨rfl, rfl⟩; exact ⟨rfl, rfl⟩
      · rintro ⟨rfl, rfl⟩; exact ⟨rfl, rfl⟩
  · have hv := validSha_iff hn hl
    simp only [ne_eq, hl, not_false_eq_true, true_and, if_false, false_and, false_or]
    by_cases h7 : SevenDigits s
    · rw [if_neg (by rw [hv.2 h7]; simp)]
      simp only [h7, true_and, Except.ok.injEq, Prod.mk.injEq]
      constructor
      · rintro ⟨rfl, rfl⟩; exact ⟨rfl, rfl⟩
      · rintro ⟨rfl, rfl⟩; exact ⟨rfl, rfl⟩
    · have hf : validSha s = false := by
        cases hb : validSha s with
        | false => rfl
        | true => exact absurd (hv.1 hb) h7
      rw [if_pos hf]
      simp [h7]

/-- C112: full names of commits (forty digits) are refused, and so are short ones like the one in the help text of the command. -/
theorem C112_other_lengths_refused (api : Api) (s : Str) (hl : s ≠ str "latest") (h7 : s.length ≠ 7) (h8 : s.length ≠ 8) :
    resolve api (request (str "commit " ++ s)) = .error .runtimeError := by
  rw [request_commit]
  unfold resolve
  simp only
  rw [if_pos]
  refine ⟨hl, ?_⟩
  unfold validSha
  simp [hl, h7, h8]

/-- The server does not say what the tag stands for: the request for the tag, or the one for its object, fails. -/
def NoAnswer (api : Api) (tag : Str) : Prop :=
  api.ref tag = none ∨ ∃ o, api.ref tag = some (some o, some (str "tag")) ∧ api.tagObject o = none

theorem tagCommit_noAnswer {api : Api} {tag : Str} (h : NoAnswer api tag) (f : Option Str) : tagCommit api tag f = f := by
  unfold tagCommit
  rcases h with h | ⟨o, h, ho⟩
  · rw [h]
  · rw [h]
    simp only
    rw [if_neg (by decide), if_pos trivial]
    simp only [Option.getD_some, ho]

/-- C112: if the request for the tag of a release fails, the update is made to the branch of the release, which is another commit in
general; without a branch it is refused. -/
theorem C112_branch_instead (repo : Repo) (api : Api) (hr : Releases repo api) (tag : Str) (h1 : tag ≠ []) (h2 : tag ≠ str "latest")
    (h3 : ¬ str "commit " <+: tag) (h4 : repo.released tag = true) (hf : NoAnswer api tag) :
    resolve api (request tag) = if repo.branch tag = [] then .error .runtimeError else .ok (repo.branch tag, tag) := by
  rw [request_version h3]
  by_cases hb : repo.branch tag = []
  · rw [if_pos hb]
    unfold resolve
    simp only [h1, h2, if_false, hr.tag, h4, if_true, hb, Option.getD_some]
    rw [tagCommit_noAnswer hf]
  · rw [if_neg hb]
    have := resolve_version (api := api) (v := tag) (tag := tag) (t := some (repo.branch tag)) (sha := repo.branch tag)
      (by rw [if_neg h1, if_neg h2, hr.tag, h4]; rfl) (tagCommit_noAnswer hf _) hb
    rw [if_pos h2] at this
    exact this

/-- C112: of a tag that points to another tag, the object of the other tag is taken for the commit. -/
theorem C112_nested_tag (repo : Repo) (api : Api) (hr : Releases repo api) (ht : Tags repo api) (tag o o' : Str) (h1 : tag ≠ [])
    (h2 : tag ≠ str "latest") (h3 : ¬ str "commit " <+: tag) (h4 : repo.released tag = true) (ho : repo.tags tag = some (.object o))
    (ho' : repo.objects o = some (.object o')) (hne : o' ≠ []) : resolve api (request tag) = .ok (o', tag) := by
  rw [request_version h3]
  have hc : tagCommit api tag (some (repo.branch tag)) = some o' := by
    unfold tagCommit
    rw [ht.ref _ _ ho]
    simp only [Target.type, Target.sha]
    rw [if_neg (by decide), if_pos trivial]
    simp only [Option.getD_some, ht.object _ _ ho', Target.sha]
  have := resolve_version (api := api) (v := tag) (tag := tag) (t := some (repo.branch tag)) (sha := o')
    (by rw [if_neg h1, if_neg h2, hr.tag, h4]; rfl) hc hne
  rw [if_pos h2] at this
  exact this

section

variable {P C H : Type} [DecidableEq P] [DecidableEq C] [DecidableEq H]

/-- C112: an update to a release without the cache makes the library the one of the commit of the release. -/
theorem C112_library (repo : Repo) (api : Api) (hr : Releases repo api) (ht : Tags repo api) (r : Dlml.Remote Str P C) (hash : C → H)
    (hi : Function.Injective hash) (answers : Bool) (tag sha : Str) (hs : StandsFor repo tag sha) (hne : sha ≠ []) (h1 : tag ≠ [])
    (h2 : tag ≠ str "latest") (h3 : ¬ str "commit " <+: tag) (h4 : repo.released tag = true) (d : Dlml.Disk Str P C H) :
    ∃ d', updateTo api r hash answers false tag d = .ok d' ∧ Dlml.Complete r sha d' := by
  refine ⟨Dlml.update r hash answers false sha d, ?_, Dlml.C73_uncached r hash hi answers sha d⟩
  unfold updateTo
  rw [(C112_release_partial repo api hr ht tag sha hs hne).1 h1 h2 h3 h4]

/-- C112: a cached update to a release after any history of the data folder, if the commits are on one line of history and another commit
was cached before. -/
theorem C112_library_cached (repo : Repo) (api : Api) (hr : Releases repo api) (ht : Tags repo api) (r : Dlml.Remote Str P C) (hash : C → H)
    (hi : Function.Injective hash) (hl : Dlml.Linear r) (answers : Bool) (tag sha : Str) (hs : StandsFor repo tag sha) (hne : sha ≠ []) (h1 : tag ≠ [])
    (h2 : tag ≠ str "latest") (h3 : ¬ str "commit " <+: tag) (h4 : repo.released tag = true) (es : List (Dlml.Event Str P C))
    (hc : Dlml.NotCached (es.foldl (Dlml.apply r hash) (Dlml.fresh : Dlml.Disk Str P C H)) sha) :
    ∃ d', updateTo api r hash answers true tag (es.foldl (Dlml.apply r hash) (Dlml.fresh : Dlml.Disk Str P C H)) = .ok d' ∧ Dlml.Complete r sha d' := by
  refine ⟨_, ?_, (Dlml.C73_history_partial r hash hi hl es answers sha hc).1⟩
  unfold updateTo
  rw [(C112_release_partial repo api hr ht tag sha hs hne).1 h1 h2 h3 h4]
  rfl

/-- C112: after an update that was made to a branch, a later one does nothing, even if the branch has moved: `r` is the repository at the
time of the first one, `r'` later.  Files that have changed keep their old content. -/
theorem C112_branch_stale (repo : Repo) (api : Api) (hr : Releases repo api) (r r' : Dlml.Remote Str P C) (hash : C → H)
    (hi : Function.Injective hash) (n n' : Bool) (tag : Str) (h1 : tag ≠ [])
    (h2 : tag ≠ str "latest") (h3 : ¬ str "commit " <+: tag) (h4 : repo.released tag = true) (hf : NoAnswer api tag) (hb : repo.branch tag ≠ [])
    (p : P) (hp : p ∈ r.manifest (repo.branch tag)) (hch : r.content (repo.branch tag) p ≠ r'.content (repo.branch tag) p) :
    ∃ d d', updateTo api r hash n true tag (Dlml.fresh : Dlml.Disk Str P C H) = .ok d ∧ updateTo api r' hash n' true tag d = .ok d' ∧
      d'.files p = some (r.content (repo.branch tag) p) ∧ d'.files p ≠ some (r'.content (repo.branch tag) p) := by
  have hres := C112_branch_instead repo api hr tag h1 h2 h3 h4 hf
  rw [if_neg hb] at hres
  refine ⟨Dlml.update r hash n true (repo.branch tag) Dlml.fresh, Dlml.update r hash n true (repo.branch tag) Dlml.fresh, ?_, ?_, ?_⟩
  · unfold updateTo; rw [hres]
  · unfold updateTo; rw [hres]
    simp only
    congr 1
    have hcache : ∃ fs, (Dlml.update r hash n true (repo.branch tag) (Dlml.fresh : Dlml.Disk Str P C H)).cache = some (repo.branch tag, fs) :=
      ⟨_, by simp [Dlml.update, Dlml.upToDate, Dlml.fresh]; rfl⟩
    obtain ⟨fs, hfs⟩ := hcache
    exact Dlml.C73_same_commit_does_nothing r' hash n' _ fs _ hfs
  · have hno : (Dlml.update r hash n true (repo.branch tag) (Dlml.fresh : Dlml.Disk Str P C H)).files p = some (r.content (repo.branch tag) p) := by
      have hspec := (Dlml.update_spec r hash hi n true (repo.branch tag) (Dlml.fresh : Dlml.Disk Str P C H)
        (fun _ ch h => by simp [Dlml.reported, Dlml.fresh] at h) rfl).1
      exact hspec.2 p hp
    rw [hno]
    exact ⟨rfl, fun e => hch (Option.some.inj e)⟩

end

theorem strip_nil_iff (p : Char → Bool) (s : Str) : strip p s = [] ↔ ∀ c ∈ s, p c = true := by
  unfold strip rstrip lstrip
  rw [List.reverse_eq_nil_iff, List.dropWhile_eq_nil_iff]
  constructor
  · intro h
    by_contra hc
    have hne : s.dropWhile p ≠ [] := by
      intro e
      rw [List.dropWhile_eq_nil_iff] at e
      exact hc e
    have hh := List.head_dropWhile_not p hne
    have := h _ (List.mem_reverse.2 (List.head_mem hne))
    rw [this] at hh
    cases hh
  · intro h c hc
    exact h c ((List.dropWhile_sublist p).subset (List.mem_reverse.1 hc))

theorem hash_iff (l : Str) : (str "#").isPrefixOf l = true ↔ l.head? = some '#' := by
  rw [List.isPrefixOf_iff_prefix]
  cases l with
  | nil => simp
  | cons c l =>
    have : str "#" = ['#'] := rfl
    rw [this, List.cons_prefix_cons]
    simp [eq_comm]

/-- C112: blank lines and lines that start with `#` in the list of model files do not matter; each other line names a file. -/
theorem C112_file_list (before after : List Str) (line : Str) :
    ((∀ c ∈ line, isSpace c = true) ∨ line.head? = some '#' → fileList (before ++ line :: after) = fileList (before ++ after)) ∧
    (¬ (∀ c ∈ line, isSpace c = true) → line.head? ≠ some '#' →
      fileList (before ++ line :: after) = fileList before ++ strip isSpace line :: fileList after) := by
  unfold fileList
  constructor
  · intro h
    have : (decide (strip isSpace line ≠ []) && !(str "#").isPrefixOf line) = false := by
      rw [Bool.and_eq_false_iff]
      rcases h with h | h
      · left; simpa using (strip_nil_iff isSpace line).2 h
      · right; rw [(hash_iff line).2 h]; rfl
    rw [List.filter_append, List.filter_append, List.filter_cons_of_neg (by rw [this]; simp)]
  · intro h1 h2
    have : (decide (strip isSpace line ≠ []) && !(str "#").isPrefixOf line) = true := by
      rw [Bool.and_eq_true]
      refine ⟨by simpa using fun e => h1 ((strip_nil_iff isSpace line).1 e), ?_⟩
      cases hb : (str "#").isPrefixOf line with
      | false => rfl
      | true => exact absurd ((hash_iff line).1 hb) h2
    rw [List.filter_append, List.filter_cons_of_pos (by rw [this]), List.map_append, List.map_cons]

theorem follow_append (acc ps : List Str) (h : str ".." ∉ ps) : follow acc ps = acc ++ ps := by
  induction ps generalizing acc with
  | nil => simp [follow]
  | cons p ps ih =>
    rw [List.mem_cons, not_or] at h
    rw [follow, if_neg (fun e => h.1 e.symm), ih _ h.2, List.append_assoc]
    rfl

/-- C112: the files of an update are in the data folder, if the entries of the list are relative and have no component `..`. -/
theorem C112_files_inside (folder : List Str) (entry : Str) (hf : str ".." ∉ folder) (hrel : entry.head? ≠ some '/')
    (hup : str ".." ∉ splitChar '/' entry) : folder <+: localFile folder entry := by
  unfold localFile joinPath
  simp only
  rw [if_neg hrel, follow_append]
  · exact List.prefix_append _ _
  · rw [List.mem_append, not_or]
    exact ⟨hf, fun h => hup (List.mem_of_mem_filter h)⟩

theorem splitChar_none {c : Char} {s : Str} (h : c ∉ s) : splitChar c s = [s] := by
  induction s with
  | nil => rfl
  | cons x s ih =>
    rw [List.mem_cons, not_or] at h
    simp only [splitChar]
    rw [if_neg (fun e => h.1 e.symm), ih h.2]

/-- C112: nothing else keeps the files of an update in the data folder: an entry `../name` is written beside it. -/
theorem C112_files_outside (folder : List Str) (top name : Str) (hf : str ".." ∉ folder) (ht : top ≠ str "..") (hn : '/' ∉ name)
    (h0 : name ≠ []) (h1 : name ≠ str ".") (h2 : name ≠ str "..") :
    localFile (folder ++ [top]) (str "../" ++ name) = folder ++ [name] := by
  have hs : splitChar '/' (str "../" ++ name) = [str "..", name] := by
    show splitChar '/' ('.' :: '.' :: '/' :: name) = _
    simp only [splitChar, splitChar_none hn]
    rfl
  have hfilter : [str "..", name].filter (fun x => x ≠ [] && x ≠ str ".") = [str "..", name] := by
    rw [List.filter_eq_self]
    intro x hx
    simp only [List.mem_cons, List.not_mem_nil, or_false] at hx
    rcases hx with rfl | rfl
    · decide
    · simp [h0, h1]
  unfold localFile joinPath
  simp only
  rw [if_neg (by show some '.' ≠ some '/'; decide), hs, hfilter]
  have key : ∀ (ps acc qs : List Str), str ".." ∉ ps → follow acc (ps ++ qs) = follow (acc ++ ps) qs := by
    intro ps
    induction ps with
    | nil => intro acc qs _; simp
    | cons p ps ih =>
      intro acc qs h
      rw [List.mem_cons, not_or] at h
      rw [List.cons_append, follow, if_neg (fun e => h.1 e.symm), ih _ _ h.2, List.append_assoc]
      rfl
  rw [key _ _ _ (by simp [hf, Ne.symm ht])]
  simp only [follow, List.nil_append, if_true, List.dropLast_concat, if_neg h2]

/-! ## Examples -/

/-- A repository with two releases, one of them with an annotated tag. -/
def exampleRepo : Repo where
  tags t := if t = str "v1.0" then some (.commit (str "a1")) else if t = str "v2.0" then some (.object (str "b0")) else none
  objects o := if o = str "b0" then some (.commit (str "b1")) else none
  released t := t = str "v1.0" || t = str "v2.0"
  branch _ := str "main"
  latest := some (str "v2.0")
  commits := [str "c1", str "b1", str "a1"]

/-- Its server. -/
def exampleApi : Api where
  commits := some exampleRepo.commits
  release v := match v with
    | some v => if exampleRepo.released v then some (some v, some (exampleRepo.branch v)) else none
    | none => exampleRepo.latest.map (fun v => (some v, some (exampleRepo.branch v)))
  ref t := (exampleRepo.tags t).map (fun x => (some x.sha, some x.type))
  tagObject o := (exampleRepo.objects o).map (fun x => some x.sha)

theorem example_releases : Releases exampleRepo exampleApi := ⟨fun _ => rfl, rfl, rfl⟩

theorem example_tags : Tags exampleRepo exampleApi :=
  ⟨fun t x h => by simp [exampleApi, h], fun o x h => by simp [exampleApi, h]⟩

/-- `C112_release_partial`: the annotated tag of the latest release -/
example : resolve exampleApi (request (str "latest")) = .ok (str "b1", str "v2.0") :=
  (C112_release_partial exampleRepo exampleApi example_releases example_tags (str "v2.0") (str "b1")
    (.annotated (str "b0") (by decide +kernel) (by decide +kernel)) (by decide)).2 rfl

/-- and another release -/
example : resolve exampleApi (request (str "v1.0")) = .ok (str "a1", str "v1.0") :=
  (C112_release_partial exampleRepo exampleApi example_releases example_tags (str "v1.0") (str "a1")
    (.direct (by decide +kernel)) (by decide)).1 (by decide) (by decide) (by decide) (by decide +kernel)

/-- `C112_commit`: seven digits -/
example : SevenDigits (str "abc1234") := by unfold SevenDigits; decide

/-- `C112_other_lengths_refused`: the commit in the help text of the command (cli.py:110) -/
example (api : Api) : resolve api (request (str "commit def567")) = .error .runtimeError :=
  C112_other_lengths_refused api (str "def567") (by decide) (by decide) (by decide)

/-- A server that does not answer requests for tags. -/
def brokenApi : Api := { exampleApi with ref := fun _ => none }

/-- `C112_branch_instead`, `C112_branch_stale` -/
example : resolve brokenApi (request (str "v1.0")) = .ok (str "main", str "v1.0") :=
  C112_branch_instead exampleRepo brokenApi ⟨fun _ => rfl, rfl, rfl⟩ (str "v1.0") (by decide) (by decide) (by decide) (by decide +kernel) (.inl rfl)

/-- `C112_files_inside` -/
example : str ".." ∉ splitChar '/' (str "seismic/building/fragility.csv") := by decide +kernel

end Verif.DlmlTarget
