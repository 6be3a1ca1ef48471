import Verif.Model.DlmlCheck
import Mathlib.Tactic.Common
import Mathlib.Tactic.Linarith
import Mathlib.Data.List.Induction

/-!
# C102: The check for new versions

Specification: the release that is installed is the one of the last download that the server could serve.  The check has
to report an update exactly if the latest release is newer.
-/

namespace Verif.DlmlCheck

/-- Specification: the release that a request asks for. -/
def wanted (r : Remote) : Request → Option Str
  | .version v => if v = str "latest" then r.latest else some v
  | .commit _ => none

/-- Specification: the release that is installed after an event. -/
def installStep (now : Option Str) : Event → Option Str
  | .check _ _ => now
  | .download r _ q =>
    match wanted r q with
    | none => now
    | some tag => if (r.sha tag).isSome then some tag else now

/-- Specification: the release that is installed after a history of checks and downloads of releases. -/
def installed (es : List Event) : Option Str := es.foldl installStep none

/-- The events of an installation that uses the cache and releases only; releases keep their commits. -/
def Plain (sha : Str → Option Str) : Event → Prop
  | .check _ _ => True
  | .download r useCache q => r.sha = sha ∧ useCache = true ∧ ∃ v, q = .version v

variable {V : Type} [LT V] [DecidableLT V]

theorem truthy_some {s : Str} (h : s ≠ []) : truthy (some s) = some s := by
  simp [truthy, Option.filter, h]

theorem ask_some (parse : Str → Option V) {v l : Str} (hv : v ≠ []) (hl : l ≠ []) : ask parse (some v) (some (some l)) =
    ⟨if (str "commit-").isPrefixOf v then true else newer parse v l, some v, some l, false⟩ := by
  unfold ask
  simp only [truthy_some hv, truthy_some hl]

private def Inv (sha : Str → Option Str) (c : Cache) (i : Option Str) : Prop :=
  c.version = i ∧ c.commit = i.bind sha ∧ ∀ t, i = some t → (sha t).isSome

theorem check_keeps (parse : Str → Option V) (now : Int) (a) (c : Cache) :
    (check parse now a c).2.version = c.version ∧ (check parse now a c).2.commit = c.commit := by
  unfold check
  split
  · split <;> simp
  · simp

theorem resolve_version (r : Remote) (v : Str) :
    (∀ tag h, wanted r (.version v) = some tag → r.sha tag = some h → resolve r (.version v) = .ok (h, tag)) ∧
    (∀ h name, resolve r (.version v) = .ok (h, name) → wanted r (.version v) = some name ∧ r.sha name = some h) := by
  unfold resolve wanted
  constructor
  · intro tag h hw hs
    by_cases hv : v = str "latest"
    · simp only [hv, if_true] at hw ⊢
      simp only [hw, hs]
    · simp only [hv, if_false] at hw ⊢
      cases hw
      simp only [hs]
  · intro h name hr
    by_cases hv : v = str "latest"
    · simp only [hv, if_true] at hr ⊢
      split at hr
      · exact absurd hr (by simp)
      · rename_i tag htag
        split at hr
        · exact absurd hr (by simp)
        · rename_i h' hs
          simp only [Except.ok.injEq, Prod.mk.injEq] at hr
          obtain ⟨rfl, rfl⟩ := hr
          exact ⟨htag, hs⟩
    · simp only [hv, if_false] at hr ⊢
      split at hr
      · exact absurd hr (by simp)
      · rename_i h' hs
        simp only [Except.ok.injEq, Prod.mk.injEq] at hr
        obtain ⟨rfl, rfl⟩ := hr
        exact ⟨rfl, hs⟩

private theorem inv_step (parse : Str → Option V) {sha : Str → Option Str}
    (hinj : ∀ a b h, sha a = some h → sha b = some h → a = b) {c : Cache} {i : Option Str} (hi : Inv sha c i)
    {e : Event} (he : Plain sha e) : Inv sha (step parse c e) (installStep i e) := by
  cases e with
  | check now a =>
    obtain ⟨h1, h2⟩ := check_keeps parse now a c
    obtain ⟨h3, h4, h5⟩ := hi
    exact ⟨h1.trans h3, h2.trans h4, h5⟩
  | download r u q =>
    obtain ⟨hsha, rfl, v, rfl⟩ := he
    obtain ⟨h3, h4, h5⟩ := hi
    simp only [step, installStep, download]
    cases hr : resolve r (.version v) with
    | error e =>
      simp only
      cases hw : wanted r (.version v) with
      | none => exact ⟨h3, h4, h5⟩
      | some tag =>
        simp only
        cases hs : r.sha tag with
        | none => exact ⟨h3, h4, h5⟩
        | some h => rw [(resolve_version r v).1 tag h hw hs] at hr; exact absurd hr (by simp)
    | ok p =>
      obtain ⟨h, name⟩ := p
      obtain ⟨hw, hs⟩ := (resolve_version r v).2 h name hr
      simp only [hw, hs, Option.isSome_some, if_true]
      rw [hsha] at hs
      by_cases hc : c.commit = some h
      · simp only [hc, if_true]
        cases i with
        | none => rw [h4] at hc; exact absurd hc (by simp)
        | some t =>
          rw [h4] at hc
          have : t = name := hinj t name h hc hs
          subst this
          exact ⟨h3, h4, h5⟩
      · simp only [hc, if_false]
        refine ⟨rfl, by simp [hs], ?_⟩
        intro t ht
        cases ht
        simp [hs]

private theorem inv_run (parse : Str → Option V) {sha : Str → Option Str}
    (hinj : ∀ a b h, sha a = some h → sha b = some h → a = b) (es : List Event) :
    ∀ (c : Cache) (i : Option Str), Inv sha c i → (∀ e ∈ es, Plain sha e) →
      Inv sha (es.foldl (step parse) c) (es.foldl installStep i) := by
  induction es with
  | nil => intro c i hi _; exact hi
  | cons e es ih =>
    intro c i hi hes
    exact ih _ _ (inv_step parse hinj hi (hes e (by simp))) fun x hx => hes x (by simp [hx])

/-- Where the saved result of a check comes from. -/
theorem saved_check (parse : Str → Option V) (es : List Event) : ∀ t r, (run parse es).check = some (t, r) →
    ∃ es₁ a es₂, es = es₁ ++ .check t a :: es₂ ∧ r = ask parse (run parse es₁).version a ∧
      (run parse es).version = (run parse es₁).version ∧ (run parse es).commit = (run parse es₁).commit := by
  induction es using List.reverseRecOn with
  | nil => intro t r h; simp [run, Cache.empty] at h
  | append_singleton es e ih =>
    intro t r h
    have hrun : run parse (es ++ [e]) = step parse (run parse es) e := by simp [run]
    rw [hrun] at h ⊢
    have keep : (step parse (run parse es) e) = run parse es → ∃ es₁ a es₂, es ++ [e] = es₁ ++ .check t a :: es₂ ∧ r = ask parse (run parse es₁).version a ∧
        (step parse (run parse es) e).version = (run parse es₁).version ∧ (step parse (run parse es) e).commit = (run parse es₁).commit := by
      intro hk
      rw [hk] at h ⊢
      obtain ⟨es₁, a, es₂, h1, h2, h3, h4⟩ := ih t r h
      exact ⟨es₁, a, es₂ ++ [e], by rw [h1]; simp, h2, h3, h4⟩
    cases e with
    | check now a =>
      simp only [step] at h keep ⊢
      unfold check at h keep ⊢
      split at h
      · rename_i t' r' hc
        simp only [hc] at keep ⊢
        split at h
        · rename_i hd
          simp only [hd, if_true] at keep ⊢
          exact keep trivial
        · rename_i hd
          simp only [hd, if_false] at ⊢
          simp only [Option.some.injEq, Prod.mk.injEq] at h
          obtain ⟨rfl, rfl⟩ := h
          exact ⟨es, a, [], rfl, rfl, rfl, rfl⟩
      · rename_i hc
        simp only [hc] at ⊢
        simp only [Option.some.injEq, Prod.mk.injEq] at h
        obtain ⟨rfl, rfl⟩ := h
        exact ⟨es, a, [], rfl, rfl, rfl, rfl⟩
    | download rm u q =>
      simp only [step, download] at h keep ⊢
      cases hr : resolve rm q with
      | error e => simp only [hr] at keep; simpa only [hr] using keep trivial
      | ok p =>
        simp only [hr] at h keep ⊢
        cases u with
        | false => simpa using keep (by simp)
        | true =>
          by_cases hc : (run parse es).commit = some p.1
          · simp only [hc, if_true] at keep ⊢
            exact keep trivial
          · simp [hc] at h

/-- A check that is not answered from the cache. -/
theorem check_due (parse : Str → Option V) (es : List Event) (now : Int) (a : Option (Option Str))
    (hdue : ∀ t b, Event.check t b ∈ es → t + day ≤ now) :
    (check parse now a (run parse es)).1 = ask parse (run parse es).version a := by
  unfold check
  split
  · rename_i t r hc
    obtain ⟨es₁, b, es₂, h1, _⟩ := saved_check parse es t r hc
    have := hdue t b (by rw [h1]; simp)
    rw [if_neg (by omega)]
  · rfl

/-- **C102 (the check compares with the installed release).**  Let releases have different commits that never change, and
let the library be updated with the cache and to releases only.  If the last check is a day ago, and the server answers, the
check reports the installed release and the latest one, and it reports an update exactly if the latest release is newer; if
one of them is no version, exactly if they differ.

What is missing: the other theorems show what happens without these conditions. -/
theorem C102_check_partial (parse : Str → Option V) (sha : Str → Option Str)
    (hinj : ∀ a b h, sha a = some h → sha b = some h → a = b) (es : List Event) (hes : ∀ e ∈ es, Plain sha e)
    (now : Int) (hdue : ∀ t b, Event.check t b ∈ es → t + day ≤ now)
    (tag latest : Str) (htag : installed es = some tag) (hne : tag ≠ []) (hl : latest ≠ [])
    (hcommit : ¬ str "commit-" <+: tag) :
    let r := (check parse now (some (some latest)) (run parse es)).1
    r.current = some tag ∧ r.latest = some latest ∧ r.failed = false ∧
      (∀ a b, parse (tag.dropWhile (· = 'v')) = some a → parse (latest.dropWhile (· = 'v')) = some b → (r.update = true ↔ a < b)) ∧
      (parse (tag.dropWhile (· = 'v')) = none ∨ parse (latest.dropWhile (· = 'v')) = none → (r.update = true ↔ tag ≠ latest)) := by
  have hv : (run parse es).version = some tag := by
    have := (inv_run parse hinj es Cache.empty none ⟨rfl, rfl, by simp⟩ hes).1
    exact this.trans htag
  have hp : (str "commit-").isPrefixOf tag = false := by
    rw [← Bool.not_eq_true, List.isPrefixOf_iff_prefix]; exact hcommit
  intro r
  have hr : r = ⟨newer parse tag latest, some tag, some latest, false⟩ := by
    show (check parse now (some (some latest)) (run parse es)).1 = _
    rw [check_due parse es now _ hdue, hv]
    rw [ask_some parse hne hl]
    simp [hp]
  rw [hr]
  refine ⟨rfl, rfl, rfl, ?_, ?_⟩
  · intro a b ha hb
    simp [newer, ha, hb]
  · intro h
    unfold newer
    split
    · rename_i a b ha hb
      rcases h with h | h
      · rw [ha] at h; exact absurd h (by simp)
      · rw [hb] at h; exact absurd h (by simp)
    · simp

/-- **C102 (at most a day old).**  After every history, a check either asks the server, or returns the result of an earlier
check that asked the server less than a day ago; since then no download has changed the recorded version. -/
theorem C102_at_most_a_day_old (parse : Str → Option V) (es : List Event) (now : Int) (a : Option (Option Str)) :
    (check parse now a (run parse es)).1 = ask parse (run parse es).version a ∨
    ∃ es₁ t b es₂, es = es₁ ++ .check t b :: es₂ ∧ now - t < day ∧
      (check parse now a (run parse es)).1 = ask parse (run parse es₁).version b ∧
      (run parse es).version = (run parse es₁).version := by
  cases hc : (run parse es).check with
  | none => left; unfold check; rw [hc]
  | some p =>
    obtain ⟨t, r⟩ := p
    by_cases hd : now - t < day
    · right
      obtain ⟨es₁, b, es₂, h1, h2, h3, _⟩ := saved_check parse es t r hc
      refine ⟨es₁, t, b, es₂, h1, hd, ?_, h3⟩
      unfold check
      rw [hc]
      simp only [hd, if_true]
      exact h2
    · left
      unfold check
      rw [hc]
      simp only [hd, if_false]

/-- **C102 (a new download is checked at once).**  After a download with the cache of a commit that is not the recorded one,
the next check asks the server, and it compares with the version that was downloaded. -/
theorem C102_checked_after_download (parse : Str → Option V) (c : Cache) (r : Remote) (q : Request) (h name : Str)
    (hq : resolve r q = .ok (h, name)) (hc : c.commit ≠ some h) (now : Int) (a : Option (Option Str)) :
    (check parse now a (step parse c (.download r true q))).1 = ask parse (some name) a := by
  simp [step, download, hq, hc, check]

private theorem fold_same (parse : Str → Option V) (c : Cache) (e : Event) (h : step parse c e = c) (n : Nat) :
    (List.replicate n e).foldl (step parse) c = c := by
  induction n with
  | zero => rfl
  | succ n ih => rw [List.replicate_succ, List.foldl_cons, h, ih]

private theorem download_empty (parse : Str → Option V) (r : Remote) (a h : Str) (ha : a ≠ str "latest") (hs : r.sha a = some h) :
    run parse [.download r true (.version a)] = ⟨some h, some a, none⟩ := by
  simp [run, step, download, resolve, ha, hs, Cache.empty]

/-- **C102 fails for releases with the same commit.**  If the latest release has the commit of the installed one, an update is
reported, and it is reported again however often the library is updated. -/
theorem C102_same_commit (parse : Str → Option V) (r : Remote) (a b h : Str) (ha : r.sha a = some h) (hb : r.sha b = some h)
    (hlatest : r.latest = some b) (hna : a ≠ str "latest") (ha0 : a ≠ []) (hb0 : b ≠ [])
    (va vb : V) (hva : parse (a.dropWhile (· = 'v')) = some va) (hvb : parse (b.dropWhile (· = 'v')) = some vb) (hlt : va < vb)
    (n : Nat) (now : Int) :
    let es := .download r true (.version a) :: List.replicate n (.download r true (.version (str "latest")))
    (n ≠ 0 → installed es = some b) ∧ (check parse now (some (some b)) (run parse es)).1.update = true := by
  intro es
  constructor
  · intro hn
    show (Event.download r true (.version a) :: List.replicate n (.download r true (.version (str "latest")))).foldl installStep none = some b
    obtain ⟨m, rfl⟩ := Nat.exists_eq_succ_of_ne_zero hn
    rw [List.foldl_cons]
    generalize installStep none (Event.download r true (.version a)) = i
    have hstep : ∀ j, installStep j (Event.download r true (.version (str "latest"))) = some b := by
      intro j
      simp [installStep, wanted, hlatest, hb]
    clear hn es
    induction m generalizing i with
    | zero => simp [hstep]
    | succ m ih => rw [List.replicate_succ, List.foldl_cons]; exact ih _
  · have h1 : run parse es = ⟨some h, some a, none⟩ := by
      have h0 := download_empty parse r a h hna ha
      show (Event.download r true (.version a) :: List.replicate n (.download r true (.version (str "latest")))).foldl (step parse) Cache.empty = _
      rw [List.foldl_cons]
      have h2 : step parse Cache.empty (Event.download r true (.version a)) = ⟨some h, some a, none⟩ := h0
      rw [h2]
      exact fold_same parse _ _ (by simp [step, download, resolve, hlatest, hb]) n
    rw [h1]
    by_cases hp : (str "commit-").isPrefixOf a = true
    · simp only [check, ask_some parse ha0 hb0, hp, if_true]
    · simp [check, ask_some parse ha0 hb0, hp, newer, hva, hvb, hlt]

/-- **C102 fails without the cache.**  A download without the cache leaves the recorded version: after an update from
release `a` to the newer release `b` the check still reports an update, however often this is repeated. -/
theorem C102_no_cache (parse : Str → Option V) (r : Remote) (a b ha hb : Str) (hsa : r.sha a = some ha) (hsb : r.sha b = some hb)
    (hna : a ≠ str "latest") (hnb : b ≠ str "latest") (ha0 : a ≠ []) (hb0 : b ≠ [])
    (va vb : V) (hva : parse (a.dropWhile (· = 'v')) = some va) (hvb : parse (b.dropWhile (· = 'v')) = some vb) (hlt : va < vb)
    (n : Nat) (hn : n ≠ 0) (now : Int) :
    let es := .download r true (.version a) :: List.replicate n (.download r false (.version b))
    installed es = some b ∧ (check parse now (some (some b)) (run parse es)).1.update = true := by
  intro es
  constructor
  · show (Event.download r true (.version a) :: List.replicate n (.download r false (.version b))).foldl installStep none = some b
    obtain ⟨m, rfl⟩ := Nat.exists_eq_succ_of_ne_zero hn
    rw [List.foldl_cons]
    generalize installStep none (Event.download r true (.version a)) = i
    have hstep : ∀ j, installStep j (Event.download r false (.version b)) = some b := by
      intro j
      simp [installStep, wanted, hnb, hsb]
    clear hn es
    induction m generalizing i with
    | zero => simp [hstep]
    | succ m ih => rw [List.replicate_succ, List.foldl_cons]; exact ih _
  · have h1 : run parse es = ⟨some ha, some a, none⟩ := by
      show (Event.download r true (.version a) :: List.replicate n (.download r false (.version b))).foldl (step parse) Cache.empty = _
      rw [List.foldl_cons]
      have h2 : step parse Cache.empty (Event.download r true (.version a)) = ⟨some ha, some a, none⟩ := download_empty parse r a ha hna hsa
      rw [h2]
      exact fold_same parse _ _ (by simp [step, download, resolve, hnb, hsb]) n
    rw [h1]
    by_cases hp : (str "commit-").isPrefixOf a = true
    · simp only [check, ask_some parse ha0 hb0, hp, if_true]
    · simp [check, ask_some parse ha0 hb0, hp, newer, hva, hvb, hlt]

/-- **C102 fails after a commit.**  If the newest commit was downloaded and it is the one of the latest release, an update is
reported, also after any number of updates to this release. -/
theorem C102_after_commit (parse : Str → Option V) (r : Remote) (b h : Str) (hhead : r.head = some h) (hb : r.sha b = some h)
    (hlatest : r.latest = some b) (hb0 : b ≠ []) (n : Nat) (now : Int) :
    (check parse now (some (some b)) (run parse
      (.download r true (.commit (str "latest")) :: List.replicate n (.download r true (.version (str "latest")))))).1.update = true := by
  have h1 : run parse (.download r true (.commit (str "latest")) :: List.replicate n (.download r true (.version (str "latest"))))
      = ⟨some h, some (str "commit-" ++ h.take 7), none⟩ := by
    show (_ :: List.replicate n _).foldl (step parse) Cache.empty = _
    rw [List.foldl_cons]
    have h2 : step parse Cache.empty (Event.download r true (.commit (str "latest"))) = ⟨some h, some (str "commit-" ++ h.take 7), none⟩ := by
      simp [step, download, resolve, hhead, Cache.empty]
    rw [h2]
    exact fold_same parse _ _ (by simp [step, download, resolve, hlatest, hb]) n
  rw [h1]
  have hp : (str "commit-").isPrefixOf (str "commit-" ++ h.take 7) = true := by
    rw [List.isPrefixOf_iff_prefix]; exact List.prefix_append _ _
  have h0 : (str "commit-" ++ h.take 7) ≠ [] := by
    intro e
    have := congrArg List.length e
    simp [str] at this
  simp only [check, ask_some parse h0 hb0, hp, if_true]

/-- **C102 (a failed check hides updates for a day).**  If a check asks the server and fails, no check of the following day
asks the server or reports an update, unless another version is downloaded. -/
theorem C102_failed_hides (parse : Str → Option V) (es : List Event) (t : Int) (hdue : ∀ t' b, Event.check t' b ∈ es → t' + day ≤ t)
    (now : Int) (hnow : now - t < day) (a : Option (Option Str)) :
    let r := (check parse now a (run parse (es ++ [.check t none]))).1
    r.failed = true ∧ r.update = false ∧ r.latest = none := by
  have hrun : run parse (es ++ [.check t none]) = { run parse es with check := some (t, ask parse (run parse es).version none) } := by
    have : run parse (es ++ [.check t none]) = (check parse t none (run parse es)).2 := by simp [run, step]
    rw [this]
    unfold check
    split
    · rename_i t' r hc
      obtain ⟨es₁, b, es₂, h1, _⟩ := saved_check parse es t' r hc
      have := hdue t' b (by rw [h1]; simp)
      rw [if_neg (by omega)]
    · rfl
  rw [hrun]
  simp [check, hnow, ask]

/-- **C102 fails if the clock is set back.**  After a check at a wrong time in the future, no check asks the server until this
time has passed, however many years this takes. -/
theorem C102_clock_back (parse : Str → Option V) (es : List Event) (t : Int) (hdue : ∀ t' b, Event.check t' b ∈ es → t' + day ≤ t)
    (b : Option (Option Str)) (now : Int) (hnow : now ≤ t) (a : Option (Option Str)) :
    (check parse now a (run parse (es ++ [.check t b]))).1 = ask parse (run parse es).version b := by
  have hrun : run parse (es ++ [.check t b]) = { run parse es with check := some (t, ask parse (run parse es).version b) } := by
    have : run parse (es ++ [.check t b]) = (check parse t b (run parse es)).2 := by simp [run, step]
    rw [this]
    unfold check
    split
    · rename_i t' r hc
      obtain ⟨es₁, b', es₂, h1, _⟩ := saved_check parse es t' r hc
      have := hdue t' b' (by rw [h1]; simp)
      rw [if_neg (by omega)]
    · rfl
  rw [hrun]
  have : now - t < day := by unfold day; omega
  simp [check, this]

/-- A reader of versions for the examples: numbers with one digit. -/
def exParse (s : Str) : Option Nat :=
  match s with
  | [c] => if c.isDigit then some (c.toNat - 48) else none
  | _ => none

def exRemote : Remote :=
  ⟨fun t => if t = str "v1" then some (str "aaaaaaaa1") else if t = str "v2" then some (str "bbbbbbbb2") else none,
    some (str "v2"), some (str "bbbbbbbb2")⟩

/-- The hypotheses of `C102_check_partial` are met: `v1` is installed, checked, and an update to `v2` is reported; after the
update none is. -/
example : (∀ e ∈ [Event.download exRemote true (.version (str "v1")), .check 0 none], Plain exRemote.sha e) ∧
    installed [Event.download exRemote true (.version (str "v1")), .check 0 none] = some (str "v1") ∧
    (check exParse 90000 (some (some (str "v2"))) (run exParse [Event.download exRemote true (.version (str "v1")), .check 0 none])).1.update = true ∧
    (check exParse 90001 (some (some (str "v2"))) (run exParse [Event.download exRemote true (.version (str "v1")), .check 0 none,
      .download exRemote true (.version (str "latest"))])).1.update = false := by
  refine ⟨?_, by decide, by decide, by decide⟩
  intro e he
  simp only [List.mem_cons, List.not_mem_nil, or_false] at he
  rcases he with rfl | rfl
  · exact ⟨rfl, rfl, _, rfl⟩
  · trivial

example : ∀ a b h, exRemote.sha a = some h → exRemote.sha b = some h → a = b := by
  intro a b h h1 h2
  simp only [exRemote] at h1 h2
  split at h1
  · cases h1
    split at h2
    · simp_all
    · split at h2
      · exact absurd h2 (by decide)
      · exact absurd h2 (by simp)
  · split at h1
    · cases h1
      split at h2
      · exact absurd h2 (by decide)
      · split at h2
        · simp_all
        · exact absurd h2 (by simp)
    · exact absurd h1 (by simp)

/-- The hypotheses of `C102_no_cache` are met. -/
example : (check exParse 0 (some (some (str "v2"))) (run exParse [.download exRemote true (.version (str "v1")),
    .download exRemote false (.version (str "v2"))])).1.update = true := by decide

end Verif.DlmlCheck
