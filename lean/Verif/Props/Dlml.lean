import Verif.Model.Dlml
import Mathlib.Logic.Function.Basic
import Mathlib.Data.List.Nodup

/-! # C72, C73: the model library -/

namespace Verif.Dlml

variable {V P C H : Type} [DecidableEq V] [DecidableEq P] [DecidableEq C] [DecidableEq H]

/-- The library is the one of commit `v`: its list of model files, and every listed file with its content. -/
def Complete (r : Remote V P C) (v : V) (d : Disk V P C H) : Prop :=
  d.manifest = some (r.manifest v) ∧ ∀ p ∈ r.manifest v, d.files p = some (r.content v p)

/-- The histories of two commits are linear: one is an ancestor of the other. -/
def Linear (r : Remote V P C) : Prop := ∀ a b, r.base a b = r.base b a ∧ (r.base a b = a ∨ r.base a b = b)

/-- The hashes in the cache are those of the files of its commit. -/
def CacheOk (r : Remote V P C) (hash : C → H) (d : Disk V P C H) : Prop :=
  ∀ v fs, d.cache = some (v, fs) → ∀ p h, fs p = some h → h = hash (r.content v p)

/-- The cached commit is another one, or there is none. -/
def NotCached (d : Disk V P C H) (v : V) : Prop := ∀ fs, d.cache ≠ some (v, fs)

theorem honest (r : Remote V P C) (hl : Linear r) (old new : V) (p : P) (h : changedFiles r old new p = false) :
    r.content old p = r.content new p := by
  obtain ⟨h1, h2⟩ := hl old new
  unfold changedFiles at h
  by_cases hc : r.base old new = new ∧ old ≠ new
  · rw [if_pos hc] at h
    simp only [compare, decide_eq_false_iff_not, not_not] at h
    rw [← h1, hc.1] at h
    exact h.symm
  · rw [if_neg hc] at h
    simp only [compare, decide_eq_false_iff_not, not_not] at h
    rcases h2 with h2 | h2
    · rw [h2] at h; exact h
    · by_cases he : old = new
      · rw [he]
      · exact absurd ⟨h2, he⟩ hc

/-- What justifies a skip. -/
def Justified (r : Remote V P C) (hash : C → H) (v : V) (useCache : Bool) (old : P → Option H) (changed : Option (P → Bool)) : Prop :=
  useCache = true → ∀ ch, changed = some ch → ∀ p h, ch p = false → old p = some h → h = hash (r.content v p)

theorem skip_right (r : Remote V P C) (hash : C → H) (hi : Function.Injective hash) (v : V) (useCache : Bool) (old : P → Option H)
    (changed : Option (P → Bool)) (hj : Justified r hash v useCache old changed) (files : P → Option C) (p : P)
    (h : skips hash useCache old changed files p = true) : files p = some (r.content v p) := by
  unfold skips at h
  rw [Bool.and_eq_true] at h
  obtain ⟨hu, h⟩ := h
  cases hc : changed with
  | none => rw [hc] at h; simp at h
  | some ch =>
    rw [hc] at h
    simp only [Bool.and_eq_true, Bool.not_eq_true'] at h
    obtain ⟨h1, h2⟩ := h
    cases ho : old p with
    | none => rw [ho] at h2; simp at h2
    | some x =>
      rw [ho] at h2
      simp only [decide_eq_true_eq] at h2
      obtain ⟨c, hcf, hch⟩ := Option.map_eq_some_iff.1 h2
      rw [hj hu ch hc p x h1 ho] at hch
      rw [hcf, hi hch]

theorem step_at (r : Remote V P C) (hash : C → H) (hi : Function.Injective hash) (v : V) (useCache : Bool) (old : P → Option H)
    (changed : Option (P → Bool)) (hj : Justified r hash v useCache old changed) (st : (P → Option C) × (P → Option H)) (p : P) :
    (step r hash v useCache old changed st p).1 p = some (r.content v p) ∧
    (step r hash v useCache old changed st p).2 p = some (hash (r.content v p)) ∧
    ∀ q, q ≠ p → (step r hash v useCache old changed st p).1 q = st.1 q ∧ (step r hash v useCache old changed st p).2 q = st.2 q := by
  unfold step
  by_cases hs : skips hash useCache old changed st.1 p = true
  · rw [if_pos hs]
    have := skip_right r hash hi v useCache old changed hj st.1 p hs
    refine ⟨this, ?_, ?_⟩
    · simp [put, this]
    · intro q hq; simp [put, hq]
  · rw [if_neg hs]
    refine ⟨by simp [put], by simp [put], ?_⟩
    intro q hq; simp [put, hq]

theorem fold_spec (r : Remote V P C) (hash : C → H) (hi : Function.Injective hash) (v : V) (useCache : Bool) (old : P → Option H)
    (changed : Option (P → Bool)) (hj : Justified r hash v useCache old changed) (L : List P) (st : (P → Option C) × (P → Option H)) :
    (∀ p ∈ L, (L.foldl (step r hash v useCache old changed) st).1 p = some (r.content v p) ∧
      (L.foldl (step r hash v useCache old changed) st).2 p = some (hash (r.content v p))) ∧
    ∀ p, p ∉ L → (L.foldl (step r hash v useCache old changed) st).1 p = st.1 p ∧
      (L.foldl (step r hash v useCache old changed) st).2 p = st.2 p := by
  induction L generalizing st with
  | nil => simp
  | cons a L ih =>
    obtain ⟨h1, h2⟩ := ih (step r hash v useCache old changed st a)
    obtain ⟨s1, s2, s3⟩ := step_at r hash hi v useCache old changed hj st a
    rw [List.foldl_cons]
    constructor
    · intro p hp
      by_cases hm : p ∈ L
      · exact h1 p hm
      · have hpa : p = a := by
          rcases List.mem_cons.1 hp with h | h
          · exact h
          · exact absurd h hm
        obtain ⟨e1, e2⟩ := h2 p hm
        rw [e1, e2, hpa]
        exact ⟨s1, s2⟩
    · intro p hp
      rw [List.mem_cons, not_or] at hp
      obtain ⟨e1, e2⟩ := h2 p hp.2
      obtain ⟨e3, e4⟩ := s3 p hp.1
      exact ⟨e1.trans e3, e2.trans e4⟩

theorem justified_of_ok (r : Remote V P C) (hash : C → H) (hl : Linear r) (answers useCache : Bool) (v : V) (d : Disk V P C H)
    (hok : CacheOk r hash d) : Justified r hash v useCache (oldHashes useCache d) (reported r answers useCache d v) := by
  intro hu ch hch p h hp ho
  unfold reported at hch
  unfold oldHashes at ho
  rw [hu] at hch ho
  cases hc : d.cache with
  | none => rw [hc] at hch; simp at hch
  | some c =>
    obtain ⟨old, fs⟩ := c
    rw [hc] at hch ho
    simp only [if_true] at hch ho
    by_cases ha : answers = true
    · rw [if_pos ha] at hch
      cases hch
      rw [hok old fs hc p h ho, honest r hl old v p hp]
    · rw [if_neg ha] at hch; cases hch

theorem not_upToDate (useCache : Bool) (d : Disk V P C H) (v : V) (h : NotCached d v) : upToDate useCache d v = false := by
  unfold upToDate
  cases hc : d.cache with
  | none => simp
  | some c =>
    obtain ⟨w, fs⟩ := c
    have : w ≠ v := by rintro rfl; exact h fs hc
    simp [this]

/-- An uninterrupted download of a commit other than the cached one, or without the cache. -/
theorem update_spec (r : Remote V P C) (hash : C → H) (hi : Function.Injective hash) (answers useCache : Bool) (v : V) (d : Disk V P C H)
    (hj : Justified r hash v useCache (oldHashes useCache d) (reported r answers useCache d v)) (hu : upToDate useCache d v = false) :
    Complete r v (update r hash answers useCache v d) ∧
    (∀ p, p ∉ r.manifest v → (update r hash answers useCache v d).files p = d.files p) ∧
    (useCache = true → ∃ fs, (update r hash answers useCache v d).cache = some (v, fs) ∧
      ∀ p, fs p = if p ∈ r.manifest v then some (hash (r.content v p)) else none) ∧
    (useCache = false → (update r hash answers useCache v d).cache = d.cache) := by
  obtain ⟨h1, h2⟩ := fold_spec r hash hi v useCache _ _ hj (r.manifest v) (d.files, fun _ => none)
  unfold update after
  rw [hu]
  simp only [Bool.false_eq_true, if_false, List.take_length]
  refine ⟨⟨rfl, fun p hp => (h1 p hp).1⟩, fun p hp => (h2 p hp).1, ?_, ?_⟩
  · intro hc
    rw [if_pos hc]
    refine ⟨_, rfl, fun p => ?_⟩
    by_cases hp : p ∈ r.manifest v
    · rw [if_pos hp]; exact (h1 p hp).2
    · rw [if_neg hp]; exact (h2 p hp).2
  · intro hc
    rw [hc]; rfl

/-- The cache stays truthful whatever happens. -/
theorem cacheOk_apply (r : Remote V P C) (hash : C → H) (hi : Function.Injective hash) (hl : Linear r) (d : Disk V P C H)
    (hok : CacheOk r hash d) (e : Event V P C) : CacheOk r hash (apply r hash d e) := by
  have hupd : ∀ answers useCache v, CacheOk r hash (update r hash answers useCache v d) := by
    intro answers useCache v
    cases hu : upToDate useCache d v with
    | true => unfold update; rw [hu]; exact hok
    | false =>
      obtain ⟨_, _, h3, h4⟩ := update_spec r hash hi answers useCache v d (justified_of_ok r hash hl answers useCache v d hok) hu
      cases useCache with
      | false =>
        intro w fs hw
        rw [h4 rfl] at hw
        exact hok w fs hw
      | true =>
        obtain ⟨fs, hc, hfs⟩ := h3 rfl
        intro w fs' hw p h hp
        rw [hc] at hw
        simp only [Option.some.injEq, Prod.mk.injEq] at hw
        obtain ⟨rfl, rfl⟩ := hw
        rw [hfs] at hp
        by_cases hm : p ∈ r.manifest v
        · rw [if_pos hm] at hp; exact (Option.some.inj hp).symm
        · rw [if_neg hm] at hp; cases hp
  cases e with
  | update answers useCache v => exact hupd answers useCache v
  | interrupted answers useCache v pt =>
    show CacheOk r hash (interrupted r hash answers useCache v pt d)
    unfold interrupted
    cases hu : upToDate useCache d v with
    | true => exact hok
    | false =>
      simp only [Bool.false_eq_true, if_false]
      cases pt with
      | start => exact hok
      | list l => exact hok
      | files n x =>
        simp only
        split
        · exact hok
        · split <;> exact hok
      | cache =>
        cases useCache with
        | true => intro w fs hw; cases hw
        | false => exact hok
  | importData answers latest =>
    show CacheOk r hash (importData r hash answers latest d)
    unfold importData
    cases d.manifest with
    | none => exact hupd answers true latest
    | some _ => exact hok
  | alter p x => exact hok
  | loseCache => intro w fs hw; cases hw

theorem cacheOk_history (r : Remote V P C) (hash : C → H) (hi : Function.Injective hash) (hl : Linear r) (d : Disk V P C H)
    (hok : CacheOk r hash d) (es : List (Event V P C)) : CacheOk r hash (es.foldl (apply r hash) d) := by
  induction es generalizing d with
  | nil => exact hok
  | cons e es ih => exact ih _ (cacheOk_apply r hash hi hl d hok e)

/-! ## C73 -/

/-- **C73, what does hold.** After any history of downloads (with and without the cache, complete or
interrupted at any point), imports, local changes and deletions of files and losses of the cache file, a
completed cached update to a commit other than the cached one makes the library complete: the list of
model files and all listed files are those of the commit, and no other file is touched.
Assumptions: different contents have different hashes, and the commits lie on one line of history.
Missing: the request of the cached commit itself and diverged histories, see below. -/
theorem C73_history_partial (r : Remote V P C) (hash : C → H) (hi : Function.Injective hash) (hl : Linear r) (es : List (Event V P C))
    (answers : Bool) (v : V) (hne : NotCached (es.foldl (apply r hash) fresh) v) :
    Complete r v (apply r hash (es.foldl (apply r hash) fresh) (.update answers true v)) ∧
    ∀ p, p ∉ r.manifest v → (apply r hash (es.foldl (apply r hash) fresh) (.update answers true v)).files p =
      (es.foldl (apply r hash) fresh).files p := by
  have hok : CacheOk r hash (es.foldl (apply r hash) fresh) :=
    cacheOk_history r hash hi hl fresh (by intro w fs hw; cases hw) es
  obtain ⟨h1, h2, _⟩ := update_spec r hash hi answers true v _ (justified_of_ok r hash hl answers true v _ hok) (not_upToDate true _ v hne)
  exact ⟨h1, h2⟩

/-- **C73.** A completed download without the cache always makes the library complete. -/
theorem C73_uncached (r : Remote V P C) (hash : C → H) (hi : Function.Injective hash) (answers : Bool) (v : V) (d : Disk V P C H) :
    Complete r v (update r hash answers false v d) :=
  (update_spec r hash hi answers false v d (fun h => by cases h) rfl).1

/-- **C73 does not hold (1).** A cached request of the cached commit does nothing at all: changed, deleted
or half-written files stay as they are. -/
theorem C73_same_commit_does_nothing (r : Remote V P C) (hash : C → H) (answers : Bool) (v : V) (fs : P → Option H) (d : Disk V P C H)
    (h : d.cache = some (v, fs)) : update r hash answers true v d = d := by
  unfold update upToDate
  rw [h]
  simp

/-- **C73 does not hold (2).** A completed cached download of `a`, an uncached one of `b` and a cached
request of `a`: the request reports success, and every listed file of `b` has the content of `b`. -/
theorem C73_uncached_then_cached (r : Remote V P C) (hash : C → H) (hi : Function.Injective hash) (n1 n2 n3 : Bool) (a b : V) :
    let d : Disk V P C H := [Event.update n1 true a, .update n2 false b, .update n3 true a].foldl (apply r hash) fresh
    Complete r b d ∧ (∀ p ∈ r.manifest b, r.content a p ≠ r.content b p → d.files p ≠ some (r.content a p)) := by
  have hu1 : upToDate true (fresh : Disk V P C H) a = false := rfl
  obtain ⟨_, _, h3, _⟩ := update_spec r hash hi n1 true a fresh (by
    intro _ ch hch
    simp [reported, fresh] at hch) hu1
  obtain ⟨fs, hc, _⟩ := h3 rfl
  have hb := update_spec r hash hi n2 false b (update r hash n1 true a fresh) (fun h => by cases h) rfl
  have hcache : (update r hash n2 false b (update r hash n1 true a fresh)).cache = some (a, fs) := by
    rw [hb.2.2.2 rfl, hc]
  have hlast := C73_same_commit_does_nothing r hash n3 a fs _ hcache
  have hcomp : Complete r b (update r hash n3 true a (update r hash n2 false b (update r hash n1 true a fresh))) := by
    rw [hlast]; exact hb.1
  refine ⟨hcomp, ?_⟩
  intro p hp hne h
  have h' := hcomp.2 p hp
  have h'' : (update r hash n3 true a (update r hash n2 false b (update r hash n1 true a fresh))).files p = some (r.content a p) := h
  rw [h'] at h''
  exact hne (Option.some.inj h'').symm

/-- **C73 does not hold (3).** Diverged histories: a file that differs between the two commits but not
between their last common commit and the new one is not reported as changed, so a cached update
keeps the old content. -/
theorem C73_diverged_stale (r : Remote V P C) (hash : C → H) (hi : Function.Injective hash) (n : Bool) (a b : V) (p : P)
    (hdiv : r.base a b ≠ b) (hab : a ≠ b) (ha : p ∈ r.manifest a) (hsame : r.content (r.base a b) p = r.content b p) :
    (([Event.update n true a, .update true true b].foldl (apply r hash) (fresh : Disk V P C H)).files p) = some (r.content a p) := by
  have hu1 : upToDate true (fresh : Disk V P C H) a = false := rfl
  obtain ⟨h1, _, h3, _⟩ := update_spec r hash hi n true a fresh (by
    intro _ ch hch
    simp [reported, fresh] at hch) hu1
  obtain ⟨fs, hc, hfs⟩ := h3 rfl
  show (update r hash true true b (update r hash n true a fresh)).files p = _
  generalize hd : update r hash n true a (fresh : Disk V P C H) = d at *
  have hfile : d.files p = some (r.content a p) := h1.2 p ha
  have hfsp : fs p = some (hash (r.content a p)) := by rw [hfs, if_pos ha]
  have hu : upToDate true d b = false := by
    unfold upToDate; rw [hc]; simp [hab]
  have hch : changedFiles r a b p = false := by
    unfold changedFiles
    rw [if_neg (fun h => hdiv h.1)]
    simp [compare, hsame]
  have hrep : reported r true true d b = some (changedFiles r a b) := by unfold reported; rw [hc]; simp
  have hold : oldHashes true d = fs := by unfold oldHashes; rw [hc]; simp
  unfold update after
  rw [hu]
  simp only [Bool.false_eq_true, if_false, List.take_length, hrep, hold]
  -- the file is skipped whenever it is met
  suffices ∀ (L : List P) (st : (P → Option C) × (P → Option H)), st.1 p = some (r.content a p) →
      (L.foldl (step r hash b true fs (some (changedFiles r a b))) st).1 p = some (r.content a p) from this _ _ hfile
  intro L
  induction L with
  | nil => intro st h; exact h
  | cons q L ih =>
    intro st h
    rw [List.foldl_cons]
    apply ih
    unfold step
    by_cases hq : q = p
    · subst hq
      rw [if_pos]
      · exact h
      · simp [skips, hch, hfsp, h]
    · split
      · exact h
      · simp [put, Ne.symm hq, h]

/-! ## C72 -/

/-- **C72 does not hold (1).** A first download that is interrupted after the list of model files has been
written is taken for complete by every later import: nothing is downloaded and nothing is reported,
although listed files are missing. -/
theorem C72_import_accepts_partial (r : Remote V P C) (hash : C → H) (n n' : Bool) (v latest : V) (k : Nat) (hk : k < (r.manifest v).length)
    (hnd : (r.manifest v).Nodup) :
    let d : Disk V P C H := interrupted r hash n true v (.files k none) fresh
    importData r hash n' latest d = d ∧ ∃ p ∈ r.manifest v, d.files p = none := by
  have hu : upToDate true (fresh : Disk V P C H) v = false := rfl
  have hget : (r.manifest v)[k]? = some (r.manifest v)[k] := List.getElem?_eq_getElem hk
  have hd : interrupted r hash n true v (.files k none) (fresh : Disk V P C H) =
      { (fresh : Disk V P C H) with manifest := some (r.manifest v), files := (after r hash n true v (fresh : Disk V P C H) k).1 } := by
    unfold interrupted
    rw [hu]
    simp only [Bool.false_eq_true, if_false, hget]
    split <;> rfl
  refine ⟨?_, (r.manifest v)[k], List.getElem_mem hk, ?_⟩
  · rw [hd]; rfl
  · rw [hd]
    simp only [after]
    have hns : ∀ (L : List P) (st : (P → Option C) × (P → Option H)) (p : P), p ∉ L →
        (L.foldl (step r hash v true (oldHashes true (fresh : Disk V P C H)) (reported r n true (fresh : Disk V P C H) v)) st).1 p = st.1 p := by
      intro L
      induction L with
      | nil => intro st p _; rfl
      | cons q L ih =>
        intro st p hp
        rw [List.mem_cons, not_or] at hp
        rw [List.foldl_cons, ih _ _ hp.2]
        unfold step
        split
        · rfl
        · simp [put, hp.1]
    rw [hns]
    · rfl
    · intro hm
      rw [List.mem_take_iff_getElem] at hm
      obtain ⟨j, hj, he⟩ := hm
      have := (List.Nodup.getElem_inj_iff hnd).1 he
      omega

/-- **C72 does not hold (2).** A cached update from `a` to `b` that is interrupted after `k` files, followed
by a cached request of `a`: the request reports success, but the first `k` files have the content of
`b`. -/
theorem C72_mixed_library (r : Remote V P C) (hash : C → H) (hi : Function.Injective hash) (hl : Linear r) (n1 n2 n3 : Bool) (a b : V) (hab : a ≠ b)
    (k : Nat) (x : Option C) (p : P) (hp : p ∈ (r.manifest b).take k) (hnd : (r.manifest b).Nodup) (hne : r.content a p ≠ r.content b p) :
    let d : Disk V P C H := [Event.update n1 true a, .interrupted n2 true b (.files k x), .update n3 true a].foldl (apply r hash) fresh
    d.files p = some (r.content b p) ∧ d.files p ≠ some (r.content a p) := by
  have hu1 : upToDate true (fresh : Disk V P C H) a = false := rfl
  obtain ⟨h1, _, h3, _⟩ := update_spec r hash hi n1 true a fresh (by
    intro _ ch hch
    simp [reported, fresh] at hch) hu1
  obtain ⟨fs, hc, _⟩ := h3 rfl
  have hok : CacheOk r hash (update r hash n1 true a (fresh : Disk V P C H)) :=
    cacheOk_apply r hash hi hl fresh (by intro w fs hw; cases hw) (.update n1 true a)
  show (update r hash n3 true a (interrupted r hash n2 true b (.files k x) (update r hash n1 true a fresh))).files p = _ ∧
    (update r hash n3 true a (interrupted r hash n2 true b (.files k x) (update r hash n1 true a fresh))).files p ≠ _
  generalize update r hash n1 true a (fresh : Disk V P C H) = d at *
  have hu : upToDate true d b = false := by unfold upToDate; rw [hc]; simp [hab]
  obtain ⟨f1, f2⟩ := fold_spec r hash hi b true _ _ (justified_of_ok r hash hl n2 true b d hok) ((r.manifest b).take k) (d.files, fun _ => none)
  have hi2 : (interrupted r hash n2 true b (.files k x) d).cache = some (a, fs) ∧
      (interrupted r hash n2 true b (.files k x) d).files p = some (r.content b p) := by
    have hfp : (after r hash n2 true b d k).1 p = some (r.content b p) := (f1 p hp).1
    unfold interrupted
    rw [hu]
    simp only [Bool.false_eq_true, if_false]
    cases hg : (r.manifest b)[k]? with
    | none => exact ⟨hc, hfp⟩
    | some q =>
      simp only
      split
      · exact ⟨hc, hfp⟩
      · refine ⟨hc, ?_⟩
        cases x with
        | none => exact hfp
        | some c =>
          have hqp : p ≠ q := by
            rintro rfl
            rw [List.mem_take_iff_getElem] at hp
            obtain ⟨j, hj, he⟩ := hp
            obtain ⟨hk, he'⟩ := List.getElem?_eq_some_iff.1 hg
            rw [← he'] at he
            have := (List.Nodup.getElem_inj_iff hnd).1 he
            omega
          simp only [put, hqp, if_false]
          exact hfp
  rw [C73_same_commit_does_nothing r hash n3 a fs _ hi2.1, hi2.2]
  exact ⟨rfl, fun h => hne (Option.some.inj h).symm⟩

/-- **C72, what does hold.** After any history with interruptions at any points, an explicit update that is
completed makes the library complete, provided that the requested commit is not the cached one; so
nothing partial survives it.  In particular, this is the case after a first download that was
interrupted.  Missing: imports and requests of the cached commit, see above. -/
theorem C72_update_repairs_partial (r : Remote V P C) (hash : C → H) (hi : Function.Injective hash) (hl : Linear r) (es : List (Event V P C))
    (n n' : Bool) (useCache : Bool) (v w : V) (pt : Point P C)
    (hne : NotCached (es.foldl (apply r hash) fresh) v) :
    Complete r v ((es ++ [Event.interrupted n useCache w pt, Event.update n' true v]).foldl (apply r hash) fresh) := by
  rw [List.foldl_append]
  generalize hd : es.foldl (apply r hash) fresh = d at *
  have hok : CacheOk r hash d := by
    rw [← hd]
    exact cacheOk_history r hash hi hl fresh (by intro w fs hw; cases hw) es
  have hok2 := cacheOk_apply r hash hi hl d hok (.interrupted n useCache w pt)
  have hne2 : NotCached (apply r hash d (.interrupted n useCache w pt)) v := by
    intro fs
    show (interrupted r hash n useCache w pt d).cache ≠ _
    unfold interrupted
    split
    · exact hne fs
    · cases pt with
      | start => exact hne fs
      | list l => exact hne fs
      | files m x =>
        simp only
        split
        · exact hne fs
        · split <;> exact hne fs
      | cache =>
        cases useCache with
        | true => simp
        | false => exact hne fs
  exact (update_spec r hash hi n' true v _ (justified_of_ok r hash hl n' true v _ hok2) (not_upToDate true _ v hne2)).1

/-- **C72.** A download that is interrupted before the list of model files is written is repeated at the next
import. -/
theorem C72_early_interruption (r : Remote V P C) (hash : C → H) (hi : Function.Injective hash) (n n' : Bool) (v latest : V) :
    Complete r latest (importData r hash n' latest (interrupted r hash n true v .start (fresh : Disk V P C H))) := by
  have : interrupted r hash n true v .start (fresh : Disk V P C H) = fresh := by
    unfold interrupted
    split <;> rfl
  rw [this]
  exact (update_spec r hash hi n' true latest fresh (by
    intro _ ch hch
    simp [reported, fresh] at hch) rfl).1

/-! ### Not vacuous -/

/-- Two commits with one common and one changed file. -/
def exRemote : Remote Nat Nat Nat where
  content v p := if p = 0 then 7 else 10 * v + p
  manifest _ := [0, 1]
  base a b := min a b

example : Linear exRemote := by
  intro a b
  simp only [exRemote]
  exact ⟨Nat.min_comm a b, by omega⟩

example : ((update exRemote id true true 2 (interrupted exRemote id true true 1 (.files 1 (some 99)) fresh)).files 0,
    (update exRemote id true true 2 (interrupted exRemote id true true 1 (.files 1 (some 99)) fresh)).files 1) = (some 7, some 21) := by
  decide

example : 1 < (exRemote.manifest 1).length ∧ (exRemote.manifest 1).Nodup ∧ 1 ∈ (exRemote.manifest 2).take 2 ∧
    exRemote.content 1 1 ≠ exRemote.content 2 1 := by decide

example : NotCached ([Event.update true true 1, .interrupted true true 2 (.files 1 none)].foldl (apply exRemote id) (fresh : Disk Nat Nat Nat Nat)) 2 := by
  intro fs h
  have : (1 : Nat) = 2 := congrArg (fun o : Option (Nat × (Nat → Option Nat)) => (o.map Prod.fst).getD 0) h
  omega

/-- Two diverged commits: file 1 is changed on the line of commit 1 only. -/
def exDiverged : Remote Nat Nat Nat where
  content v p := if p = 1 ∧ v = 1 then 11 else 10
  manifest _ := [1]
  base a b := if a = b then a else 0

example : exDiverged.base 1 2 ≠ 2 ∧ (1 : Nat) ≠ 2 ∧ 1 ∈ exDiverged.manifest 1 ∧
    exDiverged.content (exDiverged.base 1 2) 1 = exDiverged.content 2 1 ∧ exDiverged.content 1 1 ≠ exDiverged.content 2 1 := by decide

end Verif.Dlml
