import Verif.Model.RegDv
import Verif.Props.RegLoss

/-! # Property C131: decision variables of a regional simulation -/

namespace Verif.RegDv

open Verif.UQ Verif.LossDs
open Verif.LossCalc (Damage)
open Verif.RegLoss

/-- Specification: the decision variable is asked for. -/
def Asks (a : Asked) (dv : Str) : Prop := ∃ d, a = some d ∧ (dv, true) ∈ d

theorem requested_last {asked : List Asked} {dvs : List Str} (h : requested asked = .ok dvs) :
    ∃ a, asked.getLast? = some a ∧ ∀ dv, dv ∈ dvs ↔ Asks a dv := by
  unfold requested at h
  split at h
  · simp at h
  · simp at h
  · rename_i d hd
    cases h
    refine ⟨_, hd, fun dv => ?_⟩
    rw [List.mem_map]
    constructor
    · rintro ⟨⟨k, b⟩, he, rfl⟩
      obtain ⟨h1, h2⟩ := List.mem_filter.1 he
      cases (h2 : b = true)
      exact ⟨d, rfl, h1⟩
    · rintro ⟨d', hd', hm⟩
      cases hd'
      exact ⟨(dv, true), List.mem_filter.2 ⟨hm, rfl⟩, rfl⟩

section
variable {F : Type} [Field F] [LinearOrder F] [IsStrictOrderedRing F] [FloorRing F]

theorem general_dvs {S : Setup F} {cmps dvs : List Str} {d : Damage} {costs : List (Str × List F)} {times : Option (List (Str × List F))}
    (h : general S cmps dvs d = .ok (costs, times)) : str "Cost" ∈ dvs ∧ (times ≠ none ↔ str "Time" ∈ dvs) := by
  unfold general at h
  split at h
  · simp at h
  · simp at h
  · rename_i out hout
    obtain ⟨num, draws, dev, hE⟩ := LossDev.C91_deviations _ _ _ _ _ _ _ _ _ _ _ _ _ hout
    split at h
    · simp at h
    · rename_i cost hcost
      constructor
      · obtain ⟨x, hx⟩ : ∃ x, x ∈ cost := by
          unfold ofDv at hcost
          split at hcost
          · simp at hcost
          · rename_i hne
            obtain rfl := Except.ok.inj hcost
            exact List.exists_mem_of_ne_nil _ (fun h0 => hne h0)
        obtain ⟨⟨e, he, heq⟩, _⟩ := mem_aggregate.1 ((mem_ofDv hcost (loc := x.1) (v := x.2)).1 hx)
        obtain ⟨dv', hdv', k, _, loss, p, _, hkey, _⟩ := hE.2.2 e he
        have h1 : e.1.dv = dv' := by rw [hkey]; rfl
        have h2 : e.1.dv = str "Cost" := congrArg Prod.fst heq
        rw [← h2, h1]; exact hdv'
      · split at h
        · rename_i ht
          split at h
          · simp at h
          · cases h; simp [ht]
        · rename_i ht
          cases h; simp [ht]

/-- C131, for methods other than Hazus earthquake: what is reported for all buildings of a chunk is what the last building
asks for.  If it does not ask for costs there are no results at all. -/
theorem C131_last_decides (S : Setup F) (method : Str) (hm : method ≠ str "Hazus Earthquake - Buildings")
    (bldgs : List (Nat × Option Str)) (asked : List Asked) (cmps : List Str) (d : Damage) (costs : List (Str × List F))
    (times : Option (List (Str × List F))) (h : chunkLosses S method bldgs asked cmps d = .ok (costs, times)) :
    ∃ a, asked.getLast? = some a ∧ Asks a (str "Cost") ∧ (times ≠ none ↔ Asks a (str "Time")) := by
  unfold chunkLosses at h
  split at h
  · simp at h
  · rename_i dvs hdvs
    rw [if_neg hm] at h
    obtain ⟨a, ha, hmem⟩ := requested_last hdvs
    obtain ⟨h1, h2⟩ := general_dvs h
    exact ⟨a, ha, (hmem _).1 h1, h2.trans (hmem _)⟩

/-- C131, for methods other than Hazus earthquake, when the buildings of the chunk ask for the same: costs are reported and
every building asks for them; times are reported exactly if the buildings ask for them.  Without this condition the property is
false, see `C131_not_reported`. -/
theorem C131_agreed_partial (S : Setup F) (method : Str) (hm : method ≠ str "Hazus Earthquake - Buildings")
    (bldgs : List (Nat × Option Str)) (asked : List Asked) (cmps : List Str) (d : Damage) (costs : List (Str × List F))
    (times : Option (List (Str × List F))) (h : chunkLosses S method bldgs asked cmps d = .ok (costs, times))
    (hsame : ∀ a ∈ asked, ∀ b ∈ asked, ∀ dv, Asks a dv ↔ Asks b dv) (a : Asked) (ha : a ∈ asked) :
    Asks a (str "Cost") ∧ (times ≠ none ↔ Asks a (str "Time")) := by
  obtain ⟨b, hb, h1, h2⟩ := C131_last_decides S method hm bldgs asked cmps d costs times h
  have hbm : b ∈ asked := List.mem_of_getLast? hb
  exact ⟨(hsame a ha b hbm _).2 h1, h2.trans (hsame a ha b hbm _).symm⟩

omit [IsStrictOrderedRing F] in
/-- C131, Hazus earthquake: costs and times are always reported, they are the costs and times of the earthquake loss
calculation (described by `C99_hazus_partial`), and what the buildings ask for has no effect on them. -/
theorem C131_hazus (S : Setup F) (bldgs : List (Nat × Option Str)) (asked asked' : List Asked) (cmps cmps' : List Str) (d : Damage)
    (r : List (Str × List F) × Option (List (Str × List F)))
    (h : chunkLosses S (str "Hazus Earthquake - Buildings") bldgs asked cmps d = .ok r) :
    (∃ costs times, hazusEq S bldgs d = .ok (costs, times) ∧ r.1 = costs.map (fun e => (decStr e.1, e.2)) ∧
      r.2 = some (times.map fun e => (decStr e.1, e.2))) ∧ ((∃ a, asked'.getLast? = some (some a)) →
      chunkLosses S (str "Hazus Earthquake - Buildings") bldgs asked' cmps' d = .ok r) := by
  unfold chunkLosses at h
  split at h
  · simp at h
  · rw [if_pos rfl] at h
    split at h
    · simp at h
    · rename_i costs times hr
      cases h
      refine ⟨⟨costs, times, hr, rfl, rfl⟩, ?_⟩
      rintro ⟨a, ha⟩
      unfold chunkLosses requested
      rw [ha]
      simp only
      rw [if_pos trivial, hr]

omit [IsStrictOrderedRing F] in
/-- C131: a chunk is refused, with every method, if the mapping of its last building has no decision variables, whatever the others
ask for. -/
theorem C131_no_section (S : Setup F) (method : Str) (bldgs : List (Nat × Option Str)) (asked : List Asked) (cmps : List Str) (d : Damage) :
    chunkLosses S method bldgs (asked ++ [none]) cmps d = .error .keyError := by
  unfold chunkLosses requested
  rw [List.getLast?_concat]

end

/-! ### Examples -/

/-- Costs and times of component `W1`. -/
def exSetup2 : Setup ℚ :=
  { exSetup with params := ⟨[str "1"], [
      ((str "W1", str "Cost"), fun ds => if ds = str "1" then some ⟨.const 3, none⟩ else none),
      ((str "W1", str "Time"), fun ds => if ds = str "1" then some ⟨.const 5, none⟩ else none)]⟩ }

def both : Asked := some [(str "Cost", true), (str "Time", true)]
def costOnly : Asked := some [(str "Cost", true), (str "Time", false)]
def timeOnly : Asked := some [(str "Cost", false), (str "Time", true)]

/-- Buildings 10 and 9 with component `W1`, the first damaged in the first realization. -/
def exDamage2 : Damage := ⟨[dcol "W1" "10" "1", dcol "W1" "9" "1"],
  [fun k => if k.loc = str "10" then some 1 else some 0, fun k => if k.loc = str "10" then some 0 else some 1]⟩

/-- Both buildings ask for costs and times. -/
example : (chunkLosses exSetup2 (str "Hazus Hurricane") [] [both, both] [str "W1"] exDamage2).toOption =
    some ([(str "10", [3, 0]), (str "9", [0, 3])], some [(str "10", [5, 0]), (str "9", [0, 5])]) := by decide +kernel

example : (∀ a ∈ [both, both], ∀ b ∈ [both, both], ∀ dv, Asks a dv ↔ Asks b dv) ∧ Asks both (str "Time") := by
  refine ⟨fun a ha b hb dv => ?_, ⟨_, rfl, by simp⟩⟩
  simp only [List.mem_cons, List.not_mem_nil, or_false, or_self] at ha hb
  rw [ha, hb]

/-- Violation of C131: the first building asks for times and the last one does not, and no building has times.  The other way
round both have them.  If the last building asks for times only, there are no results. -/
theorem C131_not_reported :
    Asks both (str "Time") ∧ ¬ Asks costOnly (str "Time") ∧
    (chunkLosses exSetup2 (str "Hazus Hurricane") [] [both, costOnly] [str "W1"] exDamage2).toOption =
      some ([(str "10", [3, 0]), (str "9", [0, 3])], none) ∧
    (chunkLosses exSetup2 (str "Hazus Hurricane") [] [costOnly, both] [str "W1"] exDamage2).toOption =
      some ([(str "10", [3, 0]), (str "9", [0, 3])], some [(str "10", [5, 0]), (str "9", [0, 5])]) ∧
    LossDs.errorOf (chunkLosses exSetup2 (str "Hazus Hurricane") [] [both, timeOnly] [str "W1"] exDamage2) = some .keyError := by
  refine ⟨⟨_, rfl, by simp⟩, ?_, by decide +kernel, by decide +kernel, by decide +kernel⟩
  rintro ⟨d, hd, hm⟩
  cases hd
  revert hm
  decide

/-- Hazus earthquake: times although the building asks for costs only. -/
example : ((chunkLosses exSetup (str "Hazus Earthquake - Buildings") exBldgs [costOnly] [] exDamage).toOption.map fun r => r.2.isSome) =
    some true := by decide +kernel

/-- The same chunk is refused if the last mapping has no decision variables. -/
example : chunkLosses exSetup (str "Hazus Earthquake - Buildings") exBldgs [costOnly, none] [] exDamage = .error .keyError :=
  C131_no_section exSetup _ exBldgs [costOnly] [] exDamage

end Verif.RegDv
