import Verif.Model.UQRegistry
import Verif.Lemmas.UQInstances

/-!
# The random number generator of an assessment (pelicun/base.py, pelicun/uq.py)

An assessment has one generator: `Options` makes it from the seed (base.py 199, 233-251), and all registries of random variables are given
that object (demand_model.py 958, asset_model.py 516, damage_model.py 1408-1409, loss_model.py 2229, 2817); the estimate of residual drifts
takes normal numbers from it (demand_model.py 405-406).  Each call changes the state of the generator.  numpy is a parameter.
-/

namespace Verif.RngStream

open Verif.UQ

/-- The generators of numpy, with the state that each call leaves: `default_rng(seed)`, `permutation(n)`, `random` for one row of `n`
numbers (a table is filled row by row) and `normal` for `n` numbers. -/
structure Rng (St Seed : Type) where
  start : Seed → St
  permutation : Nat → St → List Nat × St
  random : Nat → St → List ℝ × St
  normal : Nat → St → List ℝ × St

/-- The same call `k` times (uq.py 2847, 2855, 2859). -/
def many {St α : Type} (f : St → α × St) : Nat → St → List α × St
  | 0, s => ([], s)
  | k + 1, s => ((f s).1 :: (many f k (f s).2).1, (many f k (f s).2).2)

/-- uq.py 2809-2881 `generate_sample` with the calls of the generator (2845-2859): one permutation for each free variable, then the table of
numbers.  Simplification: an unknown method with "LHS" in its name would draw permutations before it fails. -/
noncomputable def sample {St Seed : Type} (G : Rng St Seed) (N : Num ℝ) (r : Registry ℝ) (n : Nat) (m : Method) (s : St) :
    Except PyErr (Registry ℝ) × St :=
  let k := r.free.length
  match m with
  | .lhs =>
    let p := many (G.permutation n) k s
    let u := many (G.random n) k p.2
    (generateSample N r n m (fun v => p.1.getD v []) (fun v => u.1.getD v []), u.2)
  | .lhsMidpoint =>
    let p := many (G.permutation n) k s
    (generateSample N r n m (fun v => p.1.getD v []) (fun _ => []), p.2)
  | .monteCarlo =>
    let u := many (G.random n) k s
    (generateSample N r n m (fun _ => []) (fun v => u.1.getD v []), u.2)
  | .other => (generateSample N r n m (fun _ => []) (fun _ => []), s)

/-- What is done with the generator of an assessment: the seed is set (base.py 233-237), the variables of a registry are sampled, or `k` normal
numbers are drawn for residual drifts. -/
inductive Op (Seed : Type) where
  | seed (s : Seed)
  | sample (r : Registry ℝ) (n : Nat) (m : Method)
  | normal (k : Nat)

/-- What the user gets. -/
inductive Out where
  | nothing
  | samples (x : Except PyErr (Registry ℝ))
  | numbers (l : List ℝ)

/-- One step. -/
noncomputable def step {St Seed : Type} (G : Rng St Seed) (N : Num ℝ) : Op Seed → St → Out × St
  | .seed x, _ => (.nothing, G.start x)
  | .sample r n m, s => (.samples (sample G N r n m s).1, (sample G N r n m s).2)
  | .normal k, s => (.numbers (G.normal k s).1, (G.normal k s).2)

/-- All steps of an assessment; an exception of one of them is caught by the user. -/
noncomputable def run {St Seed : Type} (G : Rng St Seed) (N : Num ℝ) : List (Op Seed) → St → List Out × St
  | [], s => ([], s)
  | op :: ops, s => ((step G N op s).1 :: (run G N ops (step G N op s).2).1, (run G N ops (step G N op s).2).2)

end Verif.RngStream
