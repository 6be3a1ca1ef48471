import Verif.Model.UQRegistry
import Verif.Lemmas.UQInstances
import Mathlib.Data.Matrix.Mul
import Mathlib.Analysis.SpecialFunctions.Pow.NNReal

/-!
# Correlated sampling with the Gaussian copula (pelicun/uq.py)

Models `RandomVariableSet.apply_correlation` (uq.py 2582-2619) over the real numbers, with the order of the variables in a set and its
matrix from `CorrSet.init` (uq.py 2505-2526).  What LAPACK returns for the matrix is an argument (`Factors`).  `norm.cdf` and `norm.ppf` are
those of the standard normal distribution (`UQ.gaussian`).
-/

namespace Verif.Copula

open UQ Matrix

/-- What the calls of scipy return for one matrix (uq.py 2598 and 2609-2612): `cholesky` succeeds, or it raises `LinAlgError` and `svd`
is called. -/
inductive Factors (n : Nat) where
  | cholesky (L : Matrix (Fin n) (Fin n) ℝ)
  | svd (U : Matrix (Fin n) (Fin n) ℝ) (s : Fin n → ℝ) (Vt : Matrix (Fin n) (Fin n) ℝ)

/-- `nc_rv` (uq.py 2600, 2614) for standard normal samples `z`: `l_mat @ n_rv` or `(n_rv.T @ s_diag @ u_mat.T).T`. -/
noncomputable def correlate {n N : Nat} (f : Factors n) (z : Matrix (Fin n) (Fin N) ℝ) : Matrix (Fin n) (Fin N) ℝ :=
  match f with
  | .cholesky L => L * z
  | .svd U s _ => (zᵀ * diagonal (fun i => Real.sqrt (s i)) * Uᵀ)ᵀ

/-- uq.py 2582-2616 `apply_correlation`: the table of uniform samples (variables in rows, realizations in columns) with correlation. -/
noncomputable def applyCorrelation {n N : Nat} (f : Factors n) (u : Matrix (Fin n) (Fin N) ℝ) : Matrix (Fin n) (Fin N) ℝ :=
  (correlate f (u.map gaussian.ppf)).map gaussian.cdf

/-- The stored matrix of a set (uq.py 2505-2522) as a matrix of its size. -/
def storedRho (names : List Str) (rho : Nat → Nat → ℝ) : Matrix (Fin (CorrSet.init names rho).names.length)
    (Fin (CorrSet.init names rho).names.length) ℝ :=
  fun i j => (CorrSet.init names rho).rho i j

/-- uq.py 2592 and 2618-2619: the rows are the uniform samples of the variables in the stored order, and the results are assigned to them
in the same order.  `u` has the uniform sample of each variable by name. -/
noncomputable def setSamples {N : Nat} (names : List Str) (rho : Nat → Nat → ℝ) (f : Factors (CorrSet.init names rho).names.length)
    (u : Str → Fin N → ℝ) (a : Str) : Fin N → ℝ :=
  if h : a ∈ (CorrSet.init names rho).names then
    applyCorrelation f (fun i => u (CorrSet.init names rho).names[i]) ⟨(CorrSet.init names rho).names.idxOf a, List.idxOf_lt_length_of_mem h⟩
  else u a

end Verif.Copula
