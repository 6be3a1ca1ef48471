import Verif.Model.Copula
import Mathlib.Analysis.Matrix.Order
import Mathlib.MeasureTheory.Constructions.Pi

/-! # Words used in C114 -/

namespace Verif.Copula

open UQ Matrix MeasureTheory

/-- Numbers drawn uniformly between zero and one. -/
noncomputable def uniform01 : Measure ℝ := volume.restrict (Set.Ioo 0 1)

/-- Uniform numbers for all variables and realizations, drawn independently. -/
noncomputable def draws (n N : Nat) : Measure (Fin n → Fin N → ℝ) := Measure.pi fun _ => Measure.pi fun _ => uniform01

/-- The matrix given by the user. -/
def given (names : List Str) (rho : Nat → Nat → ℝ) : Matrix (Fin names.length) (Fin names.length) ℝ := Matrix.of fun i j => rho i j

/-- What scipy promises for a symmetric matrix: `cholesky` returns a lower triangular matrix with positive diagonal and `L @ L.T = Rho`; it
fails unless the matrix is positive definite, and then `svd` returns orthogonal matrices and singular values with
`U @ diag(s) @ Vt = Rho`. -/
def Valid {n : Nat} (Rho : Matrix (Fin n) (Fin n) ℝ) : Factors n → Prop
  | .cholesky L => (∀ i j, i < j → L i j = 0) ∧ (∀ i, 0 < L i i) ∧ L * Lᵀ = Rho
  | .svd U s Vt => ¬ Rho.PosDef ∧ Uᵀ * U = 1 ∧ Vt * Vtᵀ = 1 ∧ (∀ i, 0 ≤ s i) ∧ U * diagonal s * Vt = Rho

end Verif.Copula
