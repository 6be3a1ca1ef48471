import Mathlib.Analysis.Matrix.Order
import Mathlib.Analysis.Matrix.HermitianFunctionalCalculus
import Mathlib.Analysis.SpecialFunctions.ContinuousFunctionalCalculus.Rpow.Basic
import Mathlib.Analysis.Matrix.Spectrum
import Mathlib.Data.Real.Sign

/-!
# Singular values of positive semidefinite matrices
-/

namespace Verif.Fit

open Matrix
open scoped MatrixOrder Matrix.Norms.L2Operator

variable {d : ℕ}

/-- The square root of the square of a positive semidefinite matrix is unique. -/
theorem eq_of_mul_self {A B : Matrix (Fin d) (Fin d) ℝ} (hA : A.PosSemidef) (hB : B.PosSemidef) (h : A * A = B * B) : A = B :=
  (CFC.mul_self_eq_mul_self_iff A B hA.nonneg hB.nonneg).1 h

theorem posSemidef_conj {s : Fin d → ℝ} (hs : ∀ i, 0 ≤ s i) (u : Matrix (Fin d) (Fin d) ℝ) : (u * diagonal s * uᵀ).PosSemidef := by
  have := (PosSemidef.diagonal (n := Fin d) (R := ℝ) (d := s) hs).mul_mul_conjTranspose_same u
  rwa [conjTranspose_eq_transpose_of_trivial] at this

/-- A positive semidefinite matrix is restored from the first two parts of its singular value decomposition. -/
theorem svd_restores {ρ u v : Matrix (Fin d) (Fin d) ℝ} {s : Fin d → ℝ} (hρ : ρ.PosSemidef) (hu : uᵀ * u = 1) (hv : vᵀ * v = 1)
    (hs : ∀ i, 0 ≤ s i) (h : ρ = u * diagonal s * vᵀ) : u * diagonal s * uᵀ = ρ := by
  refine eq_of_mul_self (posSemidef_conj hs u) hρ ?_
  have hsym : ρᵀ = ρ := by
    have := hρ.isHermitian
    rwa [IsHermitian, conjTranspose_eq_transpose_of_trivial] at this
  have h1 : ρ * ρ = ρ * ρᵀ := by rw [hsym]
  rw [h1, h]
  rw [transpose_mul, transpose_mul, transpose_transpose, diagonal_transpose]
  calc u * diagonal s * uᵀ * (u * diagonal s * uᵀ) = u * diagonal s * (uᵀ * u) * (diagonal s * uᵀ) := by simp only [Matrix.mul_assoc]
    _ = u * diagonal s * (vᵀ * v) * (diagonal s * uᵀ) := by rw [hu, hv]
    _ = u * diagonal s * vᵀ * (v * (diagonal s * uᵀ)) := by simp only [Matrix.mul_assoc]

/-- Symmetric matrices have a singular value decomposition. -/
theorem svd_exists {ρ : Matrix (Fin d) (Fin d) ℝ} (hρ : ρᵀ = ρ) : ∃ (u v : Matrix (Fin d) (Fin d) ℝ) (s : Fin d → ℝ),
    uᵀ * u = 1 ∧ vᵀ * v = 1 ∧ (∀ i, 0 ≤ s i) ∧ ρ = u * diagonal s * vᵀ := by
  have hH : ρ.IsHermitian := by rw [IsHermitian, conjTranspose_eq_transpose_of_trivial]; exact hρ
  have hspec := hH.spectral_theorem
  set U : Matrix (Fin d) (Fin d) ℝ := hH.eigenvectorUnitary.1 with hU
  have hUU : Uᵀ * U = 1 := by
    have := (Matrix.mem_unitaryGroup_iff' (A := U)).1 hH.eigenvectorUnitary.2
    rwa [star_eq_conjTranspose, conjTranspose_eq_transpose_of_trivial] at this
  let e := hH.eigenvalues
  let sg : Fin d → ℝ := fun i => if 0 ≤ e i then 1 else -1
  refine ⟨U, U * diagonal sg, fun i => |e i|, hUU, ?_, fun i => abs_nonneg _, ?_⟩
  · rw [transpose_mul, diagonal_transpose]
    calc diagonal sg * Uᵀ * (U * diagonal sg) = diagonal sg * (Uᵀ * U) * diagonal sg := by simp only [Matrix.mul_assoc]
      _ = 1 := by
        rw [hUU, Matrix.mul_one, diagonal_mul_diagonal, ← diagonal_one]
        congr 1
        funext i
        simp only [sg]
        split <;> simp
  · rw [transpose_mul, diagonal_transpose, ← Matrix.mul_assoc, Matrix.mul_assoc U, diagonal_mul_diagonal]
    have hd : (fun i => |e i| * sg i) = e := by
      funext i
      simp only [sg]
      split
      · rename_i h; rw [abs_of_nonneg h]; simp
      · rename_i h; rw [abs_of_neg (by linarith)]; simp
    rw [hd]
    conv_lhs => rw [hspec]
    rw [Unitary.conjStarAlgAut_apply]
    rw [star_eq_conjTranspose, conjTranspose_eq_transpose_of_trivial]
    rfl

/-- The entries of a positive semidefinite matrix with unit diagonal are between -1 and 1. -/
theorem entry_bound {ρ : Matrix (Fin d) (Fin d) ℝ} (hρ : ρ.PosSemidef) (h1 : ∀ i, ρ i i = 1) (i j : Fin d) : |ρ i j| ≤ 1 := by
  have hsym : ρ j i = ρ i j := by
    have := hρ.isHermitian
    rw [IsHermitian, conjTranspose_eq_transpose_of_trivial] at this
    exact congrFun (congrFun this i) j
  by_cases hij : i = j
  · subst hij; rw [h1]; simp
  · have key : ∀ t : ℝ, 0 ≤ 1 + 2 * t * ρ i j + t ^ 2 := by
      intro t
      have := hρ.dotProduct_mulVec_nonneg (Pi.single i 1 + t • Pi.single j 1)
      simp only [star_trivial, mulVec_add, mulVec_smul, mulVec_single_one, add_dotProduct, dotProduct_add, smul_dotProduct, dotProduct_smul,
        single_one_dotProduct, col_apply, smul_eq_mul, h1, hsym] at this
      nlinarith [this]
    rw [abs_le]
    constructor
    · have := key 1; linarith
    · have := key (-1); linarith

end Verif.Fit
