import Verif.Lemmas.Chen
import Mathlib.Analysis.Matrix.Spectrum
import Mathlib.LinearAlgebra.Matrix.DotProduct
import Mathlib.Algebra.Order.Star.Real

/-! # Every real matrix has a pseudo-inverse -/

set_option autoImplicit false

namespace Micropol

open Matrix

theorem moorePenrose_exists {m n : Nat} (M : Matrix (Fin m) (Fin n) ℝ) : ∃ P, IsMoorePenrose M P := by
  have hS : (M.transpose * M).IsHermitian := by
    show (M.transpose * M).conjTranspose = _
    rw [conjTranspose_eq_transpose_of_trivial, transpose_mul, transpose_transpose]
  obtain ⟨U, d, hU, hspec⟩ : ∃ (U : Matrix (Fin n) (Fin n) ℝ) (d : Fin n → ℝ), U.transpose * U = 1 ∧
      M.transpose * M = U * diagonal d * U.transpose := by
    refine ⟨hS.eigenvectorUnitary, hS.eigenvalues, ?_, ?_⟩
    · have := (mem_unitaryGroup_iff' (A := (hS.eigenvectorUnitary : Matrix (Fin n) (Fin n) ℝ))).1 hS.eigenvectorUnitary.2
      rwa [star_eq_conjTranspose, conjTranspose_eq_transpose_of_trivial] at this
    · have := hS.spectral_theorem
      rw [Unitary.conjStarAlgAut_apply, star_eq_conjTranspose, conjTranspose_eq_transpose_of_trivial] at this
      exact this
  set D := diagonal d with hD
  set E := diagonal (fun i => (d i)⁻¹) with hE
  have dt : D.transpose = D := diagonal_transpose _
  have et : E.transpose = E := diagonal_transpose _
  have ded : D * E * D = D := by
    rw [hD, hE, diagonal_mul_diagonal, diagonal_mul_diagonal]
    congr 1
    funext i
    by_cases h : d i = 0
    · rw [h]; ring
    · field_simp
  have ede : E * D * E = E := by
    rw [hD, hE, diagonal_mul_diagonal, diagonal_mul_diagonal]
    congr 1
    funext i
    by_cases h : d i = 0
    · rw [h]; simp
    · field_simp
  have comm : E * D = D * E := by
    rw [hD, hE, diagonal_mul_diagonal, diagonal_mul_diagonal]
    congr 1
    funext i
    ring
  have hUl : ∀ X : Matrix (Fin n) (Fin n) ℝ, U.transpose * (U * X) = X := fun X => by rw [← Matrix.mul_assoc, hU, Matrix.one_mul]
  set P := U * E * U.transpose * M.transpose with hP
  have hPM : P * M = U * (E * D) * U.transpose := by
    rw [hP, Matrix.mul_assoc _ M.transpose M, hspec]
    simp only [Matrix.mul_assoc]
    rw [hUl]
  have hPMt : (P * M).transpose = P * M := by
    rw [hPM, transpose_mul, transpose_mul, transpose_transpose, transpose_mul, dt, et, ← comm]
    simp only [Matrix.mul_assoc]
  refine ⟨P, ?_, ?_, ?_, hPMt⟩
  · have key : M.transpose * M * (P * M) = M.transpose * M := by
      rw [hPM, hspec]
      simp only [Matrix.mul_assoc]
      rw [hUl, ← Matrix.mul_assoc D, ← Matrix.mul_assoc (D * E), ded]
    have hz : (M - M * (P * M)).transpose * (M - M * (P * M)) = 0 := by
      have h1 : M.transpose * (M - M * (P * M)) = 0 := by
        rw [Matrix.mul_sub, ← Matrix.mul_assoc, key, sub_self]
      rw [transpose_sub, transpose_mul, Matrix.sub_mul, h1, Matrix.mul_assoc, h1, Matrix.mul_zero, sub_zero]
    have h0 : M - M * (P * M) = 0 := by
      rw [← conjTranspose_eq_transpose_of_trivial] at hz
      exact conjTranspose_mul_self_eq_zero.1 hz
    rw [Matrix.mul_assoc]
    exact (sub_eq_zero.1 h0).symm
  · rw [hPM, hP]
    simp only [Matrix.mul_assoc]
    have hUl' : ∀ X : Matrix (Fin n) (Fin m) ℝ, U.transpose * (U * X) = X := fun X => by
      rw [← Matrix.mul_assoc, hU, Matrix.one_mul]
    rw [hUl', ← Matrix.mul_assoc D, ← Matrix.mul_assoc E, ← Matrix.mul_assoc E, ede]
  · rw [hP]
    simp only [transpose_mul, transpose_transpose, et, Matrix.mul_assoc]

end Micropol
