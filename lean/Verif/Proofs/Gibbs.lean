import Verif.Proofs.Cholesky
import Mathlib.Analysis.SpecialFunctions.Log.Basic
import Mathlib.Analysis.Matrix.Spectrum
import Mathlib.LinearAlgebra.Matrix.Trace

/-! The Kullback-Leibler divergence of two normal distributions is not negative, and zero only if they are the same. -/

namespace Verif

open Matrix

theorem gibbs_one {n : ℕ} {M : Matrix (Fin n) (Fin n) ℝ} (hM : M.PosDef) :
    0 ≤ M.trace - n - Real.log M.det ∧ (M.trace - n - Real.log M.det = 0 → M = 1) := by
  have hh := hM.isHermitian
  have hp : ∀ i, 0 < hh.eigenvalues i := hM.eigenvalues_pos
  have e : M.trace - n - Real.log M.det = ∑ i, (hh.eigenvalues i - 1 - Real.log (hh.eigenvalues i)) := by
    have h1 := hh.trace_eq_sum_eigenvalues
    have h2 := hh.det_eq_prod_eigenvalues
    simp only [RCLike.ofReal_real_eq_id, id_eq] at h1 h2
    rw [h1, h2, Real.log_prod fun i _ => (hp i).ne']
    simp [Finset.sum_sub_distrib]
  have nn : ∀ i, 0 ≤ hh.eigenvalues i - 1 - Real.log (hh.eigenvalues i) := fun i => by
    have := Real.log_le_sub_one_of_pos (hp i)
    linarith
  rw [e]
  refine ⟨Finset.sum_nonneg fun i _ => nn i, fun h => ?_⟩
  have h0 := (Finset.sum_eq_zero_iff_of_nonneg fun i _ => nn i).1 h
  have h1 : ∀ i, hh.eigenvalues i = 1 := fun i => by
    by_contra hne
    have := Real.log_lt_sub_one_of_pos (hp i) hne
    have := h0 i (Finset.mem_univ _)
    linarith
  have hs := hh.spectral_theorem
  have hd : (diagonal (RCLike.ofReal ∘ hh.eigenvalues) : Matrix (Fin n) (Fin n) ℝ) = 1 := by
    ext i j
    simp [diagonal, one_apply, h1]
  rw [hs, hd]
  simp

theorem gibbs {n : ℕ} {A B : Matrix (Fin n) (Fin n) ℝ} (hA : A.PosDef) (hB : B.PosDef) :
    0 ≤ (A⁻¹ * B).trace - n + Real.log A.det - Real.log B.det ∧ ((A⁻¹ * B).trace - n + Real.log A.det - Real.log B.det = 0 ↔ A = B) := by
  obtain ⟨U, -, -, hU⟩ := exists_cholesky n A hA
  have hAd := hA.det_pos
  have hBd := hB.det_pos
  have hUd : U.det ≠ 0 := fun h => by
    rw [← hU, det_mul, h, mul_zero] at hAd
    exact lt_irrefl _ hAd
  have hUu : IsUnit U.det := hUd.isUnit
  have hUt : IsUnit Uᵀ.det := by rwa [det_transpose]
  set M := U⁻¹ᵀ * B * U⁻¹ with hM
  have hMp : M.PosDef := by
    have := hB.conjTranspose_mul_mul_same (B := U⁻¹) (Matrix.mulVec_injective_of_isUnit (by
      rw [Matrix.isUnit_nonsing_inv_iff]
      exact (Matrix.isUnit_iff_isUnit_det _).2 hUu))
    rwa [conjTranspose_eq_transpose_of_trivial] at this
  obtain ⟨g1, g2⟩ := gibbs_one hMp
  have et : M.trace = (A⁻¹ * B).trace := by
    rw [hM, Matrix.mul_assoc, trace_mul_comm, Matrix.mul_assoc, trace_mul_comm, ← hU, Matrix.mul_inv_rev, transpose_nonsing_inv]
  have ed : Real.log M.det = Real.log B.det - Real.log A.det := by
    rw [← Real.log_div hBd.ne' hAd.ne']
    congr 1
    rw [hM, det_mul, det_mul, det_transpose, ← hU, det_mul, det_transpose, det_nonsing_inv, Ring.inverse_eq_inv']
    field_simp
  rw [et, ed] at g1 g2
  refine ⟨by linarith, fun h => ?_, fun h => ?_⟩
  · have h1 := g2 (by linarith)
    have h2 : Uᵀ * M * U = B := by
      rw [hM, transpose_nonsing_inv, Matrix.mul_assoc, Matrix.mul_assoc, Matrix.nonsing_inv_mul _ hUu, Matrix.mul_one, ← Matrix.mul_assoc, Matrix.mul_nonsing_inv _ hUt, Matrix.one_mul]
    rw [← h2, h1, Matrix.mul_one, hU]
  · subst h
    rw [Matrix.nonsing_inv_mul _ hAd.ne'.isUnit, trace_one, Fintype.card_fin]
    ring

end Verif
