import Mathlib.Analysis.Calculus.Deriv.Mul
import Mathlib.Analysis.Calculus.Deriv.Add
import Mathlib.Analysis.Calculus.Deriv.Inv
import Mathlib.Analysis.Calculus.Deriv.Comp
import Mathlib.LinearAlgebra.Matrix.Adjugate
import Mathlib.LinearAlgebra.Matrix.NonsingularInverse
import Mathlib.Analysis.SpecialFunctions.Log.Deriv

/-! Derivatives of determinants and inverses of matrices depending on a parameter. -/

namespace Verif

open Matrix

variable {n : Type*} [Fintype n] [DecidableEq n]

theorem det_updateCol_sum (M : Matrix n n ℝ) (i : n) (v : n → ℝ) :
    (M.updateCol i v).det = ∑ σ : Equiv.Perm n, (Equiv.Perm.sign σ : ℝ) * ((∏ l ∈ Finset.univ.erase i, M (σ l) l) * v (σ i)) := by
  rw [Matrix.det_apply']
  refine Finset.sum_congr rfl fun σ _ => ?_
  congr 1
  rw [← Finset.mul_prod_erase _ _ (Finset.mem_univ i), mul_comm]
  congr 1
  · refine Finset.prod_congr rfl fun l hl => ?_
    rw [Matrix.updateCol_ne (Finset.ne_of_mem_erase hl)]
  · simp

theorem trace_adjugate_mul (M N : Matrix n n ℝ) :
    (M.adjugate * N).trace = ∑ i, (M.updateCol i fun l => N l i).det := by
  unfold Matrix.trace
  refine Finset.sum_congr rfl fun i _ => ?_
  rw [← Matrix.cramer_apply, Matrix.cramer_eq_adjugate_mulVec]
  rfl

theorem hasDerivAt_det {K : ℝ → Matrix n n ℝ} {K' : Matrix n n ℝ} {t : ℝ}
    (h : ∀ i j, HasDerivAt (fun s => K s i j) (K' i j) t) :
    HasDerivAt (fun s => (K s).det) (((K t).adjugate * K').trace) t := by
  have e : (fun s => (K s).det) = fun s => ∑ σ : Equiv.Perm n, (Equiv.Perm.sign σ : ℝ) * ∏ i, K s (σ i) i := by
    funext s; rw [Matrix.det_apply']
  rw [e, trace_adjugate_mul]
  have : HasDerivAt (fun s => ∑ σ : Equiv.Perm n, (Equiv.Perm.sign σ : ℝ) * ∏ i, K s (σ i) i)
      (∑ σ : Equiv.Perm n, (Equiv.Perm.sign σ : ℝ) * ∑ i, (∏ l ∈ Finset.univ.erase i, K t (σ l) l) • K' (σ i) i) t :=
    HasDerivAt.fun_sum fun σ _ => (HasDerivAt.fun_finsetProd fun i _ => h (σ i) i).const_mul _
  refine this.congr_deriv ?_
  simp only [Finset.mul_sum, smul_eq_mul, det_updateCol_sum]
  rw [Finset.sum_comm]

theorem hasDerivAt_adjugate {K : ℝ → Matrix n n ℝ} {K' : Matrix n n ℝ} {t : ℝ}
    (h : ∀ i j, HasDerivAt (fun s => K s i j) (K' i j) t) (i j : n) :
    ∃ d, HasDerivAt (fun s => (K s).adjugate i j) d t := by
  simp only [Matrix.adjugate_apply]
  refine ⟨_, hasDerivAt_det (K' := K'.updateRow j 0) fun a b => ?_⟩
  by_cases ha : a = j
  · subst ha
    simp only [Matrix.updateRow_self]
    exact hasDerivAt_const _ _
  · simp only [Matrix.updateRow_ne ha]
    exact h a b

theorem hasDerivAt_inv_matrix {K : ℝ → Matrix n n ℝ} {K' : Matrix n n ℝ} {t : ℝ}
    (h : ∀ i j, HasDerivAt (fun s => K s i j) (K' i j) t) (hd : (K t).det ≠ 0) (i j : n) :
    HasDerivAt (fun s => (K s)⁻¹ i j) ((-((K t)⁻¹ * K' * (K t)⁻¹)) i j) t := by
  have hdet := hasDerivAt_det h
  have hex : ∀ i j, ∃ d, HasDerivAt (fun s => (K s)⁻¹ i j) d t := by
    intro i j
    obtain ⟨d, hadj⟩ := hasDerivAt_adjugate h i j
    have e : (fun s => (K s)⁻¹ i j) = fun s => ((K s).det)⁻¹ * (K s).adjugate i j := by
      funext s
      rw [Matrix.inv_def, Matrix.smul_apply, smul_eq_mul, Ring.inverse_eq_inv']
    rw [e]
    exact ⟨_, (hdet.fun_inv hd).fun_mul hadj⟩
  choose D hD using hex
  have hne : ∀ᶠ s in nhds t, (K s).det ≠ 0 := hdet.continuousAt.eventually_ne hd
  have key : K' * (K t)⁻¹ + K t * Matrix.of D = 0 := by
    ext a b
    have h1 : HasDerivAt (fun s => ∑ l, K s a l * (K s)⁻¹ l b) (∑ l, (K' a l * (K t)⁻¹ l b + K t a l * D l b)) t :=
      HasDerivAt.fun_sum fun l _ => (h a l).fun_mul (hD l b)
    have h2 : HasDerivAt (fun s => ∑ l, K s a l * (K s)⁻¹ l b) 0 t := by
      refine (hasDerivAt_const t ((1 : Matrix n n ℝ) a b)).congr_of_eventuallyEq ?_
      filter_upwards [hne] with s hs
      have := Matrix.mul_nonsing_inv (K s) (isUnit_iff_ne_zero.2 hs)
      have := congrFun (congrFun this a) b
      rwa [Matrix.mul_apply] at this
    have := h1.unique h2
    rw [Finset.sum_add_distrib] at this
    simpa [Matrix.mul_apply] using this
  have hDval : Matrix.of D = -((K t)⁻¹ * K' * (K t)⁻¹) := by
    have h1 : (K t)⁻¹ * (K' * (K t)⁻¹ + K t * Matrix.of D) = 0 := by rw [key, Matrix.mul_zero]
    rw [Matrix.mul_add, ← Matrix.mul_assoc, ← Matrix.mul_assoc, Matrix.nonsing_inv_mul _ (isUnit_iff_ne_zero.2 hd),
      Matrix.one_mul] at h1
    exact eq_neg_of_add_eq_zero_right h1
  rw [← hDval]
  exact hD i j

theorem hasDerivAt_logdet {K : ℝ → Matrix n n ℝ} {K' : Matrix n n ℝ} {t : ℝ}
    (h : ∀ i j, HasDerivAt (fun s => K s i j) (K' i j) t) (hd : (K t).det ≠ 0) :
    HasDerivAt (fun s => Real.log (K s).det) (((K t)⁻¹ * K').trace) t := by
  refine ((hasDerivAt_det h).log hd).congr_deriv ?_
  rw [Matrix.inv_def, Ring.inverse_eq_inv', Matrix.smul_mul, Matrix.trace_smul, smul_eq_mul]
  field_simp

theorem hasDerivAt_quadratic {K : ℝ → Matrix n n ℝ} {K' : Matrix n n ℝ} {t : ℝ}
    (h : ∀ i j, HasDerivAt (fun s => K s i j) (K' i j) t) (hd : (K t).det ≠ 0) (y : n → ℝ) :
    HasDerivAt (fun s => y ⬝ᵥ (K s)⁻¹ *ᵥ y) (-(y ⬝ᵥ ((K t)⁻¹ * K' * (K t)⁻¹) *ᵥ y)) t := by
  have : HasDerivAt (fun s => ∑ i, y i * ∑ j, (K s)⁻¹ i j * y j)
      (∑ i, y i * ∑ j, (-((K t)⁻¹ * K' * (K t)⁻¹)) i j * y j) t :=
    HasDerivAt.fun_sum fun i _ => (HasDerivAt.fun_sum fun j _ => (hasDerivAt_inv_matrix h hd i j).mul_const _).const_mul _
  refine this.congr_deriv ?_
  rw [← dotProduct_neg, ← Matrix.neg_mulVec]
  rfl

end Verif
