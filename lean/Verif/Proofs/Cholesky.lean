import Verif.Proofs.KernPsd
import Mathlib.Data.Real.Sqrt
import Mathlib.LinearAlgebra.Matrix.Block
import Mathlib.Analysis.Matrix.PosDef

/-! Every positive definite matrix has a Cholesky factorisation. -/

namespace Verif

open Matrix

theorem pd_iff_sum {ι : Type*} [Fintype ι] {M : Matrix ι ι ℝ} :
    M.PosDef ↔ (∀ i j, M i j = M j i) ∧ ∀ c : ι → ℝ, c ≠ 0 → 0 < ∑ i, ∑ j, c i * c j * M i j := by
  rw [posDef_iff_dotProduct_mulVec]
  refine and_congr ?_ (forall_congr' fun c => ?_)
  · simp only [IsHermitian, ← Matrix.ext_iff, conjTranspose_apply, star_trivial]
    exact ⟨fun h i j => (h i j).symm, fun h i j => (h i j).symm⟩
  · have e : star c ⬝ᵥ M *ᵥ c = ∑ i, ∑ j, c i * c j * M i j := by
      simp only [dotProduct, mulVec, star_trivial, Finset.mul_sum]
      exact Finset.sum_congr rfl fun i _ => Finset.sum_congr rfl fun j _ => by ring
    rw [e]

theorem exists_cholesky : ∀ (n : ℕ) (M : Matrix (Fin n) (Fin n) ℝ), M.PosDef →
    ∃ U : Matrix (Fin n) (Fin n) ℝ, (∀ i j, j < i → U i j = 0) ∧ (∀ i, 0 < U i i) ∧ Uᵀ * U = M
  | 0, M, _ => ⟨M, fun i => i.elim0, fun i => i.elim0, by ext i; exact i.elim0⟩
  | n + 1, M, hM => by
    obtain ⟨hs, hp⟩ := pd_iff_sum.1 hM
    have ha : 0 < M 0 0 := by
      have := hp (Pi.single 0 1) (by simp)
      simpa [Fin.sum_univ_succ, Pi.single_apply] using this
    set a := M 0 0 with hadef
    obtain ⟨V, hV1, hV2, hV3⟩ := exists_cholesky n (Matrix.of fun i j : Fin n => M i.succ j.succ - M 0 i.succ * M 0 j.succ / a) (by
      refine pd_iff_sum.2 ⟨fun i j => ?_, fun c hc => ?_⟩
      · simp only [Matrix.of_apply]; rw [hs i.succ j.succ]; ring
      · have hne : (Fin.cons (-(∑ j, c j * M 0 j.succ) / a) c : Fin (n + 1) → ℝ) ≠ 0 := by
          intro h
          apply hc
          funext i
          have := congrFun h i.succ
          simpa using this
        have := hp _ hne
        refine this.trans_eq ?_
        simp only [Fin.sum_univ_succ, Fin.cons_zero, Fin.cons_succ, Matrix.of_apply]
        set S := ∑ j, c j * M 0 j.succ with hS
        have e1 : ∑ j : Fin n, (-S / a) * c j * M 0 j.succ = (-S / a) * S := by
          rw [hS, Finset.mul_sum]; exact Finset.sum_congr rfl fun j _ => by ring
        have e2 : ∑ i : Fin n, (c i * (-S / a) * M i.succ 0 + ∑ j : Fin n, c i * c j * M i.succ j.succ)
            = (-S / a) * S + ∑ i : Fin n, ∑ j : Fin n, c i * c j * M i.succ j.succ := by
          rw [Finset.sum_add_distrib]
          congr 1
          rw [hS, Finset.mul_sum]
          exact Finset.sum_congr rfl fun j _ => by rw [hs j.succ 0]; ring
        have e3 : ∑ i : Fin n, ∑ j : Fin n, c i * c j * (M i.succ j.succ - M 0 i.succ * M 0 j.succ / a)
            = ∑ i : Fin n, ∑ j : Fin n, c i * c j * M i.succ j.succ - S * S / a := by
          rw [hS, Finset.sum_mul_sum, Finset.sum_div, ← Finset.sum_sub_distrib]
          refine Finset.sum_congr rfl fun i _ => ?_
          rw [Finset.sum_div, ← Finset.sum_sub_distrib]
          exact Finset.sum_congr rfl fun j _ => by ring
        rw [e1, e2, e3]
        have ha' := ha.ne'
        field_simp
        ring)
    have hsq : Real.sqrt a * Real.sqrt a = a := Real.mul_self_sqrt ha.le
    have hsp : 0 < Real.sqrt a := Real.sqrt_pos.2 ha
    refine ⟨Matrix.of (Fin.cons (Fin.cons (Real.sqrt a) fun j => M 0 j.succ / Real.sqrt a) fun i => Fin.cons 0 (V i)), ?_, ?_, ?_⟩
    · intro i j hij
      refine Fin.cases (fun h => absurd h (by simp)) (fun i => ?_) i hij
      refine Fin.cases (fun _ => by simp) (fun j h => ?_) j
      simpa using hV1 i j (by simpa using h)
    · intro i
      refine Fin.cases (by simpa using hsp) (fun i => by simpa using hV2 i) i
    · have hV : ∀ i j, ∑ l, V l i * V l j = M i.succ j.succ - M 0 i.succ * M 0 j.succ / a := fun i j => by
        have := congrFun (congrFun hV3 i) j
        rwa [Matrix.mul_apply] at this
      ext i j
      rw [Matrix.mul_apply, Fin.sum_univ_succ]
      simp only [Matrix.transpose_apply, Matrix.of_apply, Fin.cons_zero, Fin.cons_succ]
      refine Fin.cases ?_ (fun i => ?_) i <;> refine Fin.cases ?_ (fun j => ?_) j
      · simpa using hsq
      · simp only [Fin.cons_zero, Fin.cons_succ, zero_mul, Finset.sum_const_zero, add_zero]
        field_simp
      · simp only [Fin.cons_zero, Fin.cons_succ, mul_zero, Finset.sum_const_zero, add_zero]
        rw [hs i.succ 0]
        field_simp
      · simp only [Fin.cons_succ]
        rw [hV]
        have : M 0 i.succ / Real.sqrt a * (M 0 j.succ / Real.sqrt a) = M 0 i.succ * M 0 j.succ / a := by
          rw [div_mul_div_comm, hsq]
        rw [this]; ring

theorem cholesky_det {n : ℕ} {U M : Matrix (Fin n) (Fin n) ℝ} (h1 : ∀ i j, j < i → U i j = 0) (h2 : ∀ i, 0 < U i i)
    (h3 : Uᵀ * U = M) : M.det = (∏ i, U i i) ^ 2 ∧ 0 < M.det := by
  have hd : U.det = ∏ i, U i i := Matrix.det_of_upperTriangular fun i j h => h1 i j h
  have : M.det = (∏ i, U i i) ^ 2 := by
    rw [← h3, Matrix.det_mul, Matrix.det_transpose, hd, sq]
  refine ⟨this, ?_⟩
  rw [this]
  exact pow_pos (Finset.prod_pos fun i _ => h2 i) 2

theorem cholesky_posDef {n : ℕ} {U M : Matrix (Fin n) (Fin n) ℝ} (h1 : ∀ i j, j < i → U i j = 0) (h2 : ∀ i, 0 < U i i)
    (h3 : Uᵀ * U = M) : M.PosDef := by
  have hd : U.det ≠ 0 := by
    rw [Matrix.det_of_upperTriangular fun i j h => h1 i j h]
    exact (Finset.prod_pos fun i _ => h2 i).ne'
  rw [← h3]
  have := Matrix.PosDef.conjTranspose_mul_self U (Matrix.mulVec_injective_of_isUnit ((Matrix.isUnit_iff_isUnit_det U).2 (isUnit_iff_ne_zero.2 hd)))
  rwa [Matrix.conjTranspose_eq_transpose_of_trivial] at this

/-- the factor is unique -/
theorem cholesky_unique : ∀ (n : ℕ) (U V : Matrix (Fin n) (Fin n) ℝ), (∀ i j, j < i → U i j = 0) → (∀ i, 0 < U i i) →
    (∀ i j, j < i → V i j = 0) → (∀ i, 0 < V i i) → Uᵀ * U = Vᵀ * V → U = V
  | 0, U, V, _, _, _, _, _ => by ext i; exact i.elim0
  | n + 1, U, V, hU1, hU2, hV1, hV2, h => by
    have he : ∀ i j, ∑ l, U l i * U l j = ∑ l, V l i * V l j := fun i j => by
      have := congrFun (congrFun h i) j
      rwa [Matrix.mul_apply, Matrix.mul_apply] at this
    have z : ∀ l : Fin n, U l.succ 0 = 0 ∧ V l.succ 0 = 0 := fun l => ⟨hU1 _ _ (by simp), hV1 _ _ (by simp)⟩
    have h00 : U 0 0 = V 0 0 := by
      have := he 0 0
      simp only [Fin.sum_univ_succ, (z _).1, (z _).2, mul_zero, Finset.sum_const_zero, add_zero] at this
      nlinarith [hU2 0, hV2 0, mul_self_eq_mul_self_iff.1 this]
    have h0j : ∀ j, U 0 j = V 0 j := fun j => by
      have := he 0 j
      simp only [Fin.sum_univ_succ, (z _).1, (z _).2, zero_mul, Finset.sum_const_zero, add_zero] at this
      rw [h00] at this
      exact mul_left_cancel₀ (hV2 0).ne' this
    have ih := cholesky_unique n (Matrix.of fun i j => U i.succ j.succ) (Matrix.of fun i j => V i.succ j.succ)
      (fun i j hij => hU1 _ _ (by simpa using hij)) (fun i => hU2 _) (fun i j hij => hV1 _ _ (by simpa using hij)) (fun i => hV2 _) (by
        ext i j
        simp only [Matrix.mul_apply, Matrix.transpose_apply, Matrix.of_apply]
        have := he i.succ j.succ
        simp only [Fin.sum_univ_succ, h0j] at this
        linarith)
    ext i j
    refine Fin.cases (h0j j) (fun i => ?_) i
    refine Fin.cases (by rw [(z i).1, (z i).2]) (fun j => ?_) j
    exact congrFun (congrFun ih i) j

end Verif
