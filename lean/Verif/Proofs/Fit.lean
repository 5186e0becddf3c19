import Verif.Spec.Fit
import Verif.Props.Tolerance
import Verif.Props.Values

/-! Predictions of the observations themselves. -/

namespace Verif

open Matrix

theorem sum_rows : ∀ (lens : List ℕ) (f : ℕ → ℝ), ∑ r ∈ Finset.range lens.sum, f r = ∑ d ∈ Finset.range lens.length, ∑ i ∈ Finset.range (lens.getD d 0), f (offset lens d + i)
  | [], f => by simp
  | l :: ls, f => by
    rw [List.sum_cons, Finset.sum_range_add, List.length_cons, Finset.sum_range_succ', sum_rows ls fun r => f (l + r), add_comm]
    congr 1
    · refine Finset.sum_congr rfl fun d _ => ?_
      rw [List.getD_cons_succ]
      refine Finset.sum_congr rfl fun i _ => ?_
      rw [offset_cons_succ, add_assoc]
    · simp [offset_cons_zero]

variable {n : ℕ}

theorem vecNorm_add (u v : Fin n → ℝ) : vecNorm (u + v) ≤ vecNorm u + vecNorm v := by
  refine abs_le_of_sq_le_sq' ?_ (add_nonneg (vecNorm_nonneg u) (vecNorm_nonneg v)) |>.2
  have h := (le_abs_self _).trans (abs_dot_le u v)
  have : vecNorm (u + v) ^ 2 = vecNorm u ^ 2 + 2 * (u ⬝ᵥ v) + vecNorm v ^ 2 := by
    rw [vecNorm_sq, vecNorm_sq, vecNorm_sq, add_dotProduct, dotProduct_add, dotProduct_add, dotProduct_comm v u]
    ring
  nlinarith

/-- a vector relative to the noise -/
noncomputable def relative (ν : Fin n → ℝ) (v : Fin n → ℝ) : Fin n → ℝ := fun i => v i / Real.sqrt (ν i)

theorem relative_sq {ν : Fin n → ℝ} (hν : ∀ i, 0 < ν i) (v : Fin n → ℝ) : vecNorm (relative ν v) ^ 2 = ∑ i, v i ^ 2 / ν i := by
  rw [vecNorm_sq]
  refine Finset.sum_congr rfl fun i _ => ?_
  unfold relative
  rw [← sq, div_pow, Real.sq_sqrt (hν i).le]

/-- the fit of an exact solve -/
theorem fit_exact {S : Matrix (Fin n) (Fin n) ℝ} (hS : S.PosSemidef) {ν : Fin n → ℝ} (hν : ∀ i, 0 < ν i) {y α : Fin n → ℝ} (h : (S + diagonal ν) *ᵥ α = y) :
    ∑ i, (y i - (S *ᵥ α) i) ^ 2 / ν i ≤ y ⬝ᵥ α ∧ y ⬝ᵥ α ≤ ∑ i, y i ^ 2 / ν i := by
  have h0 : 0 ≤ α ⬝ᵥ S *ᵥ α := by simpa using hS.dotProduct_mulVec_nonneg α
  have hy : ∀ i, y i = (S *ᵥ α) i + ν i * α i := fun i => by rw [← h, add_mulVec, Pi.add_apply, mulVec_diagonal]
  have h1 : ∑ i, (y i - (S *ᵥ α) i) ^ 2 / ν i = ∑ i, ν i * α i ^ 2 := Finset.sum_congr rfl fun i _ => by
    rw [hy i, add_sub_cancel_left, mul_pow]
    have := (hν i).ne'
    field_simp
  have h2 : y ⬝ᵥ α = α ⬝ᵥ S *ᵥ α + ∑ i, ν i * α i ^ 2 := by
    unfold dotProduct
    rw [← Finset.sum_add_distrib]
    exact Finset.sum_congr rfl fun i _ => by rw [hy i]; ring
  refine ⟨by rw [h1, h2]; linarith, ?_⟩
  have h3 : 0 ≤ ∑ i, (y i - ν i * α i) ^ 2 / ν i := Finset.sum_nonneg fun i _ => div_nonneg (sq_nonneg _) (hν i).le
  have h4 : ∑ i, (y i - ν i * α i) ^ 2 / ν i = ∑ i, y i ^ 2 / ν i - 2 * (y ⬝ᵥ α) + ∑ i, ν i * α i ^ 2 := by
    unfold dotProduct
    rw [Finset.mul_sum, ← Finset.sum_sub_distrib, ← Finset.sum_add_distrib]
    refine Finset.sum_congr rfl fun i _ => ?_
    have := (hν i).ne'
    field_simp
    ring
  linarith

/-- the fit of an approximate solve -/
theorem fit_near {S : Matrix (Fin n) (Fin n) ℝ} (hS : S.PosSemidef) {ν : Fin n → ℝ} {ν₀ : ℝ} (h0 : 0 < ν₀) (hν : ∀ i, ν₀ ≤ ν i) {y α : Fin n → ℝ} {t : ℝ}
    (h : vecNorm (y - (S + diagonal ν) *ᵥ α) ≤ t) :
    Real.sqrt (∑ i, (y i - (S *ᵥ α) i) ^ 2 / ν i) ≤ Real.sqrt (∑ i, y i ^ 2 / ν i) + 2 * (t / Real.sqrt ν₀) := by
  have hp : ∀ i, 0 < ν i := fun i => h0.trans_le (hν i)
  set e := y - (S + diagonal ν) *ᵥ α with he
  have hr : vecNorm (relative ν e) ≤ t / Real.sqrt ν₀ := by
    have ht : 0 ≤ t := (vecNorm_nonneg _).trans h
    refine abs_le_of_sq_le_sq' ?_ (by positivity) |>.2
    rw [relative_sq hp, div_pow, Real.sq_sqrt h0.le]
    calc ∑ i, e i ^ 2 / ν i ≤ ∑ i, e i ^ 2 / ν₀ := Finset.sum_le_sum fun i _ => div_le_div_of_nonneg_left (sq_nonneg _) h0 (hν i)
      _ = vecNorm e ^ 2 / ν₀ := by
        rw [← Finset.sum_div, vecNorm_sq]
        congr 1
        exact Finset.sum_congr rfl fun i _ => sq _
      _ ≤ t ^ 2 / ν₀ := div_le_div_of_nonneg_right (pow_le_pow_left₀ (vecNorm_nonneg _) h 2) h0.le
  have hx : (S + diagonal ν) *ᵥ α = y - e := by rw [he, sub_sub_cancel]
  have hn : vecNorm (relative ν (fun i => -e i)) = vecNorm (relative ν e) := by
    unfold vecNorm relative
    congr 1
    exact Finset.sum_congr rfl fun i _ => by rw [neg_div, neg_sq]
  have key := (fit_exact hS hp hx).1.trans (fit_exact hS hp hx).2
  have k1 : vecNorm (relative ν ((y - e) - S *ᵥ α)) ≤ vecNorm (relative ν (y - e)) := by
    refine abs_le_of_sq_le_sq' ?_ (vecNorm_nonneg _) |>.2
    rw [relative_sq hp, relative_sq hp]
    exact key
  have k2 : vecNorm (relative ν (y - S *ᵥ α)) ≤ vecNorm (relative ν ((y - e) - S *ᵥ α)) + vecNorm (relative ν e) := by
    have := vecNorm_add (relative ν ((y - e) - S *ᵥ α)) (relative ν e)
    convert this using 2
    funext i
    unfold relative
    simp only [Pi.sub_apply, Pi.add_apply]
    ring
  have k3 : vecNorm (relative ν (y - e)) ≤ vecNorm (relative ν y) + vecNorm (relative ν e) := by
    have := vecNorm_add (relative ν y) (relative ν fun i => -e i)
    rw [hn] at this
    convert this using 2
    funext i
    unfold relative
    simp only [Pi.sub_apply, Pi.add_apply]
    ring
  have e1 : Real.sqrt (∑ i, (y i - (S *ᵥ α) i) ^ 2 / ν i) = vecNorm (relative ν (y - S *ᵥ α)) := by
    rw [← Real.sqrt_sq (vecNorm_nonneg (relative ν (y - S *ᵥ α))), relative_sq hp]
    rfl
  have e2 : Real.sqrt (∑ i, y i ^ 2 / ν i) = vecNorm (relative ν y) := by
    rw [← Real.sqrt_sq (vecNorm_nonneg (relative ν y)), relative_sq hp]
  rw [e1, e2]
  linarith

/-- without noise in the limit: the errors are bounded by the noise and by how far the observations are from what the covariance without noise expects -/
theorem fit_clean {S : Matrix (Fin n) (Fin n) ℝ} (hS : S.PosDef) {ν : Fin n → ℝ} (hν : ∀ i, 0 < ν i) {y α : Fin n → ℝ} (h : (S + diagonal ν) *ᵥ α = y) :
    ∑ i, (y i - (S *ᵥ α) i) ^ 2 / ν i ≤ (y ⬝ᵥ S⁻¹ *ᵥ y) / 4 := by
  have hy : ∀ i, y i = (S *ᵥ α) i + ν i * α i := fun i => by rw [← h, add_mulVec, Pi.add_apply, mulVec_diagonal]
  have h1 : ∑ i, (y i - (S *ᵥ α) i) ^ 2 / ν i = ∑ i, ν i * α i ^ 2 := Finset.sum_congr rfl fun i _ => by
    rw [hy i, add_sub_cancel_left, mul_pow]
    have := (hν i).ne'
    field_simp
  have h2 : y ⬝ᵥ α = α ⬝ᵥ S *ᵥ α + ∑ i, ν i * α i ^ 2 := by
    unfold dotProduct
    rw [← Finset.sum_add_distrib]
    exact Finset.sum_congr rfl fun i _ => by rw [hy i]; ring
  have hu : IsUnit S.det := (Matrix.isUnit_iff_isUnit_det _).1 hS.isUnit
  have hb : S *ᵥ (S⁻¹ *ᵥ y) = y := by rw [mulVec_mulVec, mul_nonsing_inv _ hu, one_mulVec]
  have h3 := psd_cross hS.posSemidef α (S⁻¹ *ᵥ y)
  rw [hb, dotProduct_comm α y, dotProduct_comm (S⁻¹ *ᵥ y) y] at h3
  have h0 : 0 ≤ α ⬝ᵥ S *ᵥ α := by simpa using hS.posSemidef.dotProduct_mulVec_nonneg α
  have hB : 0 ≤ y ⬝ᵥ S⁻¹ *ᵥ y := by simpa using hS.inv.posSemidef.dotProduct_mulVec_nonneg y
  have h4 : 0 ≤ ∑ i, ν i * α i ^ 2 := Finset.sum_nonneg fun i _ => mul_nonneg (hν i).le (sq_nonneg _)
  rw [h1]
  set q := ∑ i, ν i * α i ^ 2
  set s := α ⬝ᵥ S *ᵥ α
  set B := y ⬝ᵥ S⁻¹ *ᵥ y
  rw [h2] at h3
  by_contra hc
  push Not at hc
  have : s * B < s * (4 * q) ∨ s = 0 := by
    rcases h0.eq_or_lt with h | h
    · exact .inr h.symm
    · exact .inl (mul_lt_mul_of_pos_left (by linarith) h)
  rcases this with h | h
  · nlinarith [sq_nonneg (s - q)]
  · rw [h] at h3
    nlinarith

end Verif
