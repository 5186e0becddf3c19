import Verif.Spec.MoreVariance
import Verif.Props.Continuity
import Mathlib.Analysis.Matrix.PosDef
import Verif.Proofs.Cholesky

/-! Lemmas for C119: answers of models of which one has more variance. -/

namespace Verif

open Matrix

/-- what conditioning leaves grows with the joint covariance -/
theorem schur_mono {n : ℕ} {K K' : Matrix (Fin n) (Fin n) ℝ} (hK : K.PosDef) (hK' : K'.PosDef) {k k' : Fin n → ℝ} {c c' δ : ℝ}
    (h : ∀ v, v ⬝ᵥ K *ᵥ v - 2 * (v ⬝ᵥ k) + c + δ ≤ v ⬝ᵥ K' *ᵥ v - 2 * (v ⬝ᵥ k') + c') :
    c - k ⬝ᵥ K⁻¹ *ᵥ k + δ ≤ c' - k' ⬝ᵥ K'⁻¹ *ᵥ k' := by
  have hu := (Matrix.isUnit_iff_isUnit_det _).1 hK.isUnit
  have hu' := (Matrix.isUnit_iff_isUnit_det _).1 hK'.isUnit
  set v := K⁻¹ *ᵥ k with hv
  set v' := K'⁻¹ *ᵥ k' with hv'
  have e1 : K *ᵥ v = k := by rw [hv, mulVec_mulVec, mul_nonsing_inv _ hu, one_mulVec]
  have e2 : K' *ᵥ v' = k' := by rw [hv', mulVec_mulVec, mul_nonsing_inv _ hu', one_mulVec]
  have hsym : Kᵀ = K := by
    have := hK.isHermitian
    rwa [Matrix.IsHermitian, Matrix.conjTranspose_eq_transpose_of_trivial] at this
  have h1 := h v'
  rw [e2] at h1
  have h2 : 0 ≤ (v' - v) ⬝ᵥ K *ᵥ (v' - v) := by
    have := hK.posSemidef.dotProduct_mulVec_nonneg (v' - v)
    simpa using this
  have h3 : v ⬝ᵥ K *ᵥ v' = v' ⬝ᵥ k := by
    rw [dotProduct_mulVec, ← mulVec_transpose, hsym, e1, dotProduct_comm]
  rw [mulVec_sub, sub_dotProduct, dotProduct_sub, dotProduct_sub, h3, e1] at h2
  rw [dotProduct_comm k v, dotProduct_comm k' v']
  linarith

/-- the determinant grows with the covariance -/
theorem det_grows {n : ℕ} {K K' : Matrix (Fin n) (Fin n) ℝ} (hK : K.PosDef) (h : (K' - K).PosSemidef) : K.det ≤ K'.det := by
  obtain ⟨B, -, -, hB'⟩ := exists_cholesky n K hK
  have hB : K = Bᴴ * B := by
    rw [Matrix.conjTranspose_eq_transpose_of_trivial]
    exact hB'.symm
  have hdK := hK.det_pos
  have hBd : B.det ≠ 0 := fun h0 => by
    rw [hB, det_mul, h0, mul_zero] at hdK
    exact lt_irrefl _ hdK
  set C := B⁻¹ᴴ * (K' - K) * B⁻¹ with hC
  have hCp : C.PosSemidef := h.conjTranspose_mul_mul_same B⁻¹
  have e1 : K' = Bᴴ * (1 + C) * B := by
    have i1 : B⁻¹ * B = 1 := nonsing_inv_mul _ hBd.isUnit
    have i2 : Bᴴ * B⁻¹ᴴ = 1 := by rw [← conjTranspose_mul, i1, conjTranspose_one]
    have : Bᴴ * C * B = K' - K := by
      rw [hC]
      calc Bᴴ * (B⁻¹ᴴ * (K' - K) * B⁻¹) * B = (Bᴴ * B⁻¹ᴴ) * (K' - K) * (B⁻¹ * B) := by simp only [Matrix.mul_assoc]
        _ = K' - K := by rw [i1, i2, Matrix.one_mul, Matrix.mul_one]
    rw [Matrix.mul_add, Matrix.add_mul, Matrix.mul_one, this, ← hB]
    abel
  have hH : (1 + C).IsHermitian := by
    have := hCp.isHermitian
    unfold Matrix.IsHermitian at this ⊢
    rw [conjTranspose_add, this, conjTranspose_one]
  have h1 : 1 ≤ (1 + C).det := by
    rw [hH.det_eq_prod_eigenvalues]
    have hi : ∀ i, 1 ≤ hH.eigenvalues i := fun i => by
      rw [hH.eigenvalues_eq, add_mulVec, one_mulVec, dotProduct_add]
      have e0 := hCp.dotProduct_mulVec_nonneg (hH.eigenvectorBasis i).ofLp
      have e1 : star (hH.eigenvectorBasis i).ofLp ⬝ᵥ (hH.eigenvectorBasis i).ofLp = 1 := by
        rw [dotProduct_comm, ← EuclideanSpace.inner_eq_star_dotProduct, real_inner_self_eq_norm_sq, hH.eigenvectorBasis.orthonormal.1 i, one_pow]
      rw [e1]
      simpa using e0
    have : ∏ i : Fin n, (1 : ℝ) ≤ ∏ i, hH.eigenvalues i := Finset.prod_le_prod (fun _ _ => zero_le_one) fun i _ => hi i
    simpa using this
  rw [e1, det_mul, det_mul, hB, det_mul, mul_right_comm]
  refine le_mul_of_one_le_right ?_ h1
  rw [← det_mul, ← hB]
  exact hdK.le

theorem psd_sum {n : ℕ} {M : Matrix (Fin n) (Fin n) ℝ} (h : M.PosSemidef) (w : Fin n → ℝ) : 0 ≤ ∑ i, ∑ j, w i * w j * M i j := by
  refine (h.dotProduct_mulVec_nonneg w).trans (le_of_eq ?_)
  show ∑ i, star (w i) * ∑ j, M i j * w j = _
  refine Finset.sum_congr rfl fun i _ => ?_
  rw [star_trivial, Finset.mul_sum]
  exact Finset.sum_congr rfl fun j _ => by ring

theorem psd_of_sum {n : ℕ} {M : Matrix (Fin n) (Fin n) ℝ} (hs : ∀ i j, M i j = M j i) (h : ∀ w : Fin n → ℝ, 0 ≤ ∑ i, ∑ j, w i * w j * M i j) : M.PosSemidef := by
  refine .of_dotProduct_mulVec_nonneg ?_ fun w => ?_
  · ext i j
    rw [Matrix.conjTranspose_apply, star_trivial, hs]
  · refine (h w).trans (le_of_eq ?_)
    show _ = ∑ i, star (w i) * ∑ j, M i j * w j
    refine Finset.sum_congr rfl fun i _ => ?_
    rw [star_trivial, Finset.mul_sum]
    exact Finset.sum_congr rfl fun j _ => by ring

/-- larger diagonals and further kernels -/
theorem Enlarged.more {fk fk' : FK} (h : Enlarged fk fk') (hw' : fk'.WF) (hs' : fk'.Sound) : MoreVariance fk fk' := by
  refine ⟨h.outputs, fun n o x w ho => ?_, h.noise⟩
  rw [← sub_nonneg, ← Finset.sum_sub_distrib]
  have hk : ∀ q < fk'.Q, (Matrix.of fun i j => (fk'.kernels.getD q (.identity none)).doc (distOn (fk'.kdims q) (x i) (x j))).PosSemidef := fun q hq => hs'.kernels q hq n x
  let o' : Fin n → Fin fk'.D := fun i => ⟨o i, h.outputs ▸ ho i⟩
  let δ : ℕ → ℕ → ℝ := fun q a => (fk'.coregDiags.getD q []).getD a 0 - (fk.coregDiags.getD q []).getD a 0
  have hd : ∀ q < fk.Q, (Matrix.diagonal fun a : Fin fk'.D => δ q a).PosSemidef := fun q hq =>
    Matrix.PosSemidef.diagonal fun a => sub_nonneg.2 (h.diags q hq a (h.outputs ▸ a.2))
  have e : ∀ i j, fk'.cov (o i) (o j) (x i) (x j) - fk.cov (o i) (o j) (x i) (x j) =
      (∑ q ∈ Finset.range fk.Q, ((Matrix.diagonal fun a : Fin fk'.D => δ q a).submatrix o' o').hadamard
        (Matrix.of fun i j => (fk'.kernels.getD q (.identity none)).doc (distOn (fk'.kdims q) (x i) (x j))) +
      ∑ q ∈ Finset.Ico fk.Q fk'.Q, ((fnMatrix fk'.D fk'.D (fk'.B q)).submatrix o' o').hadamard
        (Matrix.of fun i j => (fk'.kernels.getD q (.identity none)).doc (distOn (fk'.kdims q) (x i) (x j)))) i j := fun i j => by
    unfold FK.cov
    rw [Matrix.add_apply, Matrix.sum_apply, Matrix.sum_apply, Finset.range_eq_Ico, Finset.range_eq_Ico, ← Finset.sum_Ico_consecutive _ (Nat.zero_le _) h.kernels,
      add_sub_right_comm, ← Finset.sum_sub_distrib]
    congr 1
    refine Finset.sum_congr rfl fun q hq => ?_
    have hq := (Finset.mem_Ico.1 hq).2
    have hkd : fk'.kdims q = fk.kdims q := by unfold FK.kdims; rw [(h.same q hq).1]
    rw [hadamard_apply, submatrix_apply, Matrix.of_apply, ← (h.same q hq).1, ← hkd, ← sub_mul]
    congr 1
    unfold FK.B
    rw [(h.same q hq).2, add_sub_add_left_eq_sub, Matrix.diagonal_apply]
    by_cases hij : o i = o j
    · rw [if_pos hij, if_pos hij, if_pos (Fin.ext hij)]
    · rw [if_neg hij, if_neg hij, if_neg fun h' => hij (Fin.ext_iff.1 h'), sub_zero]
  have hp := psd_sum (Matrix.PosSemidef.add
    (Matrix.posSemidef_sum (Finset.range fk.Q) fun q hq => ((hd q (Finset.mem_range.1 hq)).submatrix o').hadamard (hk q ((Finset.mem_range.1 hq).trans_le h.kernels)))
    (Matrix.posSemidef_sum (Finset.Ico fk.Q fk'.Q) fun q hq =>
      ((B_psd hw' (Finset.mem_Ico.1 hq).2 (hs'.kappa q (Finset.mem_Ico.1 hq).2)).submatrix o').hadamard (hk q (Finset.mem_Ico.1 hq).2))) w
  refine hp.trans (le_of_eq ?_)
  refine Finset.sum_congr rfl fun i _ => ?_
  rw [← Finset.sum_sub_distrib]
  refine Finset.sum_congr rfl fun j _ => ?_
  rw [← mul_sub, e i j]

namespace MoreVariance

variable {fk fk' : FK} (R : MoreVariance fk fk')
include R

theorem covMat {Xs : List (Arr2 ℝ)} (hX : Xs.length = fk.D) : (fk'.covMat Xs - fk.covMat Xs).PosSemidef := by
  have hsym : ∀ (fk : FK) i j, fk.covMat Xs i j = fk.covMat Xs j i := fun fk i j => by
    show fk.cov _ _ _ _ + _ = fk.cov _ _ _ _ + _
    rw [cov_symm]
    congr 1
    by_cases h : (i : ℕ) = j
    · rw [if_pos h, if_pos h.symm, h]
    · rw [if_neg h, if_neg (Ne.symm h)]
  refine psd_of_sum (fun i j => by rw [Matrix.sub_apply, Matrix.sub_apply, hsym fk', hsym fk]) fun w => ?_
  have h1 := R.sums _ (fun i : Fin (Xs.map Arr2.rows).sum => ownerOf (Xs.map Arr2.rows) i) (fun i => rowPoint Xs i) w fun i => owner_lt hX i
  have h2 : ∀ i j : Fin (Xs.map Arr2.rows).sum, w i * w j * (fk'.covMat Xs - fk.covMat Xs) i j =
      w i * w j * fk'.cov (ownerOf (Xs.map Arr2.rows) i) (ownerOf (Xs.map Arr2.rows) j) (rowPoint Xs i) (rowPoint Xs j) -
      w i * w j * fk.cov (ownerOf (Xs.map Arr2.rows) i) (ownerOf (Xs.map Arr2.rows) j) (rowPoint Xs i) (rowPoint Xs j) +
      if i = j then w i * w i * (fk'.noise.getD (ownerOf (Xs.map Arr2.rows) i) 0 - fk.noise.getD (ownerOf (Xs.map Arr2.rows) i) 0) else 0 := fun i j => by
    show w i * w j * ((fk'.cov _ _ (rowPoint Xs i) (rowPoint Xs j) + if (i : ℕ) = j then _ else 0) - (fk.cov _ _ (rowPoint Xs i) (rowPoint Xs j) + if (i : ℕ) = j then _ else 0)) = _
    by_cases h : i = j
    · subst h
      rw [if_pos rfl, if_pos rfl, if_pos rfl]
      ring
    · rw [if_neg fun h' => h (Fin.ext h'), if_neg fun h' => h (Fin.ext h'), if_neg h]
      ring
  simp only [h2, Finset.sum_add_distrib, Finset.sum_sub_distrib, Finset.sum_ite_eq, Finset.mem_univ, if_true]
  have h3 : 0 ≤ ∑ i : Fin (Xs.map Arr2.rows).sum, w i * w i * (fk'.noise.getD (ownerOf (Xs.map Arr2.rows) i) 0 - fk.noise.getD (ownerOf (Xs.map Arr2.rows) i) 0) :=
    Finset.sum_nonneg fun i _ => mul_nonneg (mul_self_nonneg _) (sub_nonneg.2 (R.noise _ (owner_lt hX i)))
  linarith

/-- what is left of the variance of a new observation grows at least by as much as its noise -/
theorem condVar (hw : fk.WF) (hw' : fk'.WF) (hs : fk.Sound) (hs' : fk'.Sound) {Xs : List (Arr2 ℝ)} (hX : Xs.length = fk.D) {d : ℕ} (hd : d < fk.D) (x : ℕ → ℝ) :
    fk.condVar Xs d x + (fk'.noise.getD d 0 - fk.noise.getD d 0) ≤ fk'.condVar Xs d x := by
  unfold FK.condVar
  refine schur_mono (covMat_posDef hw hX hs.kernels hs.kappa hs.noise) (covMat_posDef hw' (hX.trans R.outputs.symm) hs'.kernels hs'.kappa hs'.noise) fun v => ?_
  have hJ := R.sums ((Xs.map Arr2.rows).sum + 1) (Fin.snoc (fun i => ownerOf (Xs.map Arr2.rows) i) d) (Fin.snoc (fun i => rowPoint Xs i) x) (Fin.snoc (fun i => - v i) 1)
    (fun i => by
      refine Fin.lastCases ?_ (fun i => ?_) i
      · rw [Fin.snoc_last]; exact hd
      · rw [Fin.snoc_castSucc]; exact owner_lt hX i)
  simp only [Fin.sum_univ_castSucc, Fin.snoc_castSucc, Fin.snoc_last] at hJ
  have q : ∀ fk : FK, v ⬝ᵥ fk.covMat Xs *ᵥ v = ∑ i, ∑ j, v i * v j * fk.cov (ownerOf (Xs.map Arr2.rows) i) (ownerOf (Xs.map Arr2.rows) j) (rowPoint Xs i) (rowPoint Xs j) +
      ∑ i, v i * v i * fk.noise.getD (ownerOf (Xs.map Arr2.rows) i) 0 := fun fk => by
    rw [← Finset.sum_add_distrib]
    show ∑ i, v i * ∑ j, fk.covMat Xs i j * v j = _
    refine Finset.sum_congr rfl fun i _ => ?_
    have : ∀ j, fk.covMat Xs i j * v j = v j * fk.cov (ownerOf (Xs.map Arr2.rows) i) (ownerOf (Xs.map Arr2.rows) j) (rowPoint Xs i) (rowPoint Xs j) +
        if i = j then v i * fk.noise.getD (ownerOf (Xs.map Arr2.rows) i) 0 else 0 := fun j => by
      show (fk.cov _ _ (rowPoint Xs i) (rowPoint Xs j) + if (i : ℕ) = j then _ else 0) * v j = _
      by_cases h : i = j
      · subst h
        rw [if_pos rfl, if_pos rfl]
        ring
      · rw [if_neg fun h' => h (Fin.ext h'), if_neg h]
        ring
    simp only [this]
    rw [Finset.sum_add_distrib, Finset.sum_ite_eq Finset.univ i, if_pos (Finset.mem_univ _), mul_add, Finset.mul_sum]
    congr 1
    · exact Finset.sum_congr rfl fun j _ => by ring
    · ring
  have c1 : ∀ fk : FK, ∑ i : Fin (Xs.map Arr2.rows).sum, -v i * 1 * fk.cov (ownerOf (Xs.map Arr2.rows) i) d (rowPoint Xs i) x = -(v ⬝ᵥ fk.crossCov Xs d x) := fun fk => by
    show _ = -∑ i, v i * fk.crossCov Xs d x i
    rw [← Finset.sum_neg_distrib]
    refine Finset.sum_congr rfl fun i _ => ?_
    rw [cov_symm]
    show -v i * 1 * fk.crossCov Xs d x i = _
    ring
  have c2 : ∀ fk : FK, ∑ i : Fin (Xs.map Arr2.rows).sum, 1 * -v i * fk.cov d (ownerOf (Xs.map Arr2.rows) i) x (rowPoint Xs i) = -(v ⬝ᵥ fk.crossCov Xs d x) := fun fk => by
    show _ = -∑ i, v i * fk.crossCov Xs d x i
    rw [← Finset.sum_neg_distrib]
    refine Finset.sum_congr rfl fun i _ => ?_
    show 1 * -v i * fk.crossCov Xs d x i = _
    ring
  simp only [neg_mul_neg, Finset.sum_add_distrib, c1, c2] at hJ
  rw [q, q]
  have h3 : ∑ i : Fin (Xs.map Arr2.rows).sum, v i * v i * fk.noise.getD (ownerOf (Xs.map Arr2.rows) i) 0 ≤
      ∑ i : Fin (Xs.map Arr2.rows).sum, v i * v i * fk'.noise.getD (ownerOf (Xs.map Arr2.rows) i) 0 :=
    Finset.sum_le_sum fun i _ => mul_le_mul_of_nonneg_left (R.noise _ (owner_lt hX i)) (mul_self_nonneg _)
  unfold FK.priorVar
  linarith

theorem det (hw : fk.WF) (hs : fk.Sound) {Xs : List (Arr2 ℝ)} (hX : Xs.length = fk.D) : (fk.covMat Xs).det ≤ (fk'.covMat Xs).det :=
  det_grows (covMat_posDef hw hX hs.kernels hs.kappa hs.noise) (R.covMat hX)

end MoreVariance

/-- adding a nonnegative diagonal leaves less explained -/
theorem quad_noise {n : ℕ} {K K' : Matrix (Fin n) (Fin n) ℝ} (hK : K.PosDef) (hK' : K'.PosDef) {δ : Fin n → ℝ} (hδ : ∀ i, 0 ≤ δ i)
    (h : ∀ i j, K' i j = K i j + if i = j then δ i else 0) (k : Fin n → ℝ) : k ⬝ᵥ K'⁻¹ *ᵥ k ≤ k ⬝ᵥ K⁻¹ *ᵥ k := by
  have := schur_mono hK hK' (k := k) (k' := k) (c := 0) (c' := 0) (δ := 0) fun v => by
    have : v ⬝ᵥ K' *ᵥ v = v ⬝ᵥ K *ᵥ v + ∑ i, v i * v i * δ i := by
      show ∑ i, v i * ∑ j, K' i j * v j = ∑ i, v i * ∑ j, K i j * v j + _
      rw [← Finset.sum_add_distrib]
      refine Finset.sum_congr rfl fun i _ => ?_
      have : ∀ j, K' i j * v j = K i j * v j + if i = j then δ i * v i else 0 := fun j => by
        rw [h i j]
        by_cases e : i = j
        · subst e
          rw [if_pos rfl, if_pos rfl]
          ring
        · rw [if_neg e, if_neg e]
          ring
      simp only [this]
      rw [Finset.sum_add_distrib, Finset.sum_ite_eq Finset.univ i, if_pos (Finset.mem_univ _)]
      ring
    rw [this]
    have h3 : 0 ≤ ∑ i, v i * v i * δ i := Finset.sum_nonneg fun i _ => mul_nonneg (mul_self_nonneg _) (hδ i)
    linarith
  linarith

end Verif
