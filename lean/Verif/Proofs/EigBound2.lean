import Verif.Proofs.EigBound

namespace Verif
open Matrix Kronecker

theorem forall₂_mem {α β : Type*} {R : α → β → Prop} {l : List α} {r : List β} (h : List.Forall₂ R l r) {a : α}
    (ha : a ∈ l) : ∃ b ∈ r, R a b := by
  induction h with
  | nil => simp at ha
  | cons hu _ ih =>
    rcases List.mem_cons.1 ha with rfl | h'
    · exact ⟨_, by simp, hu⟩
    · obtain ⟨b, hb, hR⟩ := ih h'
      exact ⟨b, by simp [hb], hR⟩

/-! ### Kronecker -/

theorem kron_sq {A B M : MatObj} (hA : Good A) (hB : Good B) (sA : A.cols = A.rows) (sB : B.cols = B.rows)
    (h : kroneckerNew A B = .ok M) : ∃ (hr : M.rows = A.rows * B.rows), M.cols = M.rows ∧
    M.sq = (A.sq ⊗ₖ B.sq).submatrix (fun i => finProdFinEquiv.symm (Fin.cast hr i)) (fun i => finProdFinEquiv.symm (Fin.cast hr i)) := by
  obtain ⟨h1, h2, hR⟩ := kronecker_represents hA hB h
  have hc : M.cols = M.rows := by rw [h1, h2, sA, sB]
  refine ⟨h1, hc, ?_⟩
  ext i j
  simp only [MatObj.sq, fnMatrix, Matrix.submatrix_apply, Matrix.kroneckerMap_apply]
  rw [hR.entry i.2 (by rw [hc]; exact j.2)]
  simp [finProdFinEquiv, Fin.divNat, Fin.modNat, sB]

theorem kron_psd {A B M : MatObj} (hA : Good A) (hB : Good B) (sA : A.cols = A.rows) (sB : B.cols = B.rows)
    (pA : A.sq.PosSemidef) (pB : B.sq.PosSemidef) (h : kroneckerNew A B = .ok M) : M.sq.PosSemidef := by
  obtain ⟨hr, -, e⟩ := kron_sq hA hB sA sB h
  rw [e]
  exact (pA.kronecker pB).submatrix _

theorem kron_eigLE {A B M : MatObj} (hA : Good A) (hB : Good B) (sA : A.cols = A.rows) (sB : B.cols = B.rows)
    (pA : A.sq.PosSemidef) (pB : B.sq.PosSemidef)
    (bA : ∀ u, A.upperEigBound = .ok u → EigLE A.sq u) (bB : ∀ u, B.upperEigBound = .ok u → EigLE B.sq u)
    (h : kroneckerNew A B = .ok M) {b : ℝ} (hb : M.upperEigBound = .ok b) : EigLE M.sq b := by
  obtain ⟨hr, -, e⟩ := kron_sq hA hB sA sB h
  obtain ⟨ua, ub, hua, hub, rfl⟩ : ∃ ua ub, A.upperEigBound = .ok ua ∧ B.upperEigBound = .ok ub ∧ b = ua * ub := by
    simp only [kroneckerNew, bind_ok, pure_ok] at h
    obtain ⟨_, _, rfl⟩ := h
    simp only [bind_ok, pure_ok] at hb
    obtain ⟨ua, h1, ub, h2, rfl⟩ := hb
    exact ⟨ua, ub, h1, h2, rfl⟩
  rw [eigLE_iff (kron_psd hA hB sA sB pA pB h).isHermitian]
  have qA := (eigLE_iff pA.isHermitian ua).1 (bA ua hua)
  have qB := (eigLE_iff pB.isHermitian ub).1 (bB ub hub)
  have hua0 : 0 ≤ ua := by
    have h1 := qA.diag_nonneg (i := ⟨0, hA.rpos⟩)
    have h2 := pA.diag_nonneg (i := ⟨0, hA.rpos⟩)
    simp only [Matrix.sub_apply, Matrix.smul_apply, one_apply_eq, smul_eq_mul, mul_one] at h1
    linarith
  have key : (ua * ub) • (1 : Matrix (Fin A.rows × Fin B.rows) _ ℝ) - A.sq ⊗ₖ B.sq =
      ua • ((1 : Matrix (Fin A.rows) (Fin A.rows) ℝ) ⊗ₖ (ub • (1 : Matrix (Fin B.rows) (Fin B.rows) ℝ) - B.sq)) +
      (ua • (1 : Matrix (Fin A.rows) (Fin A.rows) ℝ) - A.sq) ⊗ₖ B.sq := by
    ext ⟨i, k⟩ ⟨j, l⟩
    simp only [Matrix.sub_apply, Matrix.smul_apply, Matrix.add_apply, kroneckerMap_apply, one_apply, smul_eq_mul, Prod.mk.injEq]
    by_cases h1 : i = j <;> by_cases h2 : k = l <;> simp [h1, h2] <;> ring
  have hp : ((ua * ub) • (1 : Matrix (Fin A.rows × Fin B.rows) _ ℝ) - A.sq ⊗ₖ B.sq).PosSemidef := by
    rw [key]
    exact ((PosSemidef.one.kronecker qB).smul hua0).add (qA.kronecker pB)
  have := hp.submatrix (fun i : Fin M.rows => finProdFinEquiv.symm (Fin.cast hr i))
  convert this using 1
  rw [e]
  ext i j
  have : (finProdFinEquiv.symm (Fin.cast hr i) = finProdFinEquiv.symm (Fin.cast hr j)) ↔ i = j := by
    rw [finProdFinEquiv.symm.injective.eq_iff, (Fin.cast_injective hr).eq_iff]
  simp only [Matrix.sub_apply, Matrix.smul_apply, submatrix_apply, one_apply, this]

/-! ### symm_2d_list_map -/

section
variable {α β : Type*} (f : α → β) (arr : ℕ → ℕ → α)

theorem symm_inner (i : ℕ) : ∀ (k a : ℕ), i ≤ a → ∀ (out : ℕ → ℕ → β) (p q : ℕ),
    ((List.range' a k).foldl (fun out j =>
      let v := f (arr i j)
      let out := fun a b => if a = i ∧ b = j then v else out a b
      let out := fun a b => if a = j ∧ b = i then out i j else out a b
      out) out) p q =
    if p = i ∧ a ≤ q ∧ q < a + k ∨ q = i ∧ a ≤ p ∧ p < a + k then f (arr i (max p q)) else out p q
  | 0, a, _, out, p, q => by
    simp only [List.range'_zero, List.foldl_nil]
    rw [if_neg (by omega)]
  | k + 1, a, ha, out, p, q => by
    rw [List.range'_succ, List.foldl_cons, symm_inner i k (a + 1) (by omega)]
    by_cases h1 : p = i ∧ a + 1 ≤ q ∧ q < a + 1 + k ∨ q = i ∧ a + 1 ≤ p ∧ p < a + 1 + k
    · rw [if_pos h1, if_pos (by omega)]
    · rw [if_neg h1]
      simp only
      by_cases h2 : p = a ∧ q = i
      · rw [if_pos h2, if_pos (by simp), if_pos (by omega)]
        congr 2; omega
      · rw [if_neg h2]
        by_cases h3 : p = i ∧ q = a
        · rw [if_pos h3, if_pos (by omega)]
          congr 2; omega
        · rw [if_neg h3, if_neg (by omega)]

theorem symm_outer (D : ℕ) (out : ℕ → ℕ → β) : ∀ k ≤ D, ∀ p q : ℕ,
    ((List.range k).foldl (fun out i =>
    (List.range' i (D - i)).foldl (fun out j =>
      let v := f (arr i j)
      let out := fun a b => if a = i ∧ b = j then v else out a b
      let out := fun a b => if a = j ∧ b = i then out i j else out a b
      out) out) out) p q =
    if min p q < k ∧ max p q < D then f (arr (min p q) (max p q)) else out p q
  | 0, _, p, q => by simp
  | k + 1, hk, p, q => by
    rw [List.range_succ, List.foldl_append, List.foldl_cons, List.foldl_nil, symm_inner f arr k (D - k) k le_rfl,
      symm_outer D out k (by omega) p q]
    by_cases h : p = k ∧ k ≤ q ∧ q < k + (D - k) ∨ q = k ∧ k ≤ p ∧ p < k + (D - k)
    · rw [if_pos h, if_pos (by omega)]
      congr 2; omega
    · rw [if_neg h]
      by_cases h2 : min p q < k ∧ max p q < D
      · rw [if_pos h2, if_pos (by omega)]
      · rw [if_neg h2, if_neg (by omega)]

theorem symm2dListMap_eq (D : ℕ) (empty : ℕ → ℕ → β) {p q : ℕ} (hp : p < D) (hq : q < D) :
    symm2dListMap f arr D empty p q = f (arr (min p q) (max p q)) := by
  unfold symm2dListMap
  rw [symm_outer f arr D empty D le_rfl, if_pos (by omega)]
end

/-! ### block matrices -/

/-- bilinear form -/
def bil (n : ℕ) (A : ℕ → ℕ → ℝ) (x y : ℕ → ℝ) : ℝ := ∑ i ∈ Finset.range n, ∑ j ∈ Finset.range n, x i * A i j * y j

theorem bil_le {n : ℕ} {A : ℕ → ℕ → ℝ} {u : ℝ} (hS : Sym n A) (h1 : QLE n A u) (h2 : QLE n (fun i j => - A i j) u)
    (x y : ℕ → ℝ) : 2 * bil n A x y ≤ u * (nrm n x + nrm n y) := by
  have e1 : quad n A (fun i => x i + y i) = quad n A x + 2 * bil n A x y + quad n A y := by
    have hc : bil n A x y = bil n A y x := by
      unfold bil
      rw [Finset.sum_comm]
      refine Finset.sum_congr rfl fun i hi => Finset.sum_congr rfl fun j hj => ?_
      rw [hS j (Finset.mem_range.1 hj) i (Finset.mem_range.1 hi)]; ring
    have : quad n A (fun i => x i + y i) = quad n A x + bil n A x y + bil n A y x + quad n A y := by
      unfold quad bil
      simp only [← Finset.sum_add_distrib]
      exact Finset.sum_congr rfl fun i _ => Finset.sum_congr rfl fun j _ => by ring
    rw [this, ← hc]; ring
  have e2 : quad n (fun i j => -A i j) (fun i => x i - y i) = -quad n A x + 2 * bil n A x y - quad n A y := by
    have hc : bil n A x y = bil n A y x := by
      unfold bil
      rw [Finset.sum_comm]
      refine Finset.sum_congr rfl fun i hi => Finset.sum_congr rfl fun j hj => ?_
      rw [hS j (Finset.mem_range.1 hj) i (Finset.mem_range.1 hi)]; ring
    have : quad n (fun i j => -A i j) (fun i => x i - y i) = -quad n A x + bil n A x y + bil n A y x - quad n A y := by
      unfold quad bil
      simp only [← Finset.sum_add_distrib, ← Finset.sum_sub_distrib, ← Finset.sum_neg_distrib]
      exact Finset.sum_congr rfl fun i _ => Finset.sum_congr rfl fun j _ => by ring
    rw [this, ← hc]; ring
  have n1 : nrm n (fun i => x i + y i) + nrm n (fun i => x i - y i) = 2 * (nrm n x + nrm n y) := by
    unfold nrm
    simp only [← Finset.sum_add_distrib, Finset.mul_sum]
    exact Finset.sum_congr rfl fun i _ => by ring
  have a1 := h1 (fun i => x i + y i)
  have a2 := h2 (fun i => x i - y i)
  rw [e1] at a1; rw [e2] at a2
  have : u * nrm n (fun i => x i + y i) + u * nrm n (fun i => x i - y i) = 2 * (u * (nrm n x + nrm n y)) := by
    rw [← mul_add, n1]; ring
  linarith

theorem quad_blocks {D m : ℕ} (A : ℕ → ℕ → ℝ) (x : ℕ → ℝ) :
    quad (D * m) A x = ∑ k ∈ Finset.range D, ∑ l ∈ Finset.range D,
      bil m (fun p q => A (k * m + p) (l * m + q)) (fun p => x (k * m + p)) (fun q => x (l * m + q)) := by
  unfold quad bil
  rw [sum_range_mul]
  refine Finset.sum_congr rfl fun k _ => ?_
  rw [Finset.sum_comm]
  simp only [sum_range_mul]
  refine Finset.sum_congr rfl fun p _ => ?_
  rw [Finset.sum_comm]

theorem nrm_blocks {D m : ℕ} (x : ℕ → ℝ) :
    nrm (D * m) x = ∑ k ∈ Finset.range D, nrm m (fun p => x (k * m + p)) := by
  unfold nrm; rw [sum_range_mul]

theorem block_qle {D m : ℕ} {A : ℕ → ℕ → ℝ} {u : ℕ → ℕ → ℝ} {b : ℝ}
    (hu : ∀ k < D, ∀ l < D, u k l = u l k)
    (hS : ∀ k < D, ∀ l < D, Sym m (fun p q => A (k * m + p) (l * m + q)))
    (h1 : ∀ k < D, ∀ l < D, QLE m (fun p q => A (k * m + p) (l * m + q)) (u k l))
    (h2 : ∀ k < D, ∀ l < D, QLE m (fun p q => - A (k * m + p) (l * m + q)) (u k l))
    (hb : ∀ l < D, ∑ k ∈ Finset.range D, |u k l| ≤ b) : QLE (D * m) A b := by
  intro x
  rw [quad_blocks, nrm_blocks]
  set N : ℕ → ℝ := fun k => nrm m (fun p => x (k * m + p)) with hN
  have s1 : ∑ k ∈ Finset.range D, ∑ l ∈ Finset.range D,
      bil m (fun p q => A (k * m + p) (l * m + q)) (fun p => x (k * m + p)) (fun q => x (l * m + q)) ≤
      ∑ k ∈ Finset.range D, ∑ l ∈ Finset.range D, u k l * (N k + N l) / 2 := by
    refine Finset.sum_le_sum fun k hk => Finset.sum_le_sum fun l hl => ?_
    have hk := Finset.mem_range.1 hk
    have hl := Finset.mem_range.1 hl
    have := bil_le (hS k hk l hl) (h1 k hk l hl) (h2 k hk l hl) (fun p => x (k * m + p)) (fun q => x (l * m + q))
    simp only [hN]
    linarith
  have s2 : ∑ k ∈ Finset.range D, ∑ l ∈ Finset.range D, u k l * (N k + N l) / 2 =
      ∑ l ∈ Finset.range D, (∑ k ∈ Finset.range D, u k l) * N l := by
    have e : ∑ k ∈ Finset.range D, ∑ l ∈ Finset.range D, u k l * N k = ∑ k ∈ Finset.range D, ∑ l ∈ Finset.range D, u k l * N l := by
      rw [Finset.sum_comm]
      refine Finset.sum_congr rfl fun l hl => Finset.sum_congr rfl fun k hk => ?_
      rw [hu k (Finset.mem_range.1 hk) l (Finset.mem_range.1 hl)]
    have e2 : ∑ k ∈ Finset.range D, ∑ l ∈ Finset.range D, u k l * (N k + N l) / 2 =
        (∑ k ∈ Finset.range D, ∑ l ∈ Finset.range D, u k l * N k + ∑ k ∈ Finset.range D, ∑ l ∈ Finset.range D, u k l * N l) / 2 := by
      simp only [← Finset.sum_add_distrib, Finset.sum_div]
      exact Finset.sum_congr rfl fun k _ => Finset.sum_congr rfl fun l _ => by ring
    rw [e2, e, Finset.sum_comm]
    simp only [Finset.sum_mul]
    ring
  rw [s2] at s1
  refine s1.trans ?_
  rw [Finset.mul_sum]
  refine Finset.sum_le_sum fun l hl => mul_le_mul_of_nonneg_right ?_ (nrm_nonneg _ _)
  exact (Finset.sum_le_sum fun k _ => le_abs_self _).trans (hb l (Finset.mem_range.1 hl))

theorem symmBlock_bound {blocks : List (List MatObj)} {M : MatObj} (h : symmSquareBlockNew blocks = .ok M) {b : ℝ}
    (hb : M.upperEigBound = .ok b) :
    ∃ u : ℕ → ℕ → ℝ, (∀ i j, i ≤ j → ∀ (_ : j < blocks.length) K, (blocks.getD i [])[j]? = some K →
        K.upperEigBound = .ok (u i j)) ∧ (∀ i < blocks.length, ∀ j < blocks.length, u i j = u j i) ∧
      ∀ j < blocks.length, ∑ i ∈ Finset.range blocks.length, |u i j| ≤ b := by
  unfold symmSquareBlockNew at h
  simp only at h
  split at h
  · cases h
  · rename_i hfs
    split at h
    · rename_i b00 r0 rest
      clear hfs
      set blocks := (b00 :: r0) :: rest with hbl
      simp only [bind_ok, pure_ok] at h
      obtain ⟨_, _, rfl⟩ := h
      simp only [bind_ok] at hb
      obtain ⟨bs, hbs, hb⟩ := hb
      set D := blocks.length with hD
      have hall := seqAll_ok hbs
      refine ⟨symm2dListMap (fun e : Except PyErr ℝ => e.toOption.getD 0)
        (fun i j => ((blocks.getD i []).getD j b00).upperEigBound) D fun _ _ => 0, fun i j hij hj K hK => ?_,
        fun i hi j hj => ?_, fun j hj => ?_⟩
      · rw [symm2dListMap_eq _ _ D _ (by omega) hj, Nat.min_eq_left hij, Nat.max_eq_right hij]
        have hg : (blocks.getD i []).getD j b00 = K := by rw [List.getD_eq_getElem?_getD, hK]; rfl
        rw [hg]
        have hmem : K.upperEigBound ∈ (List.range D).flatMap fun i => (List.range' i (D - i)).map fun j =>
            ((blocks.getD i []).getD j b00).upperEigBound := by
          rw [List.mem_flatMap]
          exact ⟨i, List.mem_range.2 (by omega), List.mem_map.2 ⟨j, List.mem_range'_1.2 (by omega), by rw [hg]⟩⟩
        obtain ⟨x, -, hx⟩ := forall₂_mem hall hmem
        rw [hx]; rfl
      · rw [symm2dListMap_eq _ _ D _ hi hj, symm2dListMap_eq _ _ D _ hj hi, min_comm, max_comm]
      · have := npMax_ge hb
        refine this _ ?_
        unfold vmk
        exact List.mem_map.2 ⟨j, List.mem_range.2 hj, rfl⟩
    · cases h

end Verif
