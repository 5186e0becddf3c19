import Verif.Proofs.Built
import Mathlib.LinearAlgebra.Matrix.Kronecker

/-!
C01–C09: the operator classes. `M.dense` is the matrix of `as_numpy()`; `Built M` says `M` came out of
(arbitrarily nested) constructor calls; vectors are written `List.ofFn x` with `x : Fin n → ℝ`.
-/

namespace Verif
open Matrix

/-- C01: `matvec` is multiplication by `as_numpy()`. -/
theorem C01_matvec_eq_dense {M : MatObj} (hM : Built M) (x : Fin M.cols → ℝ) :
    M.matvec (List.ofFn x) = List.ofFn (M.dense *ᵥ x) := by
  rw [hM.good.matvec _ (by simp), vmk_ofFn]
  congr 1; funext i
  simp only [MatObj.dense, fnMatrix, mulVec, dotProduct]
  rw [Finset.sum_range]
  exact Finset.sum_congr rfl fun j _ => by rw [ofFn_getD]

/-- C01, what the operators without operands stand for: `NumpyMatrix(A)` for the array, `Identity(n)` for the identity, `Diag(v)` for the diagonal
matrix and a wrapped function for the matrix it multiplies by. -/
theorem C01_leaves :
    (∀ (a : NDArr ℝ) (M : MatObj), a.WF → numpyMatrixNew a = .ok M → a.shape = [M.rows, M.cols] ∧ ∀ i < M.rows, ∀ j < M.cols, M.asNumpy.get i j = a.get [i, j]) ∧
    (∀ (n : ℕ) (M : MatObj), identityNew n = .ok M → M.rows = n ∧ M.cols = n ∧ M.dense = fnMatrix M.rows M.cols fun i j => if i = j then 1 else 0) ∧
    (∀ (v : NDArr ℝ) (M : MatObj), v.WF → diagNew v = .ok M → M.rows = v.data.length ∧ M.cols = v.data.length ∧
      M.dense = fnMatrix M.rows M.cols fun i j => if i = j then v.data.getD i 0 else 0) ∧
    ∀ (n m : ℕ) (mvm : List ℝ → List ℝ) (M : MatObj) (A : ℕ → ℕ → ℝ), (∀ x : Fin m → ℝ, mvm (List.ofFn x) = List.ofFn (fnMatrix n m A *ᵥ x)) →
      wrapNew n m mvm = .ok M → M.rows = n ∧ M.cols = m ∧ M.dense = fnMatrix M.rows M.cols A := by
  refine ⟨fun a M ha h => ?_, fun n M h => ?_, fun v M hv h => ?_, fun n m mvm M A hA h => ?_⟩
  · obtain ⟨hs, hr⟩ := numpyMatrix_represents ha h
    refine ⟨hs, fun i hi j hj => ?_⟩
    rw [hr.entry hi hj, NDArr.get, hs]
    simp [ravel]
  · obtain ⟨h1, h2, hr⟩ := identity_represents h
    exact ⟨h1, h2, by ext i j; exact hr.entry i.2 j.2⟩
  · obtain ⟨hs, hc, hr⟩ := diag_represents hv h
    have hl : M.rows = v.data.length := by have := hv; simp only [NDArr.WF, hs] at this; simpa using this.symm
    exact ⟨hl, hc.trans hl, by ext i j; exact hr.entry i.2 j.2⟩
  · have hr := wrap_represents (A := A) h fun x hx => by
      subst hx
      have := hA fun i => x.getD i 0
      rw [show List.ofFn (fun i : Fin x.length => x.getD i 0) = x from List.ext_getElem (by simp) (by simp)] at this
      rw [this, vmk_ofFn]
      congr 1; funext i
      simp only [fnMatrix, mulVec, dotProduct]
      rw [Finset.sum_range]
    obtain ⟨-, -, h1, h2, -⟩ := wrapNew_ok h
    exact ⟨h1, h2, by ext i j; exact hr.entry i.2 j.2⟩

/-- C02: `matmat` is multiplication by `as_numpy()`. -/
theorem C02_matmat_eq_dense {M : MatObj} (hM : Built M) {k : ℕ} (X : ℕ → ℕ → ℝ) :
    M.matmat (Arr2.of M.cols k X) = Arr2.of M.rows k fun i l => ∑ j ∈ Finset.range M.cols, M.asNumpy.get i j * X j l := by
  rw [hM.good.matmat _ (Arr2.of_wf _ _ _) rfl]
  refine Arr2.of_congr fun i _ l hl => Finset.sum_congr rfl fun j hj => ?_
  congr 1
  exact Arr2.of_get (Finset.mem_range.1 hj) hl

/-- C02, in matrix form: the result has the right shape and is the matrix product. -/
theorem C02_matmat_matrix {M : MatObj} (hM : Built M) {k : ℕ} (X : ℕ → ℕ → ℝ) :
    (M.matmat (Arr2.of M.cols k X)).rows = M.rows ∧ (M.matmat (Arr2.of M.cols k X)).cols = k ∧
    fnMatrix M.rows k (M.matmat (Arr2.of M.cols k X)).get = M.dense * fnMatrix M.cols k X := by
  rw [C02_matmat_eq_dense hM]
  refine ⟨rfl, rfl, ?_⟩
  ext i l
  simp only [fnMatrix, MatObj.dense, Matrix.mul_apply]
  rw [Arr2.of_get i.2 l.2, Finset.sum_range]

/-- C03: both sides of the shape are positive, `matvec` has the right length, `as_numpy()` that shape. -/
theorem C03_shapes {M : MatObj} (hM : Built M) :
    0 < M.rows ∧ 0 < M.cols ∧ (∀ x : List ℝ, x.length = M.cols → (M.matvec x).length = M.rows) ∧
    M.asNumpy.rows = M.rows ∧ M.asNumpy.cols = M.cols ∧ M.asNumpy.data.length = M.rows * M.cols := by
  have h := hM.good
  refine ⟨h.rpos, h.cpos, fun x hx => h.matvec_length hx, ?_, ?_, ?_⟩
  · rw [h.asNumpy]; rfl
  · rw [h.asNumpy]; rfl
  · rw [h.asNumpy]; exact Arr2.of_wf _ _ _

/-- C04: `Toeplitz(top)` stands for the matrix with entries `top[|i-j|]`, and its product multiplies by it. -/
theorem C04_toeplitz {top : NDArr ℝ} (hw : top.WF) {M : MatObj} (h : toeplitzNew top = .ok M) :
    M.rows = top.data.length ∧ M.cols = top.data.length ∧
    (∀ i < M.rows, ∀ j < M.cols, M.asNumpy.get i j = top.data.getD (absDiff i j) 0) ∧
    ∀ x : Fin M.cols → ℝ, M.matvec (List.ofFn x) =
      List.ofFn (Matrix.of (fun i j : ℕ => top.data.getD (absDiff i j) 0) |>.submatrix
        (fun i : Fin M.rows => (i : ℕ)) (fun j : Fin M.cols => (j : ℕ)) |>.mulVec x) := by
  obtain ⟨h1, h2, hR⟩ := toeplitz_represents hw h
  refine ⟨h1, h2, fun i hi j hj => by rw [hR.entry hi hj]; rfl, fun x => ?_⟩
  rw [C01_matvec_eq_dense (.toeplitz hw h)]
  congr 2
  ext i j
  simp only [MatObj.dense, fnMatrix, Matrix.submatrix_apply, Matrix.of_apply]
  rw [hR.entry i.2 j.2]; rfl

/-- C05: `BTTB(top, sizes)`: for grid positions `p`, `q` (multi-indices) the entry is the one of `top` at
the per-axis absolute differences; the n-dimensional FFT product multiplies by that matrix. -/
theorem C05_bttb {top : NDArr ℝ} {sizes : NDArr ℕ} (hw : top.WF) {M : MatObj} (h : bttbNew top sizes = .ok M) :
    M.rows = sizes.data.prod ∧ M.cols = sizes.data.prod ∧
    (∀ p q, inBox sizes.data p → inBox sizes.data q →
      M.asNumpy.get (ravel sizes.data p) (ravel sizes.data q) =
        top.data.getD (ravel sizes.data (List.zipWith absDiff p q)) 0) ∧
    ∀ x : Fin M.cols → ℝ, M.matvec (List.ofFn x) = List.ofFn (M.dense *ᵥ x) := by
  obtain ⟨h1, h2, hR⟩ := bttb_represents hw h
  refine ⟨h1, h2, fun p q hp hq => ?_, C01_matvec_eq_dense (.bttb hw h)⟩
  rw [hR.entry (by rw [h1]; exact ravel_lt hp) (by rw [h2]; exact ravel_lt hq), ← ravel_absDiff,
    unravel_ravel hp, unravel_ravel hq]

open Kronecker in
/-- C06: `Kronecker(A, B)` stands for `A ⊗ B` (row `i*B.rows + k` is the pair `(i, k)`). -/
theorem C06_kronecker {A B M : MatObj} (hA : Built A) (hB : Built B) (h : kroneckerNew A B = .ok M) :
    ∃ (hr : M.rows = A.rows * B.rows) (hc : M.cols = A.cols * B.cols),
    M.dense = (A.dense ⊗ₖ B.dense).submatrix (fun i => finProdFinEquiv.symm (Fin.cast hr i))
      (fun j => finProdFinEquiv.symm (Fin.cast hc j)) ∧
    ∀ x : Fin M.cols → ℝ, M.matvec (List.ofFn x) = List.ofFn (M.dense *ᵥ x) := by
  obtain ⟨h1, h2, hR⟩ := kronecker_represents hA.good hB.good h
  refine ⟨h1, h2, ?_, C01_matvec_eq_dense (.kronecker hA hB h)⟩
  ext i j
  simp only [MatObj.dense, fnMatrix, Matrix.submatrix_apply, Matrix.kroneckerMap_apply]
  rw [hR.entry i.2 j.2]
  simp [finProdFinEquiv, Fin.divNat, Fin.modNat]

theorem directSum_offset : ∀ (blocks : List MatObj) (k l i j : ℕ) (hk : k < blocks.length) (hl : l < blocks.length),
    i < blocks[k].rows → j < blocks[l].cols →
    directSum (denseList blocks) (((blocks.take k).map MatObj.rows).sum + i) (((blocks.take l).map MatObj.cols).sum + j) =
      if k = l then blocks[k].asNumpy.get i j else 0
  | [], k, _, _, _, hk, _, _, _ => by simp at hk
  | b :: rest, 0, 0, i, j, _, _, hi, hj => by
    simp only [List.getElem_cons_zero] at hi hj
    simp [denseList, directSum, hi, hj]
  | b :: rest, 0, l + 1, i, j, _, hl, hi, hj => by
    simp only [List.getElem_cons_zero] at hi
    simp only [denseList, List.map_cons, directSum, List.take_zero, List.take_succ_cons, List.map_nil, List.sum_nil,
      List.sum_cons, Nat.zero_add]
    rw [if_pos hi, if_neg (by omega), if_neg (by omega)]
  | b :: rest, k + 1, 0, i, j, _, hl, hi, hj => by
    simp only [List.getElem_cons_zero] at hj
    simp only [denseList, List.map_cons, directSum, List.take_zero, List.take_succ_cons, List.map_nil, List.sum_nil,
      List.sum_cons, Nat.zero_add]
    rw [if_neg (by omega), if_pos hj, if_neg (by omega)]
  | b :: rest, k + 1, l + 1, i, j, hk, hl, hi, hj => by
    have h1 : ¬ (b.rows + ((rest.take k).map MatObj.rows).sum + i < b.rows) := by omega
    have h2 : ¬ (b.cols + ((rest.take l).map MatObj.cols).sum + j < b.cols) := by omega
    have ih := directSum_offset rest k l i j (by simpa using hk) (by simpa using hl) (by simpa using hi) (by simpa using hj)
    simp only [List.take_succ_cons, List.map_cons, List.sum_cons, denseList, directSum, h1, h2, if_false,
      List.getElem_cons_succ, Nat.add_right_cancel_iff]
    rw [← ih]
    congr 1 <;> omega

/-- C07, `BlockDiag`: block `k` sits at the offsets given by the sizes of the blocks before it, everything
else is zero; the product multiplies by that matrix. -/
theorem C07_blockDiag {blocks : List MatObj} (hb : ∀ K ∈ blocks, Built K) {M : MatObj} (h : blockDiagNew blocks = .ok M) :
    M.rows = (blocks.map MatObj.rows).sum ∧ M.cols = (blocks.map MatObj.cols).sum ∧
    (∀ (k l : ℕ) (hk : k < blocks.length) (hl : l < blocks.length), ∀ i < blocks[k].rows, ∀ j < blocks[l].cols,
      M.asNumpy.get (((blocks.take k).map MatObj.rows).sum + i) (((blocks.take l).map MatObj.cols).sum + j) =
        if k = l then blocks[k].asNumpy.get i j else 0) ∧
    ∀ x : Fin M.cols → ℝ, M.matvec (List.ofFn x) = List.ofFn (M.dense *ᵥ x) := by
  obtain ⟨-, -, -, h1, h2⟩ := blockDiag_ok h
  have hR := blockDiag_represents (fun K hK => (hb K hK).good) h
  refine ⟨h1, h2, fun k l hk hl i hi j hj => ?_, C01_matvec_eq_dense (.blockDiag hb h)⟩
  have aux : ∀ (f : MatObj → ℕ) (k i : ℕ) (hk : k < blocks.length), i < f blocks[k] →
      ((blocks.take k).map f).sum + i < (blocks.map f).sum := by
    intro f k i hk hi
    have e : blocks = blocks.take k ++ blocks[k] :: blocks.drop (k + 1) := by simp
    conv_rhs => rw [e]
    simp only [List.map_append, List.map_cons, List.sum_append, List.sum_cons]
    omega
  rw [hR.entry (by rw [h1]; exact aux _ _ _ hk hi) (by rw [h2]; exact aux _ _ _ hl hj)]
  exact directSum_offset blocks k l i j hk hl hi hj

/-- C07, `SymmSquareBlockMatrix`: the entry in block row `k`, block column `l`, position `(i, j)`. -/
theorem C07_symmBlock {blocks : List (List MatObj)} {m : ℕ} (hb : ∀ row ∈ blocks, ∀ K ∈ row, Built K)
    (hs : ∀ row ∈ blocks, ∀ K ∈ row, K.rows = m ∧ K.cols = m) {M : MatObj} (h : symmSquareBlockNew blocks = .ok M) :
    M.rows = blocks.length * m ∧ M.cols = blocks.length * m ∧
    (∀ (k l : ℕ) (hk : k < blocks.length) (hl : l < blocks[k].length), ∀ i < m, ∀ j < m,
      M.asNumpy.get (k * m + i) (l * m + j) = blocks[k][l].asNumpy.get i j) ∧
    ∀ x : Fin M.cols → ℝ, M.matvec (List.ofFn x) = List.ofFn (M.dense *ᵥ x) := by
  obtain ⟨h1, h2, h3, hR⟩ := symmSquareBlock_represents (m := m) (fun r hr K hK => ⟨(hb r hr K hK).good, hs r hr K hK⟩) h
  refine ⟨h1, h2, fun k l hk hl i hi j hj => ?_, C01_matvec_eq_dense (.symmBlock hb hs h)⟩
  have hl' : l < blocks.length := by rw [← h3 _ (List.getElem_mem hk)]; exact hl
  have hlt : ∀ k i : ℕ, k < blocks.length → i < m → k * m + i < blocks.length * m := by
    intro k i hk hi
    have := Nat.mul_le_mul_right m (Nat.succ_le_of_lt hk)
    rw [Nat.succ_mul] at this
    omega
  rw [hR.entry (by rw [h1]; exact hlt k i hk hi) (by rw [h2]; exact hlt l j hl' hj)]
  have hm : 0 < m := by omega
  unfold blockEntry
  rw [show (k * m + i) / m = k by rw [mul_comm, Nat.mul_add_div hm, Nat.div_eq_of_lt hi, add_zero],
    show (k * m + i) % m = i by rw [mul_comm, Nat.mul_add_mod, Nat.mod_eq_of_lt hi],
    show (l * m + j) / m = l by rw [mul_comm, Nat.mul_add_div hm, Nat.div_eq_of_lt hj, add_zero],
    show (l * m + j) % m = j by rw [mul_comm, Nat.mul_add_mod, Nat.mod_eq_of_lt hj]]
  simp [hk, hl]

/-- C08, `SumMatrix`: the entrywise sum. -/
theorem C08_sum {Ks : List MatObj} (hb : ∀ K ∈ Ks, Built K) {M : MatObj} (h : sumMatrixNew Ks = .ok M) :
    (∀ K ∈ Ks, K.rows = M.rows ∧ K.cols = M.cols) ∧
    M.dense = (Ks.map fun K => fnMatrix M.rows M.cols K.asNumpy.get).sum ∧
    ∀ x : Fin M.cols → ℝ, M.matvec (List.ofFn x) = List.ofFn (M.dense *ᵥ x) := by
  have hR := sumMatrix_represents (A := fun K => K.asNumpy.get) h (fun K hK => (hb K hK).good)
  refine ⟨(sumMatrix_ok h).2, ?_, C01_matvec_eq_dense (.sum hb h)⟩
  ext i j
  simp only [MatObj.dense, fnMatrix]
  rw [hR.entry i.2 j.2]
  clear hR h hb
  induction Ks with
  | nil => rfl
  | cons K Ks ih => simp only [List.map_cons, List.sum_cons, Matrix.add_apply, ih]; rfl

/-- C08, `Composition` of one operator: that operator. -/
theorem C08_composition_one {A M : MatObj} (hA : Built A) (h : compositionNew [A] = .ok M) :
    M.rows = A.rows ∧ M.cols = A.cols ∧ M.dense = fnMatrix M.rows M.cols A.asNumpy.get := by
  obtain ⟨f, l, hf, hl, -, -, h1, h2, -, -, -⟩ := composition_ok h
  simp only [List.head?_cons, Option.some.injEq, List.getLast?_singleton] at hf hl
  subst hf; subst hl
  have hR := composition_represents (A := fun K => K.asNumpy.get) h trivial (fun K hK => by
    simp only [List.mem_singleton] at hK; subst hK; exact hA.good)
  refine ⟨h1, h2, ?_⟩
  ext i j
  simp only [MatObj.dense, fnMatrix]
  rw [hR.entry i.2 j.2]; rfl

/-- C08, longer `Composition`: the matrix product of the first operator with the composition of the rest. -/
theorem C08_composition_cons {A B : MatObj} {rest : List MatObj} {M : MatObj}
    (hb : ∀ K ∈ A :: B :: rest, Built K) (hs : (A :: B :: rest).IsChain fun A B => A.cols = B.rows)
    (h : compositionNew (A :: B :: rest) = .ok M) :
    ∃ N, compositionNew (B :: rest) = .ok N ∧ Built N ∧ M.rows = A.rows ∧ A.cols = N.rows ∧ M.cols = N.cols ∧
      M.dense = fnMatrix M.rows A.cols A.asNumpy.get * fnMatrix A.cols M.cols N.asNumpy.get ∧
      ∀ x : Fin M.cols → ℝ, M.matvec (List.ofFn x) = List.ofFn (M.dense *ᵥ x) := by
  have hs' := hs
  rw [List.isChain_cons_cons] at hs
  obtain ⟨f, l, hf, hl, hp1, hp2, h1, h2, -, -, -⟩ := composition_ok h
  simp only [List.head?_cons, Option.some.injEq] at hf
  subst hf
  have hl' : (B :: rest).getLast? = some l := by simpa using hl
  obtain ⟨N, hN⟩ : ∃ N, compositionNew (B :: rest) = .ok N := by
    unfold compositionNew
    rw [hl']
    simp only [List.head?_cons]
    rw [matrixInit_eq (hb B (by simp)).good.rpos hp2]
    exact ⟨_, rfl⟩
  have hbN : Built N := .composition (fun K hK => hb K (by simp only [List.mem_cons] at hK ⊢; tauto)) hs.2 hN
  obtain ⟨f', l'', hf', hl'', -, -, n1, n2, -, -, -⟩ := composition_ok hN
  simp only [List.head?_cons, Option.some.injEq] at hf'
  subst hf'
  rw [hl'] at hl''
  simp only [Option.some.injEq] at hl''
  subst hl''
  refine ⟨N, hN, hbN, h1, by rw [n1]; exact hs.1, by rw [h2, n2], ?_, C01_matvec_eq_dense (.composition hb hs' h)⟩
  have hR := composition_represents (A := fun K => K.asNumpy.get) h ((composable_iff _).1 hs') (fun K hK => (hb K hK).good)
  have hRN := composition_represents (A := fun K => K.asNumpy.get) hN ((composable_iff _).1 hs.2)
    (fun K hK => (hb K (by simp only [List.mem_cons] at hK ⊢; tauto)).good)
  ext i k
  simp only [MatObj.dense, fnMatrix, Matrix.mul_apply]
  rw [hR.entry i.2 k.2, prodEntry_cons, Finset.sum_range]
  refine Finset.sum_congr rfl fun j _ => ?_
  rw [hRN.entry (by rw [n1, ← hs.1]; exact j.2) (by rw [n2, ← h2]; exact k.2)]

/-- C08, `SKI(K, W, Wᵀ)`: dense form and product are those of `W K Wᵀ`. -/
theorem C08_ski {K M : MatObj} {W : Arr2 ℝ} (hK : Built K) (hr : K.rows = W.cols) (hc : K.cols = W.cols)
    (h : skiNew K W W.T = .ok M) :
    M.rows = W.rows ∧ M.cols = W.rows ∧
    M.dense = fnMatrix M.rows W.cols W.get * fnMatrix W.cols W.cols K.asNumpy.get * (fnMatrix M.cols W.cols W.get)ᵀ ∧
    ∀ x : Fin M.cols → ℝ, M.matvec (List.ofFn x) = List.ofFn (M.dense *ᵥ x) := by
  obtain ⟨h1, h2, hR⟩ := ski_represents hK.good hr hc rfl h
  refine ⟨h1, h2, ?_, C01_matvec_eq_dense (.ski hK hr hc h)⟩
  ext i j
  simp only [MatObj.dense, fnMatrix, Matrix.mul_apply, Matrix.transpose_apply]
  rw [hR.entry i.2 j.2, Finset.sum_comm, Finset.sum_range]
  refine Finset.sum_congr rfl fun q _ => ?_
  rw [Finset.sum_range, Finset.sum_mul]

/-! ### C09: which constructor calls succeed, and how the others fail -/

theorem C09_wrap (n m : ℕ) (f : List ℝ → List ℝ) :
    ((∃ M, wrapNew n m f = .ok M) ↔ 0 < n ∧ 0 < m) ∧ (¬ (0 < n ∧ 0 < m) → wrapNew n m f = .error .valueError) := by
  by_cases h : 0 < n ∧ 0 < m
  · refine ⟨⟨fun _ => h, fun _ => ?_⟩, fun h' => absurd h h'⟩
    unfold wrapNew; rw [matrixInit_eq h.1 h.2]; exact ⟨_, rfl⟩
  · have e : wrapNew n m f = .error .valueError := by
      unfold wrapNew matrixInit; rw [if_pos (by omega)]; rfl
    exact ⟨⟨fun ⟨M, hM⟩ => (by rw [e] at hM; cases hM), fun h' => absurd h' h⟩, fun _ => e⟩

theorem C09_identity (n : ℕ) :
    ((∃ M, identityNew n = .ok M) ↔ 0 < n) ∧ (n = 0 → identityNew n = .error .valueError) := by
  rcases Nat.eq_zero_or_pos n with rfl | h
  · refine ⟨⟨fun ⟨M, hM⟩ => ?_, fun h => by omega⟩, fun _ => rfl⟩
    cases hM
  · refine ⟨⟨fun _ => h, fun _ => ?_⟩, fun h' => by omega⟩
    unfold identityNew; rw [matrixInit_eq h h]; exact ⟨_, rfl⟩

theorem C09_dense (a : NDArr ℝ) :
    ((∃ M, numpyMatrixNew a = .ok M) ↔ ∃ n m, a.shape = [n, m] ∧ 0 < n ∧ 0 < m) ∧
    ((¬ ∃ n m, a.shape = [n, m] ∧ 0 < n ∧ 0 < m) → numpyMatrixNew a = .error .valueError) := by
  by_cases h : ∃ n m, a.shape = [n, m] ∧ 0 < n ∧ 0 < m
  · refine ⟨⟨fun _ => h, fun _ => ?_⟩, fun h' => absurd h h'⟩
    obtain ⟨n, m, hs, hn, hm⟩ := h
    unfold numpyMatrixNew; rw [hs]; simp only [matrixInit_eq hn hm]; exact ⟨_, rfl⟩
  · have e : numpyMatrixNew a = .error .valueError := by
      unfold numpyMatrixNew
      split
      · rename_i n m hs
        unfold matrixInit
        rw [if_pos (by by_contra hc; exact h ⟨n, m, hs, by omega, by omega⟩)]; rfl
      · rfl
    exact ⟨⟨fun ⟨M, hM⟩ => (by rw [e] at hM; cases hM), fun h' => absurd h' h⟩, fun _ => e⟩

/-- `Diag(v)`: `v` must be a non-empty vector; an unsized (0-d) array is a TypeError, the rest ValueErrors. -/
theorem C09_diag (v : NDArr ℝ) :
    ((∃ M, diagNew v = .ok M) ↔ ∃ n, v.shape = [n] ∧ 0 < n) ∧
    ((¬ ∃ n, v.shape = [n] ∧ 0 < n) → diagNew v = .error (if v.shape = [] then .typeError else .valueError)) := by
  by_cases h : ∃ n, v.shape = [n] ∧ 0 < n
  · refine ⟨⟨fun _ => h, fun _ => ?_⟩, fun h' => absurd h h'⟩
    obtain ⟨n, hs, hn⟩ := h
    unfold diagNew NDArr.len NDArr.ndim; rw [hs]
    simp only [bind, Except.bind, matrixInit_eq hn hn]
    exact ⟨_, rfl⟩
  · have e : diagNew v = .error (if v.shape = [] then .typeError else .valueError) := by
      unfold diagNew NDArr.len NDArr.ndim
      rcases hs : v.shape with _ | ⟨n, _ | ⟨m, s⟩⟩
      · rfl
      · have : n = 0 := by by_contra hc; exact h ⟨n, hs, by omega⟩
        subst this; rfl
      · by_cases hn : n < 1
        · simp [bind, Except.bind, matrixInit, hn]
        · simp [bind, Except.bind, matrixInit, hn]
    exact ⟨⟨fun ⟨M, hM⟩ => (by rw [e] at hM; cases hM), fun h' => absurd h' h⟩, fun _ => e⟩

/-- `Toeplitz(top)`: as `Diag`. -/
theorem C09_toeplitz (top : NDArr ℝ) (hw : top.WF) :
    ((∃ M, toeplitzNew top = .ok M) ↔ ∃ n, top.shape = [n] ∧ 0 < n) ∧
    ((¬ ∃ n, top.shape = [n] ∧ 0 < n) → toeplitzNew top = .error (if top.shape = [] then .typeError else .valueError)) := by
  by_cases h : ∃ n, top.shape = [n] ∧ 0 < n
  · refine ⟨⟨fun _ => h, fun _ => ?_⟩, fun h' => absurd h h'⟩
    obtain ⟨n, hs, hn⟩ := h
    have hl : top.data.length = n := by simpa [NDArr.WF, hs] using hw
    unfold toeplitzNew NDArr.len; rw [hs]
    simp only [bind, Except.bind, matrixInit_eq hn hn, ne_eq, not_true_eq_false, if_false]
    rw [if_neg (by omega)]
    exact ⟨_, rfl⟩
  · have e : toeplitzNew top = .error (if top.shape = [] then .typeError else .valueError) := by
      unfold toeplitzNew NDArr.len
      rcases hs : top.shape with _ | ⟨n, _ | ⟨m, s⟩⟩
      · rfl
      · have : n = 0 := by by_contra hc; exact h ⟨n, hs, by omega⟩
        subst this
        have hl : top.data.length = 0 := by simpa [NDArr.WF, hs] using hw
        simp [bind, Except.bind, hl]
      · simp [bind, Except.bind]
    exact ⟨⟨fun ⟨M, hM⟩ => (by rw [e] at hM; cases hM), fun h' => absurd h' h⟩, fun _ => e⟩

/-- `BTTB(top, sizes)`: `top` a non-empty vector, `sizes` a non-empty vector with product `len(top)`. -/
theorem C09_bttb (top : NDArr ℝ) (sizes : NDArr ℕ) (hw : top.WF) (hs' : sizes.WF) :
    (∃ M, bttbNew top sizes = .ok M) ↔
      ∃ n k, top.shape = [n] ∧ 0 < n ∧ sizes.shape = [k] ∧ 0 < k ∧ sizes.data.prod = n := by
  constructor
  · rintro ⟨M, hM⟩
    obtain ⟨h1, h2, h3, h4, h5, -, -, -, h9⟩ := bttb_ok hM
    have hl : top.data.length = M.rows := by simpa [NDArr.WF, h1] using hw
    obtain ⟨k, hk⟩ : ∃ k, sizes.shape = [k] := List.length_eq_one_iff.1 h9
    refine ⟨M.rows, k, h1, h3, hk, ?_, by omega⟩
    have : sizes.data.length = k := by simpa [NDArr.WF, hk] using hs'
    rw [← this]; exact List.length_pos_iff.2 h5
  · rintro ⟨n, k, h1, h2, h3, h4, h5⟩
    have hl : top.data.length = n := by simpa [NDArr.WF, h1] using hw
    have hk : sizes.data.length = k := by simpa [NDArr.WF, h3] using hs'
    unfold bttbNew NDArr.len
    rw [h1, h3]
    simp only [bind, Except.bind, matrixInit_eq h2 h2, ne_eq, not_true_eq_false, if_false]
    rw [if_neg (by omega), if_neg (by omega), if_neg (by intro h; rw [h] at hk; simp at hk; omega)]
    exact ⟨_, rfl⟩

/-- the two rejections the BTTB documentation promises are ValueErrors -/
theorem C09_bttb_rejects (top : NDArr ℝ) (sizes : NDArr ℕ) (n k : ℕ) (h1 : top.shape = [n]) (h3 : sizes.shape = [k])
    (hw : top.WF) (h : n = 0 ∨ sizes.data.prod ≠ n) : bttbNew top sizes = .error .valueError := by
  have hl : top.data.length = n := by simpa [NDArr.WF, h1] using hw
  unfold bttbNew NDArr.len
  rw [h1, h3]
  simp only [bind, Except.bind, ne_eq, not_true_eq_false, if_false]
  by_cases h0 : top.data.length = 0
  · rw [if_pos h0]
  · rw [if_neg h0, if_pos (by omega)]

/-- `SumMatrix(Ks)`: non-empty, all of one shape; otherwise ValueError. -/
theorem C09_sum (Ks : List MatObj) (hb : ∀ K ∈ Ks, Built K) :
    ((∃ M, sumMatrixNew Ks = .ok M) ↔ Ks ≠ [] ∧ ∀ K ∈ Ks, ∀ L ∈ Ks, K.rows = L.rows ∧ K.cols = L.cols) ∧
    (¬ (Ks ≠ [] ∧ ∀ K ∈ Ks, ∀ L ∈ Ks, K.rows = L.rows ∧ K.cols = L.cols) → sumMatrixNew Ks = .error .valueError) := by
  rcases Ks with _ | ⟨K0, rest⟩
  · exact ⟨⟨fun ⟨M, hM⟩ => (by cases hM), fun h => absurd rfl h.1⟩, fun _ => rfl⟩
  · have key : ((K0 :: rest).map fun K => (K.rows, K.cols)).toFinset.card = 1 ↔
        ∀ K ∈ K0 :: rest, ∀ L ∈ K0 :: rest, K.rows = L.rows ∧ K.cols = L.cols := by
      rw [Finset.card_eq_one]
      constructor
      · rintro ⟨p, hp⟩ K hK L hL
        have aux : ∀ K ∈ K0 :: rest, (K.rows, K.cols) = p := fun K hK => by
          have : (K.rows, K.cols) ∈ ((K0 :: rest).map fun K => (K.rows, K.cols)).toFinset :=
            List.mem_toFinset.2 (List.mem_map_of_mem (f := fun K : MatObj => (K.rows, K.cols)) hK)
          rw [hp] at this; exact Finset.mem_singleton.1 this
        have := (aux K hK).trans (aux L hL).symm
        exact ⟨congrArg Prod.fst this, congrArg Prod.snd this⟩
      · intro h
        refine ⟨(K0.rows, K0.cols), ?_⟩
        ext p
        simp only [List.mem_toFinset, Finset.mem_singleton, List.mem_map]
        constructor
        · rintro ⟨K, hK, rfl⟩
          obtain ⟨a, b⟩ := h K hK K0 (by simp)
          rw [a, b]
        · rintro rfl; exact ⟨K0, by simp, rfl⟩
    by_cases h : ∀ K ∈ K0 :: rest, ∀ L ∈ K0 :: rest, K.rows = L.rows ∧ K.cols = L.cols
    · refine ⟨⟨fun _ => ⟨by simp, h⟩, fun _ => ?_⟩, fun h' => absurd ⟨by simp, h⟩ h'⟩
      have hg := (hb K0 (by simp)).good
      unfold sumMatrixNew
      simp only
      rw [if_neg (by rw [not_not]; exact key.2 h), matrixInit_eq hg.rpos hg.cpos]
      exact ⟨_, rfl⟩
    · have e : sumMatrixNew (K0 :: rest) = .error .valueError := by
        unfold sumMatrixNew
        simp only
        rw [if_pos (fun hc => h (key.1 hc))]
      exact ⟨⟨fun ⟨M, hM⟩ => (by rw [e] at hM; cases hM), fun h' => absurd h'.2 h⟩, fun _ => e⟩

/-- `SymmSquareBlockMatrix(blocks)`: at least one row and every row as long as there are rows. -/
theorem C09_symmBlock (blocks : List (List MatObj)) (hb : ∀ row ∈ blocks, ∀ K ∈ row, Built K) :
    ((∃ M, symmSquareBlockNew blocks = .ok M) ↔ blocks ≠ [] ∧ ∀ row ∈ blocks, row.length = blocks.length) ∧
    (¬ (blocks ≠ [] ∧ ∀ row ∈ blocks, row.length = blocks.length) → symmSquareBlockNew blocks = .error .valueError) := by
  have key : (blocks.map List.length).toFinset = {blocks.length} ↔
      blocks ≠ [] ∧ ∀ row ∈ blocks, row.length = blocks.length := by
    constructor
    · intro h
      refine ⟨by rintro rfl; simp at h, fun row hr => ?_⟩
      have : row.length ∈ (blocks.map List.length).toFinset := List.mem_toFinset.2 (List.mem_map_of_mem hr)
      rw [h] at this; exact Finset.mem_singleton.1 this
    · rintro ⟨h1, h2⟩
      ext p
      simp only [List.mem_toFinset, Finset.mem_singleton, List.mem_map]
      constructor
      · rintro ⟨r, hr, rfl⟩; exact h2 r hr
      · rintro rfl
        obtain ⟨r, hr⟩ := List.exists_mem_of_ne_nil _ h1
        exact ⟨r, hr, h2 r hr⟩
  by_cases h : blocks ≠ [] ∧ ∀ row ∈ blocks, row.length = blocks.length
  · refine ⟨⟨fun _ => h, fun _ => ?_⟩, fun h' => absurd h h'⟩
    unfold symmSquareBlockNew
    simp only
    rw [if_neg (by rw [not_not]; exact key.2 h)]
    rcases blocks with _ | ⟨_ | ⟨b00, r0⟩, rest⟩
    · exact absurd rfl h.1
    · have := h.2 [] (by simp); simp at this
    · have hg := (hb (b00 :: r0) (by simp) b00 (by simp)).good
      have hp : 0 < ((b00 :: r0) :: rest).length * b00.rows := Nat.mul_pos (by simp) hg.rpos
      simp only [matrixInit_eq hp hp]
      exact ⟨_, rfl⟩
  · have e : symmSquareBlockNew blocks = .error .valueError := by
      unfold symmSquareBlockNew
      simp only
      rw [if_pos (fun hc => h (key.1 hc))]
    exact ⟨⟨fun ⟨M, hM⟩ => (by rw [e] at hM; cases hM), fun h' => absurd h' h⟩, fun _ => e⟩

/-- `BlockDiag(blocks)`: at least one block. -/
theorem C09_blockDiag (blocks : List MatObj) (hb : ∀ K ∈ blocks, Built K) :
    ((∃ M, blockDiagNew blocks = .ok M) ↔ blocks ≠ []) ∧ (blocks = [] → blockDiagNew blocks = .error .valueError) := by
  rcases blocks with _ | ⟨b, rest⟩
  · exact ⟨⟨fun ⟨M, hM⟩ => (by cases hM), fun h => absurd rfl h⟩, fun _ => rfl⟩
  · refine ⟨⟨fun _ => by simp, fun _ => ?_⟩, fun h => by cases h⟩
    have hg := (hb b (by simp)).good
    obtain ⟨b1, e1, h1, -, -⟩ := beginEnd_ok (lens := (b :: rest).map MatObj.rows) (by simp)
    obtain ⟨b2, e2, h2, -, -⟩ := beginEnd_ok (lens := (b :: rest).map MatObj.cols) (by simp)
    unfold blockDiagNew
    have := hg.rpos
    have := hg.cpos
    simp only [bind, Except.bind, h1, h2]
    rw [matrixInit_eq (by simp only [List.map_cons, List.sum_cons]; omega) (by simp only [List.map_cons, List.sum_cons]; omega)]
    exact ⟨_, rfl⟩

/-- `Composition(mats)` of an empty list is an IndexError; `Kronecker` of two operators always succeeds. -/
theorem C09_composition_kronecker :
    compositionNew [] = .error .indexError ∧
    (∀ mats : List MatObj, mats ≠ [] → (∀ K ∈ mats, Built K) → ∃ M, compositionNew mats = .ok M) ∧
    ∀ A B : MatObj, Built A → Built B → ∃ M, kroneckerNew A B = .ok M := by
  refine ⟨rfl, fun mats hne hb => ?_, fun A B hA hB => ?_⟩
  · have e1 : mats.head? = some (mats.head hne) := (List.head_eq_iff_head?_eq_some hne).1 rfl
    have e2 : mats.getLast? = some (mats.getLast hne) := List.getLast?_eq_some_getLast hne
    unfold compositionNew
    rw [e1, e2]
    simp only [matrixInit_eq (hb _ (List.head_mem hne)).good.rpos (hb _ (List.getLast_mem hne)).good.cpos]
    exact ⟨_, rfl⟩
  · unfold kroneckerNew
    simp only [matrixInit_eq (Nat.mul_pos hA.good.rpos hB.good.rpos) (Nat.mul_pos hA.good.cpos hB.good.cpos)]
    exact ⟨_, rfl⟩

/-! ### Concrete instances -/

/-- a Toeplitz operator of size 3 -/
theorem ex_toeplitz : ∃ M, toeplitzNew (NDArr.vec [2, 1, -5]) = .ok M ∧ Built M ∧ M.rows = 3 ∧ M.cols = 3 ∧
    M.asNumpy.get 2 0 = -5 := by
  have hw : (NDArr.vec [2, 1, -5] : NDArr ℝ).WF := rfl
  obtain ⟨M, hM⟩ := (C09_toeplitz _ hw).1.2 ⟨3, rfl, by norm_num⟩
  obtain ⟨h1, h2, h3, -⟩ := C04_toeplitz hw hM
  refine ⟨M, hM, .toeplitz hw hM, h1, h2, ?_⟩
  rw [h3 2 (by rw [h1]; decide) 0 (by rw [h2]; decide)]
  simp [absDiff, NDArr.vec]

/-- a two-level BTTB operator on a 2 × 3 grid -/
theorem ex_bttb : ∃ M, bttbNew (NDArr.vec [1, 2, 3, 4, 5, 6]) (NDArr.vec [2, 3]) = .ok M ∧ Built M ∧ M.rows = 6 ∧
    M.cols = 6 ∧ M.asNumpy.get (ravel [2, 3] [1, 0]) (ravel [2, 3] [0, 2]) = 6 := by
  have hw : (NDArr.vec [1, 2, 3, 4, 5, 6] : NDArr ℝ).WF := rfl
  obtain ⟨M, hM⟩ := (C09_bttb _ (NDArr.vec [2, 3]) hw rfl).2 ⟨6, 2, rfl, by norm_num, rfl, by norm_num, rfl⟩
  obtain ⟨h1, h2, h3, -⟩ := C05_bttb hw hM
  refine ⟨M, hM, .bttb hw hM, h1, h2, ?_⟩
  have := h3 [1, 0] [0, 2] (by decide) (by decide)
  rw [show (NDArr.vec [2, 3] : NDArr ℕ).data = [2, 3] from rfl] at this
  rw [this]
  simp [absDiff, NDArr.vec, ravel]

/-- C01–C03, C06–C09: a nested operator `BlockDiag([Toeplitz ⊗ BTTB, Toeplitz + Toeplitz])`. -/
example : ∃ M, Built M ∧ M.rows = 21 ∧ M.cols = 21 := by
  obtain ⟨T, -, hT, rT, cT, -⟩ := ex_toeplitz
  obtain ⟨B, -, hB, rB, cB, -⟩ := ex_bttb
  obtain ⟨K, hK⟩ := C09_composition_kronecker.2.2 T B hT hB
  obtain ⟨rK, cK, -⟩ := C06_kronecker hT hB hK
  obtain ⟨S, hS⟩ := (C09_sum [T, T] (by simp [hT])).1.2 ⟨by simp, by simp⟩
  have hSs := (C08_sum (by simp [hT]) hS).1 T (by simp)
  have hbK : Built K := .kronecker hT hB hK
  have hbS : Built S := .sum (by simp [hT]) hS
  have hbs : ∀ L ∈ [K, S], Built L := by simp [hbK, hbS]
  obtain ⟨D, hD⟩ := (C09_blockDiag [K, S] hbs).1.2 (by simp)
  obtain ⟨rD, cD, -⟩ := C07_blockDiag hbs hD
  refine ⟨D, .blockDiag hbs hD, ?_, ?_⟩
  · rw [rD]; simp [rK, rT, rB, ← hSs.1]
  · rw [cD]; simp [cK, cT, cB, ← hSs.2]

/-- C01: the operators of `C01_leaves` exist -/
example : (∃ M, numpyMatrixNew ⟨[2, 2], [1, 2, 3, 4]⟩ = .ok M ∧ M.asNumpy.get 1 0 = 3) ∧ (∃ M, identityNew 3 = .ok M) ∧
    (∃ M, diagNew ⟨[2], [5, 7]⟩ = .ok M ∧ M.rows = 2) := by
  refine ⟨?_, ⟨_, rfl⟩, ?_⟩
  · obtain ⟨M, hM⟩ : ∃ M, numpyMatrixNew ⟨[2, 2], [1, 2, 3, 4]⟩ = .ok M := ⟨_, rfl⟩
    obtain ⟨hs, he⟩ := C01_leaves.1 _ M (by simp [NDArr.WF]) hM
    obtain ⟨h1, h2⟩ : M.rows = 2 ∧ M.cols = 2 := by simpa [eq_comm] using hs
    exact ⟨M, hM, by rw [he 1 (by omega) 0 (by omega)]; simp [NDArr.get, ravel]⟩
  · obtain ⟨M, hM⟩ : ∃ M, diagNew ⟨[2], [5, 7]⟩ = .ok M := ⟨_, rfl⟩
    exact ⟨M, hM, (C01_leaves.2.2.1 _ M (by simp [NDArr.WF]) hM).1⟩

/-- C07: a 2 × 2 block matrix of 3 × 3 blocks -/
example : ∃ (T M : MatObj), Built T ∧ symmSquareBlockNew [[T, T], [T, T]] = .ok M ∧ M.rows = 6 := by
  obtain ⟨T, -, hT, rT, cT, -⟩ := ex_toeplitz
  have hb : ∀ row ∈ [[T, T], [T, T]], ∀ K ∈ row, Built K := by simp [hT]
  obtain ⟨M, hM⟩ := (C09_symmBlock [[T, T], [T, T]] hb).1.2 ⟨by simp, by simp⟩
  exact ⟨T, M, hT, hM, (C07_symmBlock (m := 3) hb (by simp [rT, cT]) hM).1⟩

/-- C08: a composition of three operators and an SKI operator -/
example : ∃ (T M : MatObj), Built T ∧ compositionNew [T, T, T] = .ok M ∧
    ([T, T, T].IsChain fun A B => A.cols = B.rows) := by
  obtain ⟨T, -, hT, rT, cT, -⟩ := ex_toeplitz
  obtain ⟨M, hM⟩ := C09_composition_kronecker.2.1 [T, T, T] (by simp) (by simp [hT])
  exact ⟨T, M, hT, hM, by simp [rT, cT]⟩

example : ∃ (T M : MatObj) (W : Arr2 ℝ), Built T ∧ T.rows = W.cols ∧ T.cols = W.cols ∧ skiNew T W W.T = .ok M := by
  obtain ⟨T, -, hT, rT, cT, -⟩ := ex_toeplitz
  obtain ⟨M, hM⟩ : ∃ M, skiNew T (Arr2.of 2 3 fun i j => (i + j : ℝ)) (Arr2.of 2 3 fun i j => (i + j : ℝ)).T = .ok M := by
    unfold skiNew wrapNew
    simp only [bind, Except.bind, Arr2.of_rows, Arr2.of_cols, of_T]
    exact ⟨_, rfl⟩
  exact ⟨T, M, _, hT, rT, cT, hM⟩

/-- C01: a wrapped user function -/
example : ∃ M, wrapNew 2 2 (fun x => [x.getD 1 0, x.getD 0 0]) = .ok M ∧ Built M :=
  ⟨_, rfl, .wrap (n := 2) (m := 2) !![0, 1; 1, 0] (fun x => by
    simp [List.ofFn_succ, dotProduct, Fin.sum_univ_two]) rfl⟩

end Verif
