import Verif.Proofs.RawProduct
import Verif.Props.LinAlg

/-!
C83: an operator multiplies arguments of the documented size as documented and refuses all others. `r.vec`, `r.mat` are `matvec` and `matmat` for arguments of any size, `r.linVec`,
`r.linMat` those of `as_linear_operator()`. `RawBuilt r` says that `r` came out of nested constructor calls.
-/

namespace Verif
open Matrix

/-- C83, first half: arguments of the documented size are accepted by every operator and multiplied by `as_numpy()`. -/
theorem C83_right_size {r : RawOp} (h : RawBuilt r) :
    (∀ x : Fin r.obj.cols → ℝ, r.vec (List.ofFn x) = .ok (List.ofFn (r.obj.dense *ᵥ x))) ∧
    ∀ (k : ℕ) (X : ℕ → ℕ → ℝ), r.mat (Arr2.of r.obj.cols k X) = .ok (Arr2.of r.obj.rows k fun i l => ∑ j ∈ Finset.range r.obj.cols, r.obj.asNumpy.get i j * X j l) := by
  obtain ⟨hb, hf⟩ := h.fits
  exact ⟨fun x => by rw [hf.vec _ (by simp), C01_matvec_eq_dense hb], fun k X => by rw [hf.mat _ (Arr2.of_wf _ _ _) rfl, C02_matmat_eq_dense hb]⟩

/-- C83: no operator of C01–C09 is left out. -/
theorem C83_every_operator {M : MatObj} (h : Built M) : ∃ r, RawBuilt r ∧ r.obj = M := h.exists_raw

/-- C83, second half, for the adapter: `as_linear_operator()` of every operator refuses every vector or matrix of another size. -/
theorem C83_linear_operator {r : RawOp} (h : RawBuilt r) :
    (∀ x : Fin r.obj.cols → ℝ, r.linVec (List.ofFn x) = .ok (List.ofFn (r.obj.dense *ᵥ x))) ∧ (∀ x : List ℝ, x.length ≠ r.obj.cols → r.linVec x = .error .valueError) ∧
    (∀ (k : ℕ) (X : ℕ → ℕ → ℝ), r.linMat (Arr2.of r.obj.cols k X) = .ok (Arr2.of r.obj.rows k fun i l => ∑ j ∈ Finset.range r.obj.cols, r.obj.asNumpy.get i j * X j l)) ∧
    ∀ X : Arr2 ℝ, X.rows ≠ r.obj.cols → r.linMat X = .error .valueError := by
  obtain ⟨h1, h2⟩ := C83_right_size h
  refine ⟨fun x => ?_, fun x hx => if_pos hx, fun k X => ?_, fun X hX => if_pos hX⟩
  · unfold RawOp.linVec
    rw [if_neg (by simp), h1, ok_bind, if_neg (by simp)]
    rfl
  · unfold RawOp.linMat
    rw [if_neg (by simp [Arr2.of]), h2]

/-- C83, second half, proved part: `NumpyMatrix`, `Toeplitz`, `BTTB`, `SKI`, a sum with a refusing member and a composition whose last factor refuses refuse arguments of another
size. Missing: the other classes, for which it is false, see the theorems below. -/
theorem C83_strict_partial :
    (∀ a r, NDArr.WF a → rawDense a = .ok r → r.Strict) ∧
    (∀ top r, NDArr.WF top → rawToeplitz top = .ok r → r.Strict) ∧
    (∀ top sizes r, NDArr.WF top → rawBttb top sizes = .ok r → r.Strict) ∧
    (∀ (K : RawOp) (W : Arr2 ℝ) r, RawBuilt K → K.obj.rows = W.cols → K.obj.cols = W.cols → rawSki K W W.T = .ok r → r.Strict) ∧
    (∀ Ks r, (∀ K ∈ Ks, RawBuilt K) → rawSum Ks = .ok r → (∃ K ∈ Ks, K.Strict) → r.Strict) ∧
    ∀ mats last r, (∀ K ∈ mats, RawBuilt K) → (mats.IsChain fun A B => A.obj.cols = B.obj.rows) → rawComposition mats = .ok r → mats.getLast? = some last → last.Strict → r.Strict :=
  ⟨fun _ _ hw h => (dense_fits hw h).2.2, fun _ _ hw h => (toeplitz_fits hw h).2.2, fun _ _ _ hw h => (bttb_fits hw h).2.2,
    fun _ _ _ hK hr hc h => (ski_fits hK.fits hr hc h).2.2, fun _ _ hb h hs => (sum_fits (fun K hK => (hb K hK).fits) h).2.2 hs,
    fun _ _ _ hb hs h hl hS => (composition_fits (fun K hK => (hb K hK).fits) hs h).2.2 _ hl hS⟩

/-- C83, what `Identity` does: it returns whatever it is given. -/
theorem C83_identity {n : ℕ} {r : RawOp} (h : rawIdentity n = .ok r) (x : List ℝ) : r.vec x = .ok x := (identity_fits h).2.2.2 x

/-- C83, what `Diag` of order `n` does: it refuses a vector unless its length is `n`, or one of the lengths is one and the product is broadcast. -/
theorem C83_diag {v : NDArr ℝ} {r : RawOp} (hw : v.WF) (h : rawDiag v = .ok r) (x : List ℝ) :
    (Raises (r.vec x) ↔ x.length ≠ r.obj.cols ∧ x.length ≠ 1 ∧ r.obj.cols ≠ 1) ∧
    (∀ c : ℝ, r.vec [c] = .ok (v.data.map fun d => c * d)) := by
  obtain ⟨-, -, hc, hv⟩ := diag_fits hw h
  rw [hv, hc]
  refine ⟨?_, fun c => ?_⟩
  · show Raises (bcast _ _ _) ↔ _
    unfold bcast Raises
    split_ifs <;> simp_all
  · show bcast _ _ _ = _
    unfold bcast
    split_ifs with h1 h2
    · obtain ⟨d, hd⟩ := List.length_eq_one_iff.1 h1.symm
      rw [hd]; rfl
    · rfl
    · simp at h2
    · simp at h2

/-- C83, what `BlockDiag` does: entries beyond the documented length are ignored; with refusing blocks shorter vectors are refused. -/
theorem C83_block_diag {blocks : List RawOp} {r : RawOp} (hb : ∀ K ∈ blocks, RawBuilt K) (h : rawBlockDiag blocks = .ok r) :
    (∀ (x : Fin r.obj.cols → ℝ) (y : List ℝ), r.vec (List.ofFn x ++ y) = .ok (List.ofFn (r.obj.dense *ᵥ x))) ∧
    ((∀ K ∈ blocks, K.Strict) → ∀ x : List ℝ, x.length < r.obj.cols → Raises (r.vec x)) := by
  obtain ⟨hM, hf, hl, hs⟩ := blockDiag_fits (fun K hK => (hb K hK).fits) h
  refine ⟨fun x y => ?_, hs⟩
  rw [hl _ (by simp), List.take_left' (by simp), C01_matvec_eq_dense hM]

/-- C83, what `SymmSquareBlockMatrix` does: entries beyond the documented length are ignored and the product is padded with zeros to the length given; with refusing blocks shorter
vectors are refused. -/
theorem C83_symm_block {blocks : List (List RawOp)} {m : ℕ} {r : RawOp} (hb : ∀ row ∈ blocks, ∀ K ∈ row, RawBuilt K)
    (hs : ∀ row ∈ blocks, ∀ K ∈ row, K.obj.rows = m ∧ K.obj.cols = m) (h : rawSymmBlock blocks = .ok r) :
    (∀ (x : Fin r.obj.cols → ℝ) (y : List ℝ), r.vec (List.ofFn x ++ y) = .ok (List.ofFn (r.obj.dense *ᵥ x) ++ List.replicate y.length 0)) ∧
    ((∀ row ∈ blocks, ∀ K ∈ row, K.Strict) → ∀ x : List ℝ, x.length < r.obj.cols → Raises (r.vec x)) := by
  obtain ⟨hM, hf, hl, hS⟩ := symmBlock_fits (fun row hr K hK => (hb row hr K hK).fits) hs h
  refine ⟨fun x y => ?_, hS⟩
  rw [hl _ (by simp), List.take_left' (by simp), C01_matvec_eq_dense hM]
  simp

/-- C83, what `Kronecker` does with a vector: it refuses exactly the lengths that the two reshapes refuse. -/
theorem C83_kronecker {A B r : RawOp} (hA : RawBuilt A) (hB : RawBuilt B) (h : rawKron A B = .ok r) (x : List ℝ) :
    Raises (r.vec x) ↔ ¬ (B.obj.cols ∣ x.length ∧ A.obj.cols ∣ B.obj.rows * (x.length / B.obj.cols)) := by
  obtain ⟨-, -, -, hv⟩ := kron_fits hA.fits hB.fits h
  rw [hv]
  obtain ⟨h1, h2⟩ := kron_vec hA.fits.2 hB.fits.2 x
  constructor
  · rintro ⟨e, he⟩ ⟨ha, hb⟩
    rw [(h1 ha hb).1] at he
    cases he
  · exact fun hn => ⟨_, h2 hn⟩

/-- C83, why the second half cannot be proved for all operators: an `Identity`, and a `Kronecker` product of two dense matrices of order two, which both refuse, accept vectors of
another length. -/
theorem C83_violated : (∃ r x, RawBuilt r ∧ r.obj.cols = 2 ∧ List.length x = 3 ∧ ∃ y, r.vec x = .ok y) ∧
    ∃ A r x, RawBuilt A ∧ A.Strict ∧ rawKron A A = .ok r ∧ r.obj.cols = 4 ∧ List.length x = 2 ∧ ∃ y, r.vec x = .ok y := by
  refine ⟨⟨_, [1, 2, 3], RawBuilt.identity (n := 2) rfl, rfl, rfl, _, rfl⟩, ?_⟩
  obtain ⟨A, hA⟩ : ∃ A, rawDense ⟨[2, 2], [1, 2, 3, 4]⟩ = .ok A := ⟨_, rfl⟩
  have hw : (⟨[2, 2], [1, 2, 3, 4]⟩ : NDArr ℝ).WF := rfl
  have hb := RawBuilt.dense hw hA
  have hs : A.obj.cols = 2 ∧ A.obj.rows = 2 := by cases hA; exact ⟨rfl, rfl⟩
  obtain ⟨r, hr⟩ : ∃ r, rawKron A A = .ok r := by cases hA; exact ⟨_, rfl⟩
  refine ⟨A, r, [1, 2], hb, (dense_fits hw hA).2.2, hr, ?_, rfl, ?_⟩
  · rw [(kron_fits hb.fits hb.fits hr).2.2.1, hs.1]
  · cases hv : r.vec [1, 2] with
    | ok y => exact ⟨y, rfl⟩
    | error e =>
      refine absurd ⟨?_, ?_⟩ ((C83_kronecker hb hb hr [1, 2]).1 ⟨e, hv⟩)
      · rw [hs.1]; exact ⟨1, rfl⟩
      · rw [hs.1, hs.2]; exact ⟨1, rfl⟩

/-- the hypotheses can be met: a Toeplitz matrix of order two inside a block diagonal matrix of order three -/
example : ∃ T D r : RawOp, rawToeplitz ⟨[2], [2, 1]⟩ = .ok T ∧ rawDense ⟨[1, 1], [5]⟩ = .ok D ∧ rawBlockDiag [T, D] = .ok r ∧ RawBuilt r ∧ r.obj.cols = 3 ∧
    (∀ x : List ℝ, x.length < 3 → Raises (r.vec x)) ∧ r.vec [1, 2, 3, 7] = .ok (r.obj.matvec [1, 2, 3]) := by
  obtain ⟨T, hT⟩ : ∃ T, rawToeplitz ⟨[2], [2, 1]⟩ = .ok T := ⟨_, rfl⟩
  obtain ⟨D, hD⟩ : ∃ D, rawDense ⟨[1, 1], [5]⟩ = .ok D := ⟨_, rfl⟩
  have hTc : T.obj.cols = 2 ∧ T.obj.rows = 2 := by cases hT; exact ⟨rfl, rfl⟩
  have hDc : D.obj.cols = 1 ∧ D.obj.rows = 1 := by cases hD; exact ⟨rfl, rfl⟩
  have sT := toeplitz_fits (top := ⟨[2], [2, 1]⟩) rfl hT
  have sD := dense_fits (a := ⟨[1, 1], [5]⟩) rfl hD
  obtain ⟨r, hr⟩ : ∃ r, rawBlockDiag [T, D] = .ok r := by
    cases hT; cases hD; exact ⟨_, rfl⟩
  have hb : ∀ K ∈ [T, D], RawBuilt K := by
    intro K hK
    simp only [List.mem_cons, List.not_mem_nil, or_false] at hK
    rcases hK with rfl | rfl
    · exact RawBuilt.toeplitz (top := ⟨[2], [2, 1]⟩) rfl hT
    · exact RawBuilt.dense (a := ⟨[1, 1], [5]⟩) rfl hD
  have hc : r.obj.cols = 3 := by
    cases hT; cases hD; cases hr; rfl
  obtain ⟨-, -, hl, hs⟩ := blockDiag_fits (fun K hK => (hb K hK).fits) hr
  refine ⟨T, D, r, hT, hD, hr, RawBuilt.blockDiag hb hr, hc, ?_, ?_⟩
  · rw [← hc]
    refine hs fun K hK => ?_
    simp only [List.mem_cons, List.not_mem_nil, or_false] at hK
    rcases hK with rfl | rfl
    · exact sT.2.2
    · exact sD.2.2
  · rw [hl _ (by rw [hc]; simp), hc]
    rfl

end Verif
