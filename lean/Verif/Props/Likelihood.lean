import Verif.Proofs.Likelihood
import Verif.Proofs.Cholesky
import Verif.Props.KernPsd
import Mathlib.Analysis.Matrix.Order

/-! C35, C36: the exact LMC covariance. -/

namespace Verif

open Matrix

/-- C35: `kernel_from_indices(Xs, Zs, functional_kernel)` is the LMC covariance of all pairs of points, outputs in order and the points
of each output in order; outputs may have no points. -/
theorem C35_kernel_from_indices (fk : FK) (P : ℕ) (h : fk.Ready P) (Xs Zs : List (Arr2 ℝ)) (hX : InputsOK fk.D P Xs)
    (hZ : InputsOK fk.D P Zs) :
    ∃ K, kernelFromIndices Xs Zs fk = .ok K ∧ K.rows = (Xs.map Arr2.rows).sum ∧ K.cols = (Zs.map Arr2.rows).sum ∧ K.WF ∧
      ∀ a < fk.D, ∀ b < fk.D, ∀ i < (Xs.getD a ⟨0, 0, []⟩).rows, ∀ j < (Zs.getD b ⟨0, 0, []⟩).rows,
        K.get (offset (Xs.map Arr2.rows) a + i) (offset (Zs.map Arr2.rows) b + j) = fk.cov a b (pointOf Xs a i) (pointOf Zs b j) := by
  refine ⟨_, kernelFromIndices_ok h hX hZ, rfl, rfl, Arr2.of_wf _ _ _, fun a ha b hb i hi j hj => ?_⟩
  have getrows : ∀ (l : List (Arr2 ℝ)) c, c < l.length → (l.map Arr2.rows).getD c 0 = (l.getD c ⟨0, 0, []⟩).rows := by
    intro l c hc
    rw [List.getD_eq_getElem _ _ (by simpa using hc), List.getD_eq_getElem _ _ hc, List.getElem_map]
  obtain ⟨x1, x2, x3⟩ := ownerOf_offset (lens := Xs.map Arr2.rows) (a := a) (i := i) (by rw [List.length_map, hX.len]; exact ha)
    (by rw [getrows _ _ (by rw [hX.len]; exact ha)]; exact hi)
  obtain ⟨z1, z2, z3⟩ := ownerOf_offset (lens := Zs.map Arr2.rows) (a := b) (i := j) (by rw [List.length_map, hZ.len]; exact hb)
    (by rw [getrows _ _ (by rw [hZ.len]; exact hb)]; exact hj)
  rw [Arr2.of_get x2 z2, x1, x3, z1, z3]

/-! ### the exact likelihood object -/

theorem DataOK.flatten_length {D P : ℕ} {Xs : List (Arr2 ℝ)} {Ys : List (List ℝ)} (h : DataOK D P Xs Ys) :
    Ys.flatten.length = (Xs.map Arr2.rows).sum := by rw [List.length_flatten, ← h.lens]

theorem DataOK.ne_nil {D P : ℕ} {Xs : List (Arr2 ℝ)} {Ys : List (List ℝ)} (h : DataOK D P Xs Ys) (hD : 0 < D) : Ys ≠ [] := by
  rintro rfl
  have := congrArg List.length h.lens
  simp only [List.map_nil, List.length_nil, List.length_map, h.inputs.len] at this
  omega

theorem npDiag_get (v : List ℝ) (n : ℕ) (h : v.length = n) : npDiagMat v = Arr2.of n n fun i j => if i = j then v.getD i 0 else 0 := by
  unfold npDiagMat; rw [h]

theorem fullCov_K {fk : FK} {P : ℕ} (h : fk.Ready P) {Xs : List (Arr2 ℝ)} {Ys : List (List ℝ)} (hd : DataOK fk.D P Xs Ys) :
    (do let S ← lmcSum fk (fk.kernels.map fun k : Kern => kernMat (npVstack Xs) (npVstack Xs) k.doc (k.activeDims.getD [])) (Ys.map List.length) (Ys.map List.length)
        addInPlace S (npDiagMat (npRepeat fk.noise (Ys.map List.length)))) =
      .ok (Arr2.of (Xs.map Arr2.rows).sum (Xs.map Arr2.rows).sum (fk.fullCov Xs)) := by
  obtain ⟨x1, x2, x3⟩ := vstackX_ok hd.inputs h.wf.Dpos
  have hl : (Xs.map Arr2.rows).length = fk.D := by rw [List.length_map, hd.inputs.len]
  rw [hd.lens, lmcSum_ok h _ _ hl hl x2 x2, x2]
  simp only [ok_bind]
  rw [npDiag_get _ (Xs.map Arr2.rows).sum (npRepeat_length _ _ (by rw [h.wf.noise, hl]))]
  unfold addInPlace
  rw [if_pos ⟨rfl, rfl⟩]
  congr 1
  unfold Arr2.add
  refine Arr2.of_congr fun r hr s hs => ?_
  rw [Arr2.of_get (by exact hr) (by exact hs), Arr2.of_get (by exact hr) (by exact hs)]
  unfold FK.fullCov
  simp only
  congr 1
  · exact cov_congr h (fun c hc => vstackX_get hd.inputs h.wf.Dpos hr hc) (fun c hc => vstackX_get hd.inputs h.wf.Dpos hs hc)
  · by_cases e : r = s
    · rw [if_pos e, if_pos e, npRepeat_getD _ _ _ (by rw [h.wf.noise, hl]) hr]
    · rw [if_neg e, if_neg e]


/-! ### Cholesky -/

theorem fullCov_symm {fk : FK} (Xs : List (Arr2 ℝ)) (r s : ℕ) : fk.fullCov Xs r s = fk.fullCov Xs s r := by
  unfold FK.fullCov
  simp only
  congr 1
  · unfold FK.cov
    refine Finset.sum_congr rfl fun q _ => ?_
    congr 1
    · unfold FK.B
      congr 1
      · exact Finset.sum_congr rfl fun _ _ => mul_comm _ _
      · by_cases e : ownerOf (Xs.map Arr2.rows) r = ownerOf (Xs.map Arr2.rows) s
        · rw [e]
        · rw [if_neg e, if_neg (Ne.symm e)]
    · congr 1
      unfold distOn
      congr 2
      exact List.map_congr_left fun c _ => by ring
  · by_cases e : r = s
    · subst e; rfl
    · rw [if_neg e, if_neg (Ne.symm e)]

theorem cholesky_symm {n : ℕ} {f : ℕ → ℕ → ℝ} (hf : ∀ i j, f i j = f j i) :
    (Matrix.of fun i j : Fin n => f (min i j) (max i j)) = fnMatrix n n f := by
  ext i j
  simp only [Matrix.of_apply, fnMatrix]
  rcases le_total (i : ℕ) j with h | h
  · rw [min_eq_left h, max_eq_right h]
  · rw [min_eq_right h, max_eq_left h, hf]

/-- what `cho_factor` does with a symmetric matrix -/
theorem choFactor_symm {n : ℕ} {f : ℕ → ℕ → ℝ} (hf : ∀ i j, f i j = f j i) :
    ((fnMatrix n n f).PosDef → ∃ L, choFactor (Arr2.of n n f) = .ok L ∧ L.rows = n ∧ L.cols = n ∧
      ∃ U : Matrix (Fin n) (Fin n) ℝ, (∀ i j, j < i → U i j = 0) ∧ (∀ i, 0 < U i i) ∧ Uᵀ * U = fnMatrix n n f ∧
        (∀ i j : Fin n, i ≤ j → L.get i j = U i j)) ∧
    (¬ (fnMatrix n n f).PosDef → choFactor (Arr2.of n n f) = .error .linAlgError) := by
  have e : (Matrix.of fun i j : Fin n => (Arr2.of n n f).get (min (i : ℕ) j) (max (i : ℕ) j)) = fnMatrix n n f := by
    rw [← cholesky_symm hf]
    ext i j
    simp only [Matrix.of_apply]
    rw [Arr2.of_get (by have := i.2; omega) (by have := i.2; have := j.2; omega)]
  have hiff : (∃ U, CholeskyOf n (Arr2.of n n f).get U) ↔ (fnMatrix n n f).PosDef := by
    constructor
    · rintro ⟨U, h1, h2, h3⟩
      exact cholesky_posDef h1 h2 (h3.trans e)
    · intro h
      obtain ⟨U, h1, h2, h3⟩ := exists_cholesky n _ h
      exact ⟨U, h1, h2, h3.trans e.symm⟩
  have hc : choFactor (Arr2.of n n f) = cholesky n (Arr2.of n n f).get := if_neg (by simp [Arr2.of])
  rw [hc]
  unfold cholesky
  constructor
  · intro h
    have hex := hiff.2 h
    rw [dif_pos hex]
    refine ⟨_, rfl, rfl, rfl, hex.choose, hex.choose_spec.upper, hex.choose_spec.pos, hex.choose_spec.prod.trans e, ?_⟩
    intro i j hij
    rw [Arr2.of_get i.2 j.2, dif_pos ⟨i.2, j.2, hij⟩]
  · intro h
    rw [dif_neg (fun hex => h (hiff.1 hex))]

theorem upperPart_eq {n : ℕ} {L : Arr2 ℝ} {U : Matrix (Fin n) (Fin n) ℝ} (hL : L.rows = n) (h1 : ∀ i j, j < i → U i j = 0)
    (h : ∀ i j : Fin n, i ≤ j → L.get i j = U i j) (i j : Fin L.rows) : upperPart L i j = U (i.cast hL) (j.cast hL) := by
  subst hL
  unfold upperPart
  simp only [Matrix.of_apply]
  split
  · next hij => exact h i j hij
  · next hij => exact (h1 i j (not_le.1 hij)).symm

theorem choSolve_ok {n : ℕ} {L : Arr2 ℝ} {U M : Matrix (Fin n) (Fin n) ℝ} (hL : L.rows = n) (h1 : ∀ i j, j < i → U i j = 0)
    (h : ∀ i j : Fin n, i ≤ j → L.get i j = U i j) (hM : Uᵀ * U = M) (b : List ℝ) (hb : b.length = n) :
    choSolve L b = .ok (vmk n fun i => if hi : i < n then (M⁻¹ *ᵥ toVec n b) ⟨i, hi⟩ else 0) := by
  subst hL
  have e : upperPart L = U := by
    ext i j
    exact upperPart_eq rfl h1 h i j
  unfold choSolve
  rw [if_neg (by simp [hb]), e, hM]
  rfl

theorem choSolve2_ok {n : ℕ} {L : Arr2 ℝ} {U M : Matrix (Fin n) (Fin n) ℝ} (hL : L.rows = n) (h1 : ∀ i j, j < i → U i j = 0)
    (h : ∀ i j : Fin n, i ≤ j → L.get i j = U i j) (hM : Uᵀ * U = M) :
    choSolve2 L (Arr2.eye L.rows) = .ok (Arr2.of n n fun i j => if hij : i < n ∧ j < n then M⁻¹ ⟨i, hij.1⟩ ⟨j, hij.2⟩ else 0) := by
  unfold choSolve2
  rw [mapExcept_ok (g := fun j => vmk n fun i => if hi : i < n then (M⁻¹ *ᵥ toVec n ((Arr2.eye n).col j)) ⟨i, hi⟩ else 0)]
  · simp only [ok_bind, pure_ok]
    rw [hL]
    refine Arr2.of_congr fun i hi j hj => ?_
    replace hj : j < n := hj
    have hr : (List.range (Arr2.eye n).cols) = List.range n := rfl
    have e : ∀ g : ℕ → List ℝ, ((List.range n).map g).getD j [] = g j := fun g => by
      rw [List.getD_eq_getElem _ _ (by simpa using hj), List.getElem_map, List.getElem_range]
    rw [hr, e, vmk_getD_lt hi, dif_pos hi, dif_pos ⟨hi, hj⟩]
    have : toVec n ((Arr2.eye n).col j) = Pi.single ⟨j, hj⟩ 1 := by
      funext l
      unfold toVec
      rw [Arr2.col_getD (by exact l.2)]
      unfold Arr2.eye
      rw [Arr2.of_get l.2 hj, Pi.single_apply]
      by_cases e : (l : ℕ) = j
      · rw [if_pos e, if_pos (Fin.ext e)]
      · rw [if_neg e, if_neg (fun e' => e (congrArg Fin.val e'))]
    rw [this, Matrix.mulVec_single_one]
    rfl
  · intro j hj
    rw [hL]
    exact choSolve_ok hL h1 h hM _ (by simp [Arr2.eye, Arr2.of])

/-- what is stored for the derivatives of kernel `k` -/
def GradsOf (X : Arr2 ℝ) (k : Kern) (v : List KVal) : Prop :=
  ∃ fs : List (ℝ → ℝ), v = (fs.map fun f => .arr ⟨[X.rows, X.rows], (distArrOf X X (k.activeDims.getD [])).data.map f⟩) ∧
    fs.length = k.params.length ∧
    ∀ j < k.params.length, ∀ r, HasDerivAt (fun t => (k.setParam j t).doc r) (fs.getD j (fun _ => 0) r) (k.params.getD j 0)

/-- the contents of an `ExactLMCLikelihood` -/
structure ExactContents (fk : FK) (Xs : List (Arr2 ℝ)) (Ys : List (List ℝ)) (l : ExactLMC) : Prop where
  kern : l.fk = fk
  y : l.y = Ys.flatten
  lens : l.lens = Xs.map Arr2.rows
  kernels : l.kernels = fk.kernels.map fun k => kernMat (npVstack Xs) (npVstack Xs) k.doc (k.activeDims.getD [])
  K : l.K = Arr2.of (Xs.map Arr2.rows).sum (Xs.map Arr2.rows).sum (fk.fullCov Xs)
  rows : l.L.rows = (Xs.map Arr2.rows).sum
  cols : l.L.cols = (Xs.map Arr2.rows).sum
  factor : ∃ U : Matrix (Fin (Xs.map Arr2.rows).sum) (Fin (Xs.map Arr2.rows).sum) ℝ, (∀ i j, j < i → U i j = 0) ∧ (∀ i, 0 < U i i) ∧
    Uᵀ * U = fk.covMat Xs ∧ (∀ i j : Fin (Xs.map Arr2.rows).sum, i ≤ j → l.L.get i j = U i j)
  alpha : l.deriv.alpha = vmk (Xs.map Arr2.rows).sum fun i =>
    if hi : i < (Xs.map Arr2.rows).sum then ((fk.covMat Xs)⁻¹ *ᵥ toVec (Xs.map Arr2.rows).sum Ys.flatten) ⟨i, hi⟩ else 0
  Kinv : l.deriv.Kinv = Arr2.of (Xs.map Arr2.rows).sum (Xs.map Arr2.rows).sum fun i j =>
    if hij : i < (Xs.map Arr2.rows).sum ∧ j < (Xs.map Arr2.rows).sum then (fk.covMat Xs)⁻¹ ⟨i, hij.1⟩ ⟨j, hij.2⟩ else 0
  grads : List.Forall₂ (GradsOf (npVstack Xs)) fk.kernels l.grads

theorem exactLMC_contents {fk : FK} {P : ℕ} (h : fk.Ready P) {Xs : List (Arr2 ℝ)} {Ys : List (List ℝ)} (hd : DataOK fk.D P Xs Ys) :
    ((fk.covMat Xs).PosDef →
      ∃ l, exactLMCNew fk Xs Ys = .ok l ∧ ExactContents fk Xs Ys l) ∧
    (¬ (fk.covMat Xs).PosDef →
      exactLMCNew fk Xs Ys = .error .linAlgError) := by
  obtain ⟨x1, x2, x3⟩ := vstackX_ok hd.inputs h.wf.Dpos
  have hK := fullCov_K h hd
  cases hS : lmcSum fk (fk.kernels.map fun k => kernMat (npVstack Xs) (npVstack Xs) k.doc (k.activeDims.getD [])) (Ys.map List.length) (Ys.map List.length) with
  | error e => rw [hS] at hK; cases hK
  | ok S =>
    rw [hS] at hK
    simp only [ok_bind] at hK
    obtain ⟨hp, hn⟩ := choFactor_symm (n := (Xs.map Arr2.rows).sum) (f := fk.fullCov Xs) (fullCov_symm Xs)
    have hg : ∃ gs, fk.evalKernelGradients ((fk.activeDims.map Prod.fst).map fun ad => (ad, DistArg.arr (distArrOf (npVstack Xs) (npVstack Xs) ad))) = .ok gs ∧
        List.Forall₂ (GradsOf (npVstack Xs)) fk.kernels gs := by
      unfold FK.evalKernelGradients
      rw [assertP_ok h]
      simp only [ok_bind]
      refine mapExcept_forall2 fun k hk => ?_
      obtain ⟨fs, f1, f2, f3⟩ := gradient_arr k (h.valid k hk) (distArrOf (npVstack Xs) (npVstack Xs) (k.activeDims.getD [])) (by simp [distArrOf])
      refine ⟨_, ?_, fs, rfl, f2, f3⟩
      rw [distsFor_ok h hk]
      exact f1
    unfold exactLMCNew
    rw [if_neg (hd.ne_nil h.wf.Dpos)]
    simp only [x1, ok_bind, genDists_ok x3 x3 h.bound, evalKernels_ok h, mapExcept_map]
    rw [mapExcept_ok (g := fun k : Kern => kernMat (npVstack Xs) (npVstack Xs) k.doc (k.activeDims.getD [])) (fun k _ => kvalArr2_ok _ _ _ _)]
    simp only [ok_bind, hS, hK]
    constructor
    · intro hpd
      obtain ⟨L, l1, l2, l3, U, u1, u2, u3, u4⟩ := hp hpd
      obtain ⟨gs, g1, g2⟩ := hg
      simp only [l1, ok_bind, g1]
      unfold exactDerivNew
      rw [choSolve2_ok l2 u1 u4 u3, choSolve_ok l2 u1 u4 u3 _ hd.flatten_length]
      simp only [ok_bind]
      exact ⟨_, rfl, rfl, rfl, hd.lens, rfl, rfl, l2, l3, ⟨U, u1, u2, u3, u4⟩, rfl, rfl, g2⟩
    · intro hpd
      rw [hn hpd]
      rfl

/-- C35: `ExactLMCLikelihood.K` is the LMC covariance of the inputs plus the noise of the output on the diagonal. -/
theorem C35_exact_K (fk : FK) (P : ℕ) (h : fk.Ready P) (Xs : List (Arr2 ℝ)) (Ys : List (List ℝ)) (hd : DataOK fk.D P Xs Ys)
    (l : ExactLMC) (hl : exactLMCNew fk Xs Ys = .ok l) :
    l.K.rows = (Xs.map Arr2.rows).sum ∧ l.K.cols = (Xs.map Arr2.rows).sum ∧
      ∀ a < fk.D, ∀ b < fk.D, ∀ i < (Xs.getD a ⟨0, 0, []⟩).rows, ∀ j < (Xs.getD b ⟨0, 0, []⟩).rows,
        l.K.get (offset (Xs.map Arr2.rows) a + i) (offset (Xs.map Arr2.rows) b + j) =
          fk.cov a b (pointOf Xs a i) (pointOf Xs b j) + if a = b ∧ i = j then fk.noise.getD a 0 else 0 := by
  obtain ⟨hp, hn⟩ := exactLMC_contents h hd
  have hc : ExactContents fk Xs Ys l := by
    by_cases hpd : (fk.covMat Xs).PosDef
    · obtain ⟨l', h1, h2⟩ := hp hpd
      rw [hl] at h1; cases h1
      exact h2
    · rw [hn hpd] at hl; cases hl
  rw [hc.K]
  refine ⟨rfl, rfl, fun a ha b hb i hi j hj => ?_⟩
  have getrows : ∀ c, c < fk.D → (Xs.map Arr2.rows).getD c 0 = (Xs.getD c ⟨0, 0, []⟩).rows := by
    intro c hc
    rw [List.getD_eq_getElem _ _ (by rw [List.length_map, hd.inputs.len]; exact hc),
      List.getD_eq_getElem _ _ (by rw [hd.inputs.len]; exact hc), List.getElem_map]
  obtain ⟨x1, x2, x3⟩ := ownerOf_offset (lens := Xs.map Arr2.rows) (a := a) (i := i) (by rw [List.length_map, hd.inputs.len]; exact ha)
    (by rw [getrows a ha]; exact hi)
  obtain ⟨z1, z2, z3⟩ := ownerOf_offset (lens := Xs.map Arr2.rows) (a := b) (i := j) (by rw [List.length_map, hd.inputs.len]; exact hb)
    (by rw [getrows b hb]; exact hj)
  rw [Arr2.of_get x2 z2]
  unfold FK.fullCov
  simp only [x1, x3, z1, z3]
  congr 1
  by_cases e : a = b ∧ i = j
  · obtain ⟨rfl, rfl⟩ := e
    rw [if_pos rfl, if_pos ⟨rfl, rfl⟩]
  · rw [if_neg e, if_neg]
    intro e'
    apply e
    have h1 : a = b := by rw [← x1, ← z1, e']
    subst h1
    exact ⟨rfl, by omega⟩

/-! ### positive definiteness -/

theorem B_psd {fk : FK} (hw : fk.WF) {q : ℕ} (hq : q < fk.Q) (hk : ∀ a < fk.D, 0 ≤ (fk.coregDiags.getD q []).getD a 0) :
    (fnMatrix fk.D fk.D (fk.B q)).PosSemidef := by
  obtain ⟨hl, -⟩ := C31_coreg_entries fk hw
  have hm : fk.coregMats[q]? = some (fk.coregMats.getD q ⟨0, 0, []⟩) := by
    rw [List.getD_eq_getElem _ _ (by omega), List.getElem?_eq_getElem (by omega)]
  have := (C31_coreg_psd fk hw q hq _ hm).2 hk
  have e : fnMatrix fk.D fk.D (fk.B q) = fnMatrix fk.D fk.D (fk.coregMats.getD q ⟨0, 0, []⟩).get := by
    ext i j
    exact ((coregMats_B hw hq).2.2 i i.2 j j.2).symm
  rw [e]
  exact this

/-- kernel `q` is a positive semi-definite kernel on the input dimensions it reads -/
def FK.KernelPSD (fk : FK) (q : ℕ) : Prop :=
  ∀ (m : ℕ) (x : Fin m → ℕ → ℝ),
    (Matrix.of fun i j => (fk.kernels.getD q (.identity none)).doc (distOn (fk.kdims q) (x i) (x j))).PosSemidef

theorem covMat_posDef {fk : FK} (hw : fk.WF) {Xs : List (Arr2 ℝ)} (hX : Xs.length = fk.D)
    (hk : ∀ q < fk.Q, fk.KernelPSD q) (hd : ∀ q < fk.Q, ∀ a < fk.D, 0 ≤ (fk.coregDiags.getD q []).getD a 0)
    (hn : ∀ a < fk.D, 0 < fk.noise.getD a 0) : (fk.covMat Xs).PosDef := by
  set lens := Xs.map Arr2.rows with hlens
  have hl : lens.length = fk.D := by rw [hlens, List.length_map, hX]
  let o : Fin lens.sum → Fin fk.D := fun r => ⟨ownerOf lens r, hl ▸ ownerOf_lt lens r r.2⟩
  let x : Fin lens.sum → ℕ → ℝ := fun r => pointOf Xs (ownerOf lens r) (innerIdx lens r)
  have e : fk.covMat Xs = Matrix.diagonal (fun r => fk.noise.getD (o r) 0) + ∑ q ∈ Finset.range fk.Q,
      ((fnMatrix fk.D fk.D (fk.B q)).submatrix o o).hadamard
        (Matrix.of fun i j => (fk.kernels.getD q (.identity none)).doc (distOn (fk.kdims q) (x i) (x j))) := by
    ext r s
    rw [Matrix.add_apply, Matrix.sum_apply, add_comm]
    unfold FK.covMat fnMatrix FK.fullCov
    simp only
    congr 1
    by_cases hrs : r = s
    · subst hrs
      rw [if_pos rfl, Matrix.diagonal_apply_eq]
    · rw [if_neg (fun h => hrs (Fin.ext h)), Matrix.diagonal_apply_ne _ hrs]
  rw [e]
  refine Matrix.PosDef.add_posSemidef ?_ ?_
  · rw [Matrix.posDef_diagonal_iff]
    exact fun r => hn _ (o r).2
  · refine Matrix.posSemidef_sum _ fun q hq => ?_
    exact ((B_psd hw (Finset.mem_range.1 hq) (hd q (Finset.mem_range.1 hq))).submatrix o).hadamard (hk q (Finset.mem_range.1 hq) _ _)

/-- C36: with positive semi-definite kernels, non-negative `kappa` and positive noise the exact covariance is symmetric positive
definite, and constructing the likelihood (which needs its Cholesky factorisation) succeeds. -/
theorem C36_positive_definite (fk : FK) (P : ℕ) (h : fk.Ready P) (Xs : List (Arr2 ℝ)) (Ys : List (List ℝ)) (hd : DataOK fk.D P Xs Ys)
    (hk : ∀ q < fk.Q, fk.KernelPSD q) (hκ : ∀ q < fk.Q, ∀ a < fk.D, 0 ≤ (fk.coregDiags.getD q []).getD a 0)
    (hn : ∀ a < fk.D, 0 < fk.noise.getD a 0) :
    ∃ l, exactLMCNew fk Xs Ys = .ok l ∧ (∀ r < l.K.rows, ∀ s < l.K.rows, l.K.get r s = l.K.get s r) ∧
      (fnMatrix l.K.rows l.K.rows l.K.get).PosDef := by
  have hp := covMat_posDef h.wf hd.inputs.len hk hκ hn
  obtain ⟨l, h1, h2⟩ := (exactLMC_contents h hd).1 hp
  refine ⟨l, h1, ?_, ?_⟩
  · rw [h2.K]
    intro r hr s hs
    rw [Arr2.of_get (by exact hr) (by exact hs), Arr2.of_get (by exact hs) (by exact hr), fullCov_symm]
  · rw [h2.K]
    have : fnMatrix (Xs.map Arr2.rows).sum (Xs.map Arr2.rows).sum (Arr2.of (Xs.map Arr2.rows).sum (Xs.map Arr2.rows).sum (fk.fullCov Xs)).get
        = fk.covMat Xs := by
      ext r s
      exact Arr2.of_get r.2 s.2
    exact this ▸ hp

/-- C36, conversely: when the covariance is not positive definite the constructor raises LinAlgError rather than returning something. -/
theorem C36_otherwise_raises (fk : FK) (P : ℕ) (h : fk.Ready P) (Xs : List (Arr2 ℝ)) (Ys : List (List ℝ)) (hd : DataOK fk.D P Xs Ys)
    (hp : ¬ (fk.covMat Xs).PosDef) : exactLMCNew fk Xs Ys = .error .linAlgError := (exactLMC_contents h hd).2 hp

theorem distOn_norm (ad : List ℕ) (x z : ℕ → ℝ) :
    distOn ad x z = ‖(WithLp.toLp 2 fun i : Fin ad.length => x ad[i]) - (WithLp.toLp 2 fun i : Fin ad.length => z ad[i] : EuclideanSpace ℝ (Fin ad.length))‖ := by
  rw [EuclideanSpace.norm_eq]
  unfold distOn
  congr 1
  rw [← Fin.sum_univ_getElem]
  rw [← Equiv.sum_comp (finCongr (by simp : ad.length = (ad.map fun c => (x c - z c) ^ 2).length))]
  refine Finset.sum_congr rfl fun i _ => ?_
  simp

theorem distOn_line (c : ℕ) (x z : ℕ → ℝ) : distOn [c] x z = |x c - z c| := by
  unfold distOn
  simp only [List.map_cons, List.map_nil, List.sum_cons, List.sum_nil, add_zero]
  exact Real.sqrt_sq_eq_abs _

/-- C36: the library's kernels are positive semi-definite in this sense, except that a periodic kernel may read one dimension only
(see C25). -/
theorem C36_kernels_psd (fk : FK) (P : ℕ) (h : fk.Ready P) (q : ℕ) (hq : q < fk.Q)
    (hc : (fk.kernels.getD q (.identity none)).aperiodic ∨ ∃ c, fk.kdims q = [c]) : fk.KernelPSD q := by
  intro m x
  have hv : (fk.kernels.getD q (.identity none)).Valid := h.valid _ (by rw [List.getD_eq_getElem _ _ hq]; exact List.getElem_mem _)
  rcases hc with hc | ⟨c, hc⟩
  · have := doc_psd (fun i : Fin m => (WithLp.toLp 2 fun l : Fin (fk.kdims q).length => x i (fk.kdims q)[l] : EuclideanSpace ℝ (Fin (fk.kdims q).length))) _ hv hc
    simpa only [distOn_norm] using this
  · have := doc_psd_line (fun i : Fin m => x i c) _ hv
    simpa only [hc, distOn_line] using this

end Verif
