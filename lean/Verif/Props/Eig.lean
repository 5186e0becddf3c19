import Verif.Proofs.EigBound2
import Verif.Props.LinAlg

/-!
C10: `upper_eig_bound`. The property as stated (every tree of classes that offer the bound) is false of the
code: see `C10_kronecker_unsound`, `C10_symmBlock_unsound`; `SKI.upper_eig_bound` always raises
(`C10_ski_raises`). Proved: the bound is right for identity, diagonal and Toeplitz matrices, sums,
Kronecker products of positive semi-definite operands and symmetric block matrices whose blocks' bounds
bound the absolute eigenvalues. C12: closure of positive semi-definiteness.
-/

namespace Verif
open Matrix

/-- operators for which `upper_eig_bound` is proved right -/
inductive BoundSafe : MatObj → Prop
  | identity {n M} (h : identityNew n = .ok M) : BoundSafe M
  | diag {v M} (hw : v.WF) (h : diagNew v = .ok M) : BoundSafe M
  | toeplitz {top M} (hw : top.WF) (h : toeplitzNew top = .ok M) : BoundSafe M
  | sum {Ks M} (hb : ∀ K ∈ Ks, BoundSafe K) (h : sumMatrixNew Ks = .ok M) : BoundSafe M
  | kronecker {A B M} (hA : BoundSafe A) (hB : BoundSafe B) (pA : A.sq.PosSemidef) (pB : B.sq.PosSemidef)
      (h : kroneckerNew A B = .ok M) : BoundSafe M
  | symmBlock {blocks : List (List MatObj)} {m M} (hb : ∀ row ∈ blocks, ∀ K ∈ row, BoundSafe K)
      (hs : ∀ row ∈ blocks, ∀ K ∈ row, K.rows = m)
      (hsym : ∀ (k l : ℕ) (hk : k < blocks.length) (hl : l < blocks.length) K L,
        blocks[k][l]? = some K → blocks[l][k]? = some L → K.asNumpy = L.asNumpy)
      (habs : ∀ row ∈ blocks, ∀ K ∈ row, ∀ u, K.upperEigBound = .ok u → EigAbsLE K.sq u)
      (h : symmSquareBlockNew blocks = .ok M) : BoundSafe M

theorem BoundSafe.good {M : MatObj} (hM : BoundSafe M) : Built M ∧ M.cols = M.rows ∧ M.sq.IsHermitian := by
  induction hM with
  | identity h =>
    obtain ⟨h1, h2, hR⟩ := identity_represents h
    refine ⟨.identity h, by omega, fnMatrix_isHermitian.2 fun i hi j hj => ?_⟩
    rw [hR.entry hi (by omega), hR.entry hj (by omega)]
    simp [eq_comm]
  | diag hw h =>
    obtain ⟨h1, h2, hR⟩ := diag_represents hw h
    refine ⟨.diag hw h, h2, fnMatrix_isHermitian.2 fun i hi j hj => ?_⟩
    rw [hR.entry hi (by omega), hR.entry hj (by omega)]
    by_cases e : i = j
    · subst e; rfl
    · rw [if_neg e, if_neg (Ne.symm e)]
  | toeplitz hw h =>
    obtain ⟨h1, h2, hR⟩ := toeplitz_represents hw h
    refine ⟨.toeplitz hw h, by omega, fnMatrix_isHermitian.2 fun i hi j hj => ?_⟩
    rw [hR.entry hi (by omega), hR.entry hj (by omega)]
    exact congrArg (fun d => List.getD _ d 0) (absDiff_comm i j)
  | @sum Ks M hb h ih =>
    obtain ⟨hne, hsh⟩ := sumMatrix_ok h
    have hR := sumMatrix_represents (A := fun K => K.asNumpy.get) h (fun K hK => (ih K hK).1.good)
    have hsq : M.cols = M.rows := by
      obtain ⟨K, hK⟩ := List.exists_mem_of_ne_nil _ hne
      have := hsh K hK; have := (ih K hK).2.1; omega
    refine ⟨.sum (fun K hK => (ih K hK).1) h, hsq, fnMatrix_isHermitian.2 fun i hi j hj => ?_⟩
    rw [hR.entry hi (by omega), hR.entry hj (by omega)]
    congr 1
    refine List.map_congr_left fun K hK => ?_
    have hs := fnMatrix_isHermitian.1 (ih K hK).2.2
    rw [(hsh K hK).1] at hs
    exact hs i hi j hj
  | kronecker hA hB pA pB h iA iB =>
    refine ⟨.kronecker iA.1 iB.1 h, (kron_sq iA.1.good iB.1.good iA.2.1 iB.2.1 h).2.1, ?_⟩
    exact (kron_psd iA.1.good iB.1.good iA.2.1 iB.2.1 pA pB h).isHermitian
  | @symmBlock blocks m M hb hs hsym habs h ih =>
    have hs' : ∀ row ∈ blocks, ∀ K ∈ row, K.rows = m ∧ K.cols = m := fun r hr K hK =>
      ⟨hs r hr K hK, by rw [(ih r hr K hK).2.1, hs r hr K hK]⟩
    have hB := fun r hr K hK => (ih r hr K hK).1
    obtain ⟨h1, h2, h3, -⟩ := C07_symmBlock hB hs' h
    have hlen := (C09_symmBlock blocks hB).1.1 ⟨M, h⟩
    have hm : 0 < m := by
      by_contra h0
      have := (Built.symmBlock hB hs' h).good.rpos
      have : m = 0 := by omega
      subst this; omega
    refine ⟨.symmBlock hB hs' h, by omega, fnMatrix_isHermitian.2 fun i hi j hj => ?_⟩
    rw [h1] at hi hj
    have hk : i / m < blocks.length := Nat.div_lt_of_lt_mul (by rwa [mul_comm] at hi)
    have hl : j / m < blocks.length := Nat.div_lt_of_lt_mul (by rwa [mul_comm] at hj)
    have hk' : i / m < blocks[j / m].length := by rw [hlen.2 _ (List.getElem_mem hl)]; exact hk
    have hl' : j / m < blocks[i / m].length := by rw [hlen.2 _ (List.getElem_mem hk)]; exact hl
    have e1 := h3 (i / m) (j / m) hk hl' (i % m) (Nat.mod_lt _ hm) (j % m) (Nat.mod_lt _ hm)
    have e2 := h3 (j / m) (i / m) hl hk' (j % m) (Nat.mod_lt _ hm) (i % m) (Nat.mod_lt _ hm)
    rw [Nat.div_add_mod', Nat.div_add_mod'] at e1 e2
    rw [e1, e2]
    have hmem : blocks[i / m][j / m] ∈ blocks[i / m] := List.getElem_mem hl'
    rw [hsym (j / m) (i / m) hl hk _ _ (List.getElem?_eq_getElem hk') (List.getElem?_eq_getElem hl')]
    have := fnMatrix_isHermitian.1 (ih _ (List.getElem_mem hk) _ hmem).2.2
    rw [hs _ (List.getElem_mem hk) _ hmem] at this
    exact this _ (Nat.mod_lt _ hm) _ (Nat.mod_lt _ hm)

/-- C10 (partial: `BoundSafe` operators only): when `upper_eig_bound()` returns, every real eigenvalue of the
(symmetric) matrix is at most the returned number. Missing, because false: Kronecker products of operands
that are not positive semi-definite, block matrices with blocks whose bound is not absolute, SKI. -/
theorem C10_upper_eig_bound_partial {M : MatObj} (hM : BoundSafe M) {b : ℝ} (hb : M.upperEigBound = .ok b) :
    M.sq.IsHermitian ∧ EigLE M.sq b := by
  refine ⟨hM.good.2.2, ?_⟩
  induction hM generalizing b with
  | identity h => exact identity_eigLE h hb
  | diag hw h => exact diag_eigLE hw h hb
  | toeplitz hw h => exact (toeplitz_eigAbs hw h hb).le
  | @sum Ks M hK h ih =>
    refine (sum_eigLE (fun K hK' => (hK K hK').good.1.good) (fun K hK' => (hK K hK').good.2.2)
      (fun K hK' u hu => ih K hK' hu) h ?_ hb).2
    exact (BoundSafe.sum hK h).good.2.1
  | kronecker hA hB pA pB h iA iB =>
    exact kron_eigLE hA.good.1.good hB.good.1.good hA.good.2.1 hB.good.2.1 pA pB (fun u hu => iA hu) (fun u hu => iB hu) h hb
  | @symmBlock blocks m M hb' hs hsym habs h ih =>
    have hs' : ∀ row ∈ blocks, ∀ K ∈ row, K.rows = m ∧ K.cols = m := fun r hr K hK =>
      ⟨hs r hr K hK, by rw [(hb' r hr K hK).good.2.1, hs r hr K hK]⟩
    have hB := fun r hr K hK => (hb' r hr K hK).good.1
    obtain ⟨h1, h2, h3, -⟩ := C07_symmBlock hB hs' h
    have hlen := (C09_symmBlock blocks hB).1.1 ⟨M, h⟩
    have hS := fnMatrix_isHermitian.1 (BoundSafe.symmBlock hb' hs hsym habs h).good.2.2
    obtain ⟨u, hu1, hu2, hu3⟩ := symmBlock_bound h hb
    show EigLE (fnMatrix _ _ _) _
    rw [eigLE_iff_qle hS, h1]
    -- each block is bounded both ways by `u k l`
    have key : ∀ k < blocks.length, ∀ l < blocks.length, Sym m (fun p q => M.asNumpy.get (k * m + p) (l * m + q)) ∧
        QLE m (fun p q => M.asNumpy.get (k * m + p) (l * m + q)) (u k l) ∧
        QLE m (fun p q => - M.asNumpy.get (k * m + p) (l * m + q)) (u k l) := by
      intro k hk l hl
      have hl' : l < blocks[k].length := by rw [hlen.2 _ (List.getElem_mem hk)]; exact hl
      have hk' : k < blocks[l].length := by rw [hlen.2 _ (List.getElem_mem hl)]; exact hk
      set K := blocks[k][l] with hK
      have hmem : K ∈ blocks[k] := List.getElem_mem hl'
      have hKs := hs _ (List.getElem_mem hk) _ hmem
      have hent : ∀ p < m, ∀ q < m, M.asNumpy.get (k * m + p) (l * m + q) = K.asNumpy.get p q :=
        fun p hp q hq => h3 k l hk hl' p hp q hq
      have hsymK : Sym m K.asNumpy.get := by
        have := fnMatrix_isHermitian.1 (hb' _ (List.getElem_mem hk) _ hmem).good.2.2
        rwa [hKs] at this
      have habsK : EigAbsLE (fnMatrix m m K.asNumpy.get) (u k l) := by
        rcases le_total k l with hkl | hkl
        · have hub := hu1 k l hkl hl K (by rw [getD_getElem [] hk, List.getElem?_eq_getElem hl'])
          have := habs _ (List.getElem_mem hk) _ hmem _ hub
          rw [MatObj.sq, hKs] at this; exact this
        · set L := blocks[l][k] with hL
          have hLmem : L ∈ blocks[l] := List.getElem_mem hk'
          have hub := hu1 l k hkl hk L (by rw [getD_getElem [] hl, List.getElem?_eq_getElem hk'])
          have := habs _ (List.getElem_mem hl) _ hLmem _ hub
          rw [MatObj.sq, hs _ (List.getElem_mem hl) _ hLmem] at this
          rw [hu2 k hk l hl, hsym k l hk hl K L (List.getElem?_eq_getElem hl') (List.getElem?_eq_getElem hk')]
          exact this
      refine ⟨fun p hp q hq => by beta_reduce; rw [hent p hp q hq, hent q hq p hp]; exact hsymK p hp q hq, fun x => ?_, fun x => ?_⟩
      · rw [quad_congr hent]; exact (eigLE_iff_qle hsymK _).1 habsK.le x
      · rw [quad_congr (B := fun p q => - K.asNumpy.get p q) (fun p hp q hq => by rw [hent p hp q hq])]
        have hneg : EigLE (fnMatrix m m fun p q => - K.asNumpy.get p q) (u k l) := habsK.neg_le
        exact (eigLE_iff_qle (fun p hp q hq => by rw [hsymK p hp q hq]) _).1 hneg x
    exact block_qle hu2 (fun k hk l hl => (key k hk l hl).1) (fun k hk l hl => (key k hk l hl).2.1)
      (fun k hk l hl => (key k hk l hl).2.2) hu3

/-- C10 for Toeplitz, both signs: `upper_eig_bound` also bounds the absolute eigenvalues. -/
theorem C10_toeplitz_abs {top : NDArr ℝ} (hw : top.WF) {M : MatObj} (h : toeplitzNew top = .ok M) {b : ℝ}
    (hb : M.upperEigBound = .ok b) : EigAbsLE M.sq b := toeplitz_eigAbs hw h hb

/-- the classes that are supposed to offer the bound do return one on non-empty input -/
theorem C10_leaf_bounds_return :
    (∀ n M, identityNew n = .ok M → ∃ b, M.upperEigBound = .ok b) ∧
    (∀ v M, v.WF → diagNew v = .ok M → ∃ b, M.upperEigBound = .ok b) ∧
    (∀ top M, top.WF → toeplitzNew top = .ok M → ∃ b, M.upperEigBound = .ok b) := by
  refine ⟨fun n M h => ?_, fun v M hw h => ?_, fun top M hw h => ?_⟩
  · simp only [identityNew, bind_ok, pure_ok] at h
    obtain ⟨_, _, rfl⟩ := h; exact ⟨1, rfl⟩
  · obtain ⟨h1, -, hR⟩ := diag_represents hw h
    have hl : v.data.length = M.rows := by simpa [NDArr.WF, h1] using hw
    simp only [diagNew, bind_ok] at h
    obtain ⟨_, _, _, _, h⟩ := h
    split at h
    · cases h
    · simp only [pure_ok] at h
      subst h
      have hp := hR.rpos
      simp only at hp hl ⊢
      cases hv : v.data with
      | nil => rw [hv] at hl; simp at hl; omega
      | cons a l => exact ⟨_, rfl⟩
  · obtain ⟨-, -, h3, -, -, -, -, h8⟩ := toeplitz_ok h
    rw [h8]
    have t1 := (toeplitz_totals top.data h3).1
    have hpos := List.length_pos_iff.2 h3
    simp only [toeplitzUpperEigBound]
    generalize (accumulate (_ : List ℝ)) = acc at t1 ⊢
    cases acc with
    | nil => simp at t1; omega
    | cons a l => exact ⟨_, rfl⟩

theorem diag_dense {v : List ℝ} {M : MatObj} (h : diagNew (NDArr.vec v) = .ok M) :
    M.rows = v.length ∧ M.cols = v.length ∧ Built M ∧
    ∀ i < v.length, ∀ j < v.length, M.asNumpy.get i j = if i = j then v.getD i 0 else 0 := by
  have hw : (NDArr.vec v).WF := by simp [NDArr.WF, NDArr.vec]
  obtain ⟨h1, h2, hR⟩ := diag_represents hw h
  have hr : M.rows = v.length := by simpa [NDArr.vec] using h1.symm
  refine ⟨hr, by omega, .diag hw h, fun i hi j hj => ?_⟩
  rw [hR.entry (by omega) (by omega)]; rfl

/-- C10 is false for Kronecker products in general: `Diag([-1,-2]) ⊗ Diag([-1,-2])` has eigenvalue 4 but
reports the bound 1. -/
theorem C10_kronecker_unsound : ∃ A M, diagNew (NDArr.vec [-1, -2]) = .ok A ∧ kroneckerNew A A = .ok M ∧
    M.upperEigBound = .ok 1 ∧ ¬ EigLE M.sq 1 := by
  obtain ⟨A, hA⟩ := (C09_diag (NDArr.vec [-1, -2])).1.2 ⟨2, rfl, by norm_num⟩
  obtain ⟨r, c, hb, hd⟩ := diag_dense hA
  simp only [List.length_cons, List.length_nil, Nat.zero_add, Nat.reduceAdd] at r c hd
  obtain ⟨M, hM⟩ := C09_composition_kronecker.2.2 A A hb hb
  obtain ⟨h1, h2, hR⟩ := kronecker_represents hb.good hb.good hM
  have hub : A.upperEigBound = .ok (-1) := by
    simp only [diagNew, bind_ok] at hA
    obtain ⟨_, _, _, _, hA⟩ := hA
    split at hA
    · cases hA
    · simp only [pure_ok] at hA; subst hA
      simp [NDArr.vec, npMax]
  refine ⟨A, M, hA, hM, ?_, fun hE => ?_⟩
  · simp only [kroneckerNew, bind_ok, pure_ok] at hM
    obtain ⟨_, _, rfl⟩ := hM
    simp only [hub]
    show Except.ok ((-1 : ℝ) * -1) = _
    norm_num
  · rw [r] at h1
    rw [c] at h2
    have hS : Sym M.rows M.asNumpy.get := by
      intro i hi j hj
      rw [hR.entry hi (by omega), hR.entry hj (by omega), r, c]
      have : ∀ a b : ℕ, a < 2 → b < 2 → A.asNumpy.get a b = A.asNumpy.get b a := fun a b ha hb' => by
        rw [hd a ha b hb', hd b hb' a ha]
        by_cases e : a = b
        · subst e; rfl
        · rw [if_neg e, if_neg (Ne.symm e)]
      rw [this (i / 2) (j / 2) (by omega) (by omega), this (i % 2) (j % 2) (by omega) (by omega)]
    have := (eigLE_iff_qle hS 1).1 hE (fun i => if i = 3 then 1 else 0)
    have e : M.asNumpy.get 3 3 = 4 := by
      rw [hR.entry (by omega) (by omega), r, c]
      simp only [Nat.reduceDiv, Nat.reduceMod]
      rw [hd 1 (by norm_num) 1 (by norm_num)]
      norm_num
    rw [h1] at this
    simp [quad, nrm, e] at this

/-- C10 is false for symmetric block matrices in general: with `Z = Diag([0,0])`, `B = Diag([-5,1])`, the matrix
`[[Z,B],[B,Z]]` has eigenvalue 5 but reports the bound 1. -/
theorem C10_symmBlock_unsound : ∃ Z B M, diagNew (NDArr.vec [0, 0]) = .ok Z ∧ diagNew (NDArr.vec [-5, 1]) = .ok B ∧
    symmSquareBlockNew [[Z, B], [B, Z]] = .ok M ∧ M.upperEigBound = .ok 1 ∧ ¬ EigLE M.sq 1 := by
  obtain ⟨Z, hZ⟩ := (C09_diag (NDArr.vec [0, 0])).1.2 ⟨2, rfl, by norm_num⟩
  obtain ⟨B, hB⟩ := (C09_diag (NDArr.vec [-5, 1])).1.2 ⟨2, rfl, by norm_num⟩
  obtain ⟨rZ, cZ, bZ, dZ⟩ := diag_dense hZ
  obtain ⟨rB, cB, bB, dB⟩ := diag_dense hB
  simp only [List.length_cons, List.length_nil, Nat.zero_add, Nat.reduceAdd] at rZ cZ dZ rB cB dB
  have hb : ∀ row ∈ [[Z, B], [B, Z]], ∀ K ∈ row, Built K := by simp [bZ, bB]
  obtain ⟨M, hM⟩ := (C09_symmBlock [[Z, B], [B, Z]] hb).1.2 ⟨by simp, by simp⟩
  obtain ⟨h1, h2, h3, -⟩ := C07_symmBlock (m := 2) hb (by simp [rZ, cZ, rB, cB]) hM
  have ubZ : Z.upperEigBound = .ok 0 := by
    simp only [diagNew, bind_ok] at hZ
    obtain ⟨_, _, _, _, hZ⟩ := hZ
    split at hZ
    · cases hZ
    · simp only [pure_ok] at hZ; subst hZ
      simp [NDArr.vec, npMax]
  have ubB : B.upperEigBound = .ok 1 := by
    simp only [diagNew, bind_ok] at hB
    obtain ⟨_, _, _, _, hB⟩ := hB
    split at hB
    · cases hB
    · simp only [pure_ok] at hB; subst hB
      norm_num [NDArr.vec, npMax]
  refine ⟨Z, B, M, hZ, hB, hM, ?_, fun hE => ?_⟩
  · unfold symmSquareBlockNew at hM
    simp only at hM
    split at hM
    · cases hM
    · simp only [bind_ok, pure_ok] at hM
      obtain ⟨_, _, rfl⟩ := hM
      simp only
      rw [bind_ok]
      refine ⟨[0, 1, 0], ?_, ?_⟩
      · simp [List.range_succ, List.range', seqAll, ubZ, ubB, bind, Except.bind, pure, Except.pure]
      · unfold laNorm1
        have e : (vmk 2 fun j => ∑ i ∈ Finset.range 2, |symm2dListMap (fun e : Except PyErr ℝ => e.toOption.getD 0)
            (fun i j => (([[Z, B], [B, Z]].getD i []).getD j Z).upperEigBound) 2 (fun _ _ => 0) i j|) = [1, 1] := by
          have hv : ∀ f : ℕ → ℝ, vmk 2 f = [f 0, f 1] := fun f => rfl
          rw [hv]
          simp only [Finset.sum_range_succ, Finset.sum_range_zero, zero_add]
          rw [symm2dListMap_eq _ _ 2 _ (by norm_num) (by norm_num), symm2dListMap_eq _ _ 2 _ (by norm_num) (by norm_num),
            symm2dListMap_eq _ _ 2 _ (by norm_num) (by norm_num), symm2dListMap_eq _ _ 2 _ (by norm_num) (by norm_num)]
          simp [ubZ, ubB, Except.toOption]
        refine (congrArg npMax e).trans ?_
        simp [npMax]
  · simp only [List.length_cons, List.length_nil, Nat.zero_add, Nat.reduceAdd, Nat.reduceMul] at h1 h2
    -- v = e_0 - e_2 is an eigenvector with eigenvalue 5
    have ent : ∀ k < 2, ∀ l < 2, ∀ i < 2, ∀ j < 2, M.asNumpy.get (k * 2 + i) (l * 2 + j) =
        if k = l then 0 else if i = j then [-5, 1].getD i 0 else 0 := by
      intro k hk l hl i hi j hj
      have := h3 k l (by simpa using hk) (by interval_cases k <;> simpa using hl) i hi j hj
      rw [this]
      interval_cases k <;> interval_cases l <;> simp only [List.getElem_cons_zero, List.getElem_cons_succ]
      · rw [dZ i hi j hj]; interval_cases i <;> simp
      · rw [dB i hi j hj]; simp
      · rw [dB i hi j hj]; simp
      · rw [dZ i hi j hj]; interval_cases i <;> simp
    have hS : Sym M.rows M.asNumpy.get := by
      rw [h1]
      intro i hi j hj
      have e1 := ent (i / 2) (by omega) (j / 2) (by omega) (i % 2) (by omega) (j % 2) (by omega)
      have e2 := ent (j / 2) (by omega) (i / 2) (by omega) (j % 2) (by omega) (i % 2) (by omega)
      rw [Nat.div_add_mod', Nat.div_add_mod'] at e1 e2
      rw [e1, e2]
      by_cases c1 : i / 2 = j / 2
      · rw [if_pos c1, if_pos c1.symm]
      · rw [if_neg c1, if_neg (Ne.symm c1)]
        by_cases c2 : i % 2 = j % 2
        · rw [if_pos c2, if_pos c2.symm, c2]
        · rw [if_neg c2, if_neg (Ne.symm c2)]
    have := (eigLE_iff_qle hS 1).1 hE (fun i => if i = 0 then 1 else if i = 2 then -1 else 0)
    rw [h1] at this
    have e00 := ent 0 (by norm_num) 0 (by norm_num) 0 (by norm_num) 0 (by norm_num)
    have e02 := ent 0 (by norm_num) 1 (by norm_num) 0 (by norm_num) 0 (by norm_num)
    have e20 := ent 1 (by norm_num) 0 (by norm_num) 0 (by norm_num) 0 (by norm_num)
    have e22 := ent 1 (by norm_num) 1 (by norm_num) 0 (by norm_num) 0 (by norm_num)
    norm_num at e00 e02 e20 e22
    simp [quad, nrm, Finset.sum_range_succ, e00, e02, e20, e22] at this
    norm_num at this

/-- C10: `SKI.upper_eig_bound()` never returns a bound: it reads an attribute that does not exist. -/
theorem C10_ski_raises {K M : MatObj} {W WT : Arr2 ℝ} (h : skiNew K W WT = .ok M) :
    ∃ e, M.upperEigBound = .error e ∧ (∀ b, K.upperEigBound = .ok b → e = .attributeError) := by
  simp only [skiNew, bind_ok, pure_ok] at h
  obtain ⟨_, _, _, _, _, _, rfl⟩ := h
  cases hK : K.upperEigBound with
  | error e => exact ⟨e, rfl, fun b hb => by cases hb⟩
  | ok b => exact ⟨.attributeError, rfl, fun _ _ => rfl⟩

/-- C10, the classes that do not offer the bound: wrapped functions, arrays, block diagonal matrices,
compositions and block Toeplitz matrices have no `upper_eig_bound`, so asking for it raises AttributeError; they
never return a number that is not a bound. -/
theorem C10_no_bound :
    (∀ n m mvm M, wrapNew n m mvm = .ok M → M.upperEigBound = .error .attributeError) ∧
    (∀ a M, numpyMatrixNew a = .ok M → M.upperEigBound = .error .attributeError) ∧
    (∀ blocks M, blockDiagNew blocks = .ok M → M.upperEigBound = .error .attributeError) ∧
    (∀ mats M, compositionNew mats = .ok M → M.upperEigBound = .error .attributeError) ∧
    (∀ top sizes M, bttbNew top sizes = .ok M → M.upperEigBound = .error .attributeError) := by
  refine ⟨fun n m mvm M h => ?_, fun a M h => ?_, fun blocks M h => ?_, fun mats M h => ?_,
    fun top sizes M h => ?_⟩
  · unfold wrapNew at h
    simp only [bind_ok, pure_ok] at h
    obtain ⟨_, _, rfl⟩ := h
    rfl
  · unfold numpyMatrixNew at h
    split at h
    · simp only [bind_ok, pure_ok] at h
      obtain ⟨_, _, rfl⟩ := h
      rfl
    · cases h
  · unfold blockDiagNew at h
    simp only [bind_ok, pure_ok] at h
    obtain ⟨_, _, _, _, _, _, rfl⟩ := h
    rfl
  · unfold compositionNew at h
    split at h
    · simp only [bind_ok, pure_ok] at h
      obtain ⟨_, _, rfl⟩ := h
      rfl
    · cases h
  · unfold bttbNew at h
    simp only [bind_ok] at h
    obtain ⟨_, _, h⟩ := h
    split at h
    · cases h
    split at h
    · cases h
    simp only [bind_ok] at h
    obtain ⟨_, _, h⟩ := h
    split at h
    · cases h
    split at h
    · cases h
    simp only [bind_ok] at h
    obtain ⟨_, _, h⟩ := h
    split at h
    · cases h
    simp only [pure_ok] at h
    subst h
    rfl

/-- such matrices exist: an array and a composition of it with itself -/
example : ∃ A C, numpyMatrixNew ⟨[2, 2], [5, 0, 0, 7]⟩ = .ok A ∧ compositionNew [A, A] = .ok C ∧
    A.upperEigBound = .error .attributeError ∧ C.upperEigBound = .error .attributeError := by
  obtain ⟨A, hA⟩ : ∃ A, numpyMatrixNew ⟨[2, 2], [5, 0, 0, 7]⟩ = .ok A := ⟨_, rfl⟩
  have hb : A.rows = 2 ∧ A.cols = 2 := by
    unfold numpyMatrixNew at hA
    simp only [bind_ok, pure_ok] at hA
    obtain ⟨_, _, rfl⟩ := hA
    exact ⟨rfl, rfl⟩
  obtain ⟨C, hC⟩ : ∃ C, compositionNew [A, A] = .ok C := by
    unfold compositionNew matrixInit
    simp only [List.head?_cons, List.getLast?_cons_cons, List.getLast?_singleton, hb.1, hb.2]
    exact ⟨_, rfl⟩
  exact ⟨A, C, hA, hC, C10_no_bound.2.1 _ _ hA, C10_no_bound.2.2.2.1 _ _ hC⟩

/-! ### C12 -/

/-- C12, Kronecker -/
theorem C12_kronecker {A B M : MatObj} (hA : Built A) (hB : Built B) (sA : A.cols = A.rows) (sB : B.cols = B.rows)
    (pA : A.sq.PosSemidef) (pB : B.sq.PosSemidef) (h : kroneckerNew A B = .ok M) : M.sq.PosSemidef :=
  kron_psd hA.good hB.good sA sB pA pB h

/-- C12, sums -/
theorem C12_sum {Ks : List MatObj} {M : MatObj} (hb : ∀ K ∈ Ks, Built K) (hs : ∀ K ∈ Ks, K.cols = K.rows)
    (hp : ∀ K ∈ Ks, K.sq.PosSemidef) (h : sumMatrixNew Ks = .ok M) : M.sq.PosSemidef := by
  obtain ⟨hne, hsh⟩ := sumMatrix_ok h
  have hR := sumMatrix_represents (A := fun K => K.asNumpy.get) h (fun K hK => (hb K hK).good)
  have hsq : M.cols = M.rows := by
    obtain ⟨K, hK⟩ := List.exists_mem_of_ne_nil _ hne
    have := hsh K hK; have := hs K hK; omega
  have hent : ∀ i < M.rows, ∀ j < M.rows, M.asNumpy.get i j = (Ks.map fun K => K.asNumpy.get i j).sum := fun i hi j hj => by
    rw [hR.entry hi (by rw [hsq]; exact hj)]
  have hp' : ∀ K ∈ Ks, Sym M.rows K.asNumpy.get ∧ ∀ x, 0 ≤ quad M.rows K.asNumpy.get x := fun K hK => by
    have := psd_iff_quad.1 (hp K hK); rw [(hsh K hK).1] at this; exact this
  refine psd_iff_quad.2 ⟨fun i hi j hj => ?_, fun x => ?_⟩
  · rw [hent i hi j hj, hent j hj i hi]
    congr 1
    exact List.map_congr_left fun K hK => (hp' K hK).1 i hi j hj
  · rw [quad_congr hent, quad_list_sum]
    refine List.sum_nonneg fun a ha => ?_
    obtain ⟨K, hK, rfl⟩ := List.mem_map.1 ha
    exact (hp' K hK).2 x

theorem directSum_psd : ∀ (blocks : List MatObj), (∀ K ∈ blocks, K.cols = K.rows) → (∀ K ∈ blocks, K.sq.PosSemidef) →
    Sym (blocks.map MatObj.rows).sum (directSum (denseList blocks)) ∧
    ∀ x, 0 ≤ quad (blocks.map MatObj.rows).sum (directSum (denseList blocks)) x
  | [], _, _ => ⟨fun i hi => by simp at hi, fun x => by simp [quad]⟩
  | b :: rest, hs, hp => by
    obtain ⟨ih1, ih2⟩ := directSum_psd rest (fun K hK => hs K (by simp [hK])) (fun K hK => hp K (by simp [hK]))
    obtain ⟨p1, p2⟩ := psd_iff_quad.1 (hp b (by simp))
    have hc := hs b (by simp)
    simp only [List.map_cons, List.sum_cons, denseList, directSum, hc]
    set S := (rest.map MatObj.rows).sum
    refine ⟨fun i hi j hj => ?_, fun x => ?_⟩
    · by_cases h1 : i < b.rows <;> by_cases h2 : j < b.rows <;> simp only [h1, h2, if_true, if_false]
      · exact p1 i h1 j h2
      · exact ih1 _ (by omega) _ (by omega)
    · have e : quad (b.rows + S) (fun i j => if i < b.rows then (if j < b.rows then b.asNumpy.get i j else 0)
          else if j < b.rows then 0 else directSum (denseList rest) (i - b.rows) (j - b.rows)) x =
          quad b.rows b.asNumpy.get x + quad S (directSum (denseList rest)) (fun i => x (b.rows + i)) := by
        unfold quad
        rw [Finset.sum_range_add]
        congr 1
        · refine Finset.sum_congr rfl fun i hi => ?_
          rw [Finset.sum_range_add]
          have hi := Finset.mem_range.1 hi
          rw [show ∑ j ∈ Finset.range S, _ = (0 : ℝ) from Finset.sum_eq_zero fun j _ => by
            beta_reduce; rw [if_pos hi, if_neg (by omega)]; ring, add_zero]
          refine Finset.sum_congr rfl fun j hj => ?_
          beta_reduce; rw [if_pos hi, if_pos (Finset.mem_range.1 hj)]
        · refine Finset.sum_congr rfl fun i hi => ?_
          rw [Finset.sum_range_add]
          rw [show ∑ j ∈ Finset.range b.rows, _ = (0 : ℝ) from Finset.sum_eq_zero fun j hj => by
            beta_reduce; rw [if_neg (by omega), if_pos (Finset.mem_range.1 hj)]; ring, zero_add]
          refine Finset.sum_congr rfl fun j hj => ?_
          beta_reduce; rw [if_neg (by omega), if_neg (by omega), Nat.add_sub_cancel_left, Nat.add_sub_cancel_left]
      have := p2 x
      have := ih2 fun i => x (b.rows + i)
      rw [show (fun i j => if i < b.rows then (if j < b.rows then b.asNumpy.get i j else 0)
          else if j < b.rows then 0 else directSum (List.map (fun M => (M.rows, M.cols, M.asNumpy.get)) rest) (i - b.rows) (j - b.rows)) =
          (fun i j => if i < b.rows then (if j < b.rows then b.asNumpy.get i j else 0)
          else if j < b.rows then 0 else directSum (denseList rest) (i - b.rows) (j - b.rows)) from rfl, e]
      linarith

/-- C12, block diagonals -/
theorem C12_blockDiag {blocks : List MatObj} {M : MatObj} (hb : ∀ K ∈ blocks, Built K) (hs : ∀ K ∈ blocks, K.cols = K.rows)
    (hp : ∀ K ∈ blocks, K.sq.PosSemidef) (h : blockDiagNew blocks = .ok M) : M.sq.PosSemidef := by
  obtain ⟨-, -, -, h1, h2⟩ := blockDiag_ok h
  have hR := blockDiag_represents (fun K hK => (hb K hK).good) h
  have hsq : M.cols = M.rows := by
    rw [h1, h2]; congr 1; exact List.map_congr_left hs
  obtain ⟨p1, p2⟩ := directSum_psd blocks hs hp
  rw [← h1] at p1 p2
  have hent : ∀ i < M.rows, ∀ j < M.rows, M.asNumpy.get i j = directSum (denseList blocks) i j := fun i hi j hj => by
    rw [hR.entry hi (by rw [hsq]; exact hj)]
  refine psd_iff_quad.2 ⟨fun i hi j hj => ?_, fun x => ?_⟩
  · rw [hent i hi j hj, hent j hj i hi]; exact p1 i hi j hj
  · rw [quad_congr hent]; exact p2 x

/-- C12, SKI -/
theorem C12_ski {K M : MatObj} {W : Arr2 ℝ} (hK : Built K) (hr : K.rows = W.cols) (hc : K.cols = W.cols)
    (pK : K.sq.PosSemidef) (h : skiNew K W W.T = .ok M) : M.sq.PosSemidef := by
  obtain ⟨h1, h2, hR⟩ := ski_represents hK.good hr hc rfl h
  have e : M.sq = fnMatrix M.rows K.rows W.get * K.sq * (fnMatrix M.rows K.rows W.get)ᴴ := by
    ext i j
    simp only [MatObj.sq, fnMatrix, Matrix.mul_apply, Matrix.conjTranspose_apply, star_trivial]
    rw [hR.entry i.2 (by rw [h2, ← h1]; exact j.2), Finset.sum_comm, ← hr, Finset.sum_range]
    refine Finset.sum_congr rfl fun q _ => ?_
    rw [Finset.sum_range, Finset.sum_mul]
  rw [e]
  exact pK.mul_mul_conjTranspose_same _

/-! ### instances -/

/-- C10/C12: `Toeplitz([2,1,-5])` plus the identity is `BoundSafe`, and its bound is returned. -/
example : ∃ T I M b, toeplitzNew (NDArr.vec [2, 1, -5]) = .ok T ∧ identityNew 3 = .ok I ∧ sumMatrixNew [T, I] = .ok M ∧
    BoundSafe M ∧ M.upperEigBound = .ok b := by
  obtain ⟨T, hT, bT, r, c, -⟩ := ex_toeplitz
  obtain ⟨I, hI⟩ := (C09_identity 3).1.2 (by norm_num)
  obtain ⟨ri, ci, -⟩ := identity_represents hI
  obtain ⟨M, hM⟩ := (C09_sum [T, I] (by simp only [List.mem_cons, List.not_mem_nil, or_false, forall_eq_or_imp, forall_eq]; exact ⟨bT, .identity hI⟩)).1.2
    ⟨by simp, by simp [r, c, ri, ci]⟩
  have hw : (NDArr.vec [2, 1, -5] : NDArr ℝ).WF := rfl
  obtain ⟨t, ht⟩ := C10_leaf_bounds_return.2.2 _ T hw hT
  obtain ⟨i, hi⟩ := C10_leaf_bounds_return.1 _ I hI
  refine ⟨T, I, M, t + i, hT, hI, hM, .sum (fun K hK => ?_) hM, ?_⟩
  · simp only [List.mem_cons, List.not_mem_nil, or_false] at hK
    rcases hK with rfl | rfl
    · exact .toeplitz hw hT
    · exact .identity hI
  · unfold sumMatrixNew at hM
    simp only at hM
    split at hM
    · cases hM
    · simp only [bind_ok, pure_ok] at hM
      obtain ⟨_, _, rfl⟩ := hM
      simp [seqAll, ht, hi, bind, Except.bind, pure, Except.pure]

theorem ex_psd : ∃ A, diagNew (NDArr.vec [1, 2]) = .ok A ∧ Built A ∧ A.rows = 2 ∧ A.cols = 2 ∧ A.sq.PosSemidef := by
  obtain ⟨A, hA⟩ := (C09_diag (NDArr.vec [1, 2])).1.2 ⟨2, rfl, by norm_num⟩
  obtain ⟨r, c, b, d⟩ := diag_dense hA
  simp only [List.length_cons, List.length_nil, Nat.zero_add, Nat.reduceAdd] at r c d
  refine ⟨A, hA, b, r, c, psd_iff_quad.2 ?_⟩
  rw [r]
  refine ⟨fun i hi j hj => ?_, fun x => ?_⟩
  · rw [d i hi j hj, d j hj i hi]
    by_cases e : i = j
    · subst e; rfl
    · rw [if_neg e, if_neg (Ne.symm e)]
  · simp [quad, Finset.sum_range_succ, d 0 (by norm_num) 0 (by norm_num), d 1 (by norm_num) 1 (by norm_num),
      d 0 (by norm_num) 1 (by norm_num), d 1 (by norm_num) 0 (by norm_num)]
    nlinarith [mul_self_nonneg (x 0), mul_self_nonneg (x 1)]

/-- C12 hypotheses are met by `Diag([1,2])`. -/
example : ∃ A M B S, Built A ∧ A.sq.PosSemidef ∧ kroneckerNew A A = .ok M ∧ blockDiagNew [A, A] = .ok B ∧
    skiNew A (Arr2.of 3 2 fun i j => (i + j : ℝ)) (Arr2.of 3 2 fun i j => (i + j : ℝ)).T = .ok S := by
  obtain ⟨A, -, b, r, c, p⟩ := ex_psd
  obtain ⟨M, hM⟩ := C09_composition_kronecker.2.2 A A b b
  obtain ⟨B, hB⟩ := (C09_blockDiag [A, A] (by simp [b])).1.2 (by simp)
  obtain ⟨S, hS⟩ : ∃ M, skiNew A (Arr2.of 3 2 fun i j => (i + j : ℝ)) (Arr2.of 3 2 fun i j => (i + j : ℝ)).T = .ok M := by
    unfold skiNew wrapNew
    simp only [bind, Except.bind, Arr2.of_rows, Arr2.of_cols, of_T]
    exact ⟨_, rfl⟩
  exact ⟨A, M, B, S, b, p, hM, hB, hS⟩

end Verif
