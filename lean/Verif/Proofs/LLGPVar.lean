import Verif.Proofs.LLGPPredict
import Verif.Props.Likelihood2
import Verif.Props.Stochastic

/-! The variances of `_raw_predict`. -/

namespace Verif

open Matrix

theorem mapExcept_congr' {α β : Type} {f g : α → Except PyErr β} : ∀ {l : List α}, (∀ x ∈ l, f x = g x) → mapExcept f l = mapExcept g l
  | [], _ => rfl
  | a :: l, h => by
    simp only [mapExcept, h a (by simp)]
    rw [mapExcept_congr' fun x hx => h x (by simp [hx])]

/-- `np.diag` of a product with a square result -/
theorem npDiag_dot {A B : Arr2 ℝ} {n : ℕ} (hA : A.rows = n) (hB : B.cols = n) :
    npDiagOf (A.dot B) = vmk n fun i => ∑ k ∈ Finset.range A.cols, A.get i k * B.get k i := by
  subst hA
  unfold npDiagOf Arr2.dot
  have : min (Arr2.of A.rows B.cols fun i j => ∑ k ∈ Finset.range A.cols, A.get i k * B.get k j).rows
    (Arr2.of A.rows B.cols fun i j => ∑ k ∈ Finset.range A.cols, A.get i k * B.get k j).cols = A.rows := by
    show min A.rows B.cols = _
    rw [hB, min_self]
  rw [this]
  exact vmk_congr fun i hi => Arr2.of_get (by exact hi) (by rw [hB]; exact hi)

/-! ### `_native_variance` -/

theorem distOn_self (ad : List ℕ) (x : ℕ → ℝ) : distOn ad x x = 0 := by
  unfold distOn
  have : (ad.map fun c => (x c - x c) ^ 2).sum = 0 := by
    induction ad with
    | nil => rfl
    | cons a l ih => rw [List.map_cons, List.sum_cons, ih, sub_self]; norm_num
  rw [this, Real.sqrt_zero]

theorem cov_self (fk : FK) (a : ℕ) (x : ℕ → ℝ) : fk.cov a a x x = ∑ q ∈ Finset.range fk.Q, fk.B q a a * (fk.kernels.getD q (.identity none)).doc 0 := by
  unfold FK.cov
  simp only [distOn_self]

theorem evalScalars {fk : FK} {P : ℕ} (h : fk.Ready P) (f : Kern → Except PyErr KVal) (hf : ∀ k ∈ fk.kernels, f k = k.fromDist (.py 0)) :
    fk.evalKernels (fk.activeDims.map fun g => (g.1, .py 0)) = mapExcept f fk.kernels := by
  unfold FK.evalKernels FK.assertP
  rw [h.input]
  simp only [if_neg (by have := h.Ppos; omega : ¬ P = 0), ok_bind]
  refine mapExcept_congr' fun k hk => ?_
  obtain ⟨ad, h1, h2⟩ := h.dims k hk
  obtain ⟨g, h3, rfl⟩ := List.mem_map.1 h2
  unfold distsFor
  rw [h1]
  simp only
  have : dictGet (fk.activeDims.map fun g : List ℕ × List ℕ => (g.1, DistArg.py 0)) g.1 = some (.py 0) := by
    have := dictGet_map (fun _ : List ℕ => DistArg.py 0) (fk.activeDims.map Prod.fst) g.1 (List.mem_map_of_mem h3)
    rw [List.map_map] at this
    exact this
  rw [dictIdx_of_get this, ok_bind, hf k hk]

theorem nativeVariance_ok {m : LLGP} {P : ℕ} (h : m.fk.Ready P) (hi : ∀ k ∈ m.fk.kernels, k.noIdentity) (x : ℕ → ℝ) :
    m.nativeVariance = .ok (vmk m.fk.D fun d => m.fk.priorVar d x) := by
  unfold LLGP.nativeVariance
  rw [evalScalars h (fun k => .ok (.arr (.vec [k.doc 0]))) fun k hk => (C27_scalar_partial k (h.valid k hk) (hi k hk) 0).symm,
    mapExcept_ok (g := fun k : Kern => KVal.arr (.vec [k.doc 0])) fun k _ => rfl, ok_bind, mapExcept_map,
    mapExcept_ok (f := fun k : Kern => kvalNumber (.arr (.vec [k.doc 0]))) (g := fun k : Kern => k.doc 0) fun k _ => rfl, ok_bind]
  show Except.ok _ = _
  refine congrArg Except.ok (vmk_congr fun d hd => ?_)
  unfold FK.priorVar
  rw [cov_self]
  congr 1
  refine Finset.sum_congr rfl fun q hq => ?_
  rw [map_getD_lt (by exact Finset.mem_range.1 hq) _ _ (.identity none)]
  congr 1
  unfold FK.B
  rw [if_pos rfl]
  congr 1
  exact Finset.sum_congr rfl fun r _ => sq _

/-- a kernel with an `Identity` in it cannot be evaluated at the number 0 -/
theorem identity_raises : ∀ k : Kern, ¬ k.noIdentity → k.fromDist (.py 0) = .error .attributeError
  | .identity _, _ => rfl
  | .rbf _ _, h => absurd trivial h
  | .matern32 _ _, h => absurd trivial h
  | .stdPeriodic _ _ _, h => absurd trivial h
  | .scaled k s _, h => by
    unfold Kern.fromDist
    rw [identity_raises k h]
    rfl

theorem nativeVariance_identity {m : LLGP} {P : ℕ} (h : m.fk.Ready P) (hi : ¬ ∀ k ∈ m.fk.kernels, k.noIdentity) :
    m.nativeVariance = .error .attributeError := by
  unfold LLGP.nativeVariance
  rw [evalScalars h (fun k => k.fromDist (.py 0)) fun k _ => rfl]
  have : mapExcept (fun k : Kern => k.fromDist (.py 0)) m.fk.kernels = .error .attributeError := by
    push_neg at hi
    cases hr : mapExcept (fun k : Kern => k.fromDist (.py 0)) m.fk.kernels with
    | ok v =>
      obtain ⟨k, hk, hn⟩ := hi
      obtain ⟨y, hy⟩ := mapExcept_exists_iff.1 ⟨v, hr⟩ k hk
      rw [identity_raises k hn] at hy
      cases hy
    | error e =>
      obtain ⟨k, hk, he⟩ := mapExcept_error hr
      by_cases hn : k.noIdentity
      · rw [C27_scalar_partial k (h.valid k hk) hn 0] at he
        cases he
      · rw [identity_raises k hn] at he
        cases he
        rfl
  rw [this]
  rfl

/-! ### `_var_predict_exact` -/

theorem choSolve2_cols {n : ℕ} {L : Arr2 ℝ} {U M : Matrix (Fin n) (Fin n) ℝ} (hL : L.rows = n) (h1 : ∀ i j, j < i → U i j = 0)
    (h : ∀ i j : Fin n, i ≤ j → L.get i j = U i j) (hM : Uᵀ * U = M) (B : Arr2 ℝ) (hB : B.rows = n) :
    choSolve2 L B = .ok (Arr2.of n B.cols fun i j => if hi : i < n then (M⁻¹ *ᵥ toVec n (B.col j)) ⟨i, hi⟩ else 0) := by
  unfold choSolve2
  rw [mapExcept_ok (g := fun j => vmk n fun i => if hi : i < n then (M⁻¹ *ᵥ toVec n (B.col j)) ⟨i, hi⟩ else 0)
    fun j _ => choSolve_ok hL h1 h hM _ (by unfold Arr2.col; rw [vmk_length, hB])]
  simp only [ok_bind, hL]
  show Except.ok _ = _
  refine congrArg Except.ok (Arr2.of_congr fun i hi j hj => ?_)
  rw [range_map_getD _ _ _ hj, vmk_getD_lt hi]

theorem varExact_ok {m : LLGP} {P : ℕ} (h : m.OK P) {l : ExactLMC} (hl : m.dense = .ok l) {Xs : List (Arr2 ℝ)} (hX : InputsOK m.fk.D P Xs) :
    m.varExact l Xs = .ok (vmk (Xs.map Arr2.rows).sum fun r =>
      m.fk.crossCov m.gp.Xs (ownerOf (Xs.map Arr2.rows) r) (rowPoint Xs r) ⬝ᵥ (m.fk.covMat m.gp.Xs)⁻¹ *ᵥ
        m.fk.crossCov m.gp.Xs (ownerOf (Xs.map Arr2.rows) r) (rowPoint Xs r)) := by
  have hc := contents_of_ok h.ready h.data hl
  obtain ⟨U, u1, u2, u3, u4⟩ := hc.factor
  unfold LLGP.varExact
  rw [kernelFromIndices_ok h.ready hX h.data.inputs, ok_bind, choSolve2_cols hc.rows u1 u4 u3 _ rfl, ok_bind]
  show Except.ok _ = _
  refine congrArg Except.ok ?_
  rw [npDiag_dot (n := (Xs.map Arr2.rows).sum) rfl rfl]
  refine vmk_congr fun r hr => ?_
  simp only [Arr2.of_cols]
  rw [Finset.sum_range]
  unfold dotProduct
  refine Finset.sum_congr rfl fun s _ => ?_
  rw [Arr2.of_get hr s.2, Arr2.of_get s.2 (by exact hr), dif_pos s.2]
  congr 1
  congr 2
  funext t
  unfold toVec
  rw [Arr2.col_getD (by exact t.2)]
  unfold Arr2.T
  rw [Arr2.of_get (by exact t.2) (by exact hr), Arr2.of_get (by exact hr) (by exact t.2)]
  rfl

/-! ### `_var_predict_on_the_fly` -/

/-- `sol b` is the vector the solver returns for `b` -/
def SolvesTo (sv : Solvers) (K : MatObj) (n : ℕ) (tol : ℝ) (sol : List ℝ → List ℝ) : Prop :=
  ∀ b : List ℝ, b.length = n → (sol b).length = n ∧ ∃ lg, iterativeSolve sv K b false true tol = .ok (.plain (sol b), lg)

theorem exists_solvesTo {sv : Solvers} (hs : sv.Fit) {K : MatObj} {n : ℕ} {A : ℕ → ℕ → ℝ} (hK : SquareOp K n A) (tol : ℝ) : ∃ sol, SolvesTo sv K n tol sol := by
  have : ∀ b : List ℝ, ∃ x : List ℝ, b.length = n → x.length = n ∧ ∃ lg, iterativeSolve sv K b false true tol = .ok (.plain x, lg) := by
    intro b
    by_cases hb : b.length = n
    · obtain ⟨x, c, e, lg, -, h2, -⟩ := C51_solve sv hs K n A hK b hb true tol
      exact ⟨x, fun _ => ⟨solve_length hs hK hb h2, lg, h2⟩⟩
    · exact ⟨[], fun h => absurd h hb⟩
  choose sol hsol using this
  exact ⟨sol, hsol⟩

theorem varOnTheFly_ok {sv : Solvers} (hs : sv.Fit) {m : LLGP} {P : ℕ} (h : m.OK P) {k : LLKernel} (hc : m.Current sv k) {sol : List ℝ → List ℝ}
    (hsol : SolvesTo sv k.approx.K m.n 1e-4 sol) {e : Env} {Xs : List (Arr2 ℝ)} (hX : InputsOK m.fk.D P Xs)
    (hp : (e.pool (Xs.map Arr2.rows).sum).Works (Xs.map Arr2.rows).sum) (hn : 0 < (Xs.map Arr2.rows).sum) :
    m.varOnTheFly sv e Xs = .ok (vmk (Xs.map Arr2.rows).sum fun r => ∑ s : Fin (m.gp.Xs.map Arr2.rows).sum,
      m.fk.crossCov m.gp.Xs (ownerOf (Xs.map Arr2.rows) r) (rowPoint Xs r) s *
        (sol (vmk m.n fun s => m.fk.cov (ownerOf (Xs.map Arr2.rows) r) (ownerOf (m.gp.Xs.map Arr2.rows) s) (rowPoint Xs r) (rowPoint m.gp.Xs s))).getD s 0) := by
  unfold LLGP.varOnTheFly
  rw [kernelFromIndices_ok h.ready hX h.data.inputs, ok_bind]
  simp only [LLGP.theKernel, hc.kernel, ok_bind]
  have hrow : ∀ r < (Xs.map Arr2.rows).sum, (Arr2.of (Xs.map Arr2.rows).sum (m.gp.Xs.map Arr2.rows).sum fun r s =>
      m.fk.cov (ownerOf (Xs.map Arr2.rows) r) (ownerOf (m.gp.Xs.map Arr2.rows) s) (pointOf Xs (ownerOf (Xs.map Arr2.rows) r) (innerIdx (Xs.map Arr2.rows) r))
        (pointOf m.gp.Xs (ownerOf (m.gp.Xs.map Arr2.rows) s) (innerIdx (m.gp.Xs.map Arr2.rows) s))).row r =
      vmk m.n fun s => m.fk.cov (ownerOf (Xs.map Arr2.rows) r) (ownerOf (m.gp.Xs.map Arr2.rows) s) (rowPoint Xs r) (rowPoint m.gp.Xs s) := by
    intro r hr
    unfold Arr2.row
    refine vmk_congr fun s hs => ?_
    rw [Arr2.of_get hr (by exact hs)]
    rfl
  rw [starmap_ok (g := fun r => sol (vmk m.n fun s => m.fk.cov (ownerOf (Xs.map Arr2.rows) r) (ownerOf (m.gp.Xs.map Arr2.rows) s) (rowPoint Xs r) (rowPoint m.gp.Xs s)))
    (by rw [List.length_range]; exact hp) (fun r hr => by
      rw [hrow r (List.mem_range.1 hr)]
      obtain ⟨-, lg, h2⟩ := hsol (vmk m.n fun s => m.fk.cov (ownerOf (Xs.map Arr2.rows) r) (ownerOf (m.gp.Xs.map Arr2.rows) s) (rowPoint Xs r) (rowPoint m.gp.Xs s)) (vmk_length _ _)
      rw [h2]
      rfl), ok_bind, if_neg (by exact hn.ne')]
  show Except.ok _ = _
  refine congrArg Except.ok ?_
  rw [npDiag_dot (n := (Xs.map Arr2.rows).sum) rfl rfl]
  refine vmk_congr fun r hr => ?_
  simp only [Arr2.of_cols]
  show ∑ s ∈ Finset.range m.n, _ = _
  rw [Finset.sum_range]
  refine Finset.sum_congr rfl fun s _ => ?_
  rw [Arr2.of_get hr (by exact s.2), Arr2.of_get (by exact s.2) (by exact hr), range_map_getD _ _ _ (by exact hr)]
  rfl

/-! ### `_precomputed_nu` -/

theorem repr_comp2 {A B : MatObj} {n p c : ℕ} {a b : ℕ → ℕ → ℝ} (hA : Represents A a) (hA1 : A.rows = n) (hA2 : A.cols = p) (hB : Represents B b)
    (hB1 : B.rows = p) (hB2 : B.cols = c) :
    ∃ M, compositionNew [A, B] = .ok M ∧ M.rows = n ∧ M.cols = c ∧ ∀ x : List ℝ, x.length = c → M.matvec x = vmk n fun i =>
      ∑ j ∈ Finset.range p, a i j * ∑ l ∈ Finset.range c, b j l * x.getD l 0 := by
  subst hA1 hA2 hB2
  unfold compositionNew
  simp only [List.head?_cons, List.getLast?_cons_cons, List.getLast?_singleton]
  rw [matrixInit_eq hA.rpos hB.cpos]
  refine ⟨_, rfl, rfl, rfl, fun x hx => ?_⟩
  show A.matvec (B.matvec x) = _
  rw [hB.matvec x hx, hA.matvec _ (by rw [vmk_length, hB1])]
  refine vmk_congr fun i _ => Finset.sum_congr rfl fun j hj => ?_
  rw [vmk_getD_lt (by rw [hB1]; exact Finset.mem_range.1 hj)]

theorem wrap_dense {n c : ℕ} (hn : 0 < n) (hc : 0 < c) (f : ℕ → ℕ → ℝ) :
    ∃ M, wrapNew (Arr2.of n c f).rows (Arr2.of n c f).cols (Arr2.of n c f).dotv = .ok M ∧ Represents M f ∧ M.rows = n ∧ M.cols = c := by
  obtain ⟨M, hM⟩ := (C09_wrap n c (Arr2.of n c f).dotv).1.2 ⟨hn, hc⟩
  obtain ⟨-, -, h1, h2, -⟩ := wrapNew_ok hM
  refine ⟨M, hM, wrap_represents hM fun x hx => ?_, h1, h2⟩
  unfold Arr2.dotv
  refine vmk_congr fun i hi => Finset.sum_congr rfl fun j hj => ?_
  rw [Arr2.of_get (by exact hi) (by exact Finset.mem_range.1 hj)]

/-- the SKI covariances of grid point `j` (over all outputs) of a group with the training observations -/
noncomputable def LLGP.gridCross (m : LLGP) (g : List ℕ × List ℕ) (j s : ℕ) : ℝ :=
  ∑ p ∈ Finset.range (m.gridCols g), interpOf g.1 (m.axesOf g.1) m.gp.Xs s p * m.gridEntry g p j

theorem nu_ok {sv : Solvers} (hs : sv.Fit) {m : LLGP} {P : ℕ} (h : m.OK P) {k : LLKernel} (hc : m.Current sv k) {sol : List ℝ → List ℝ}
    (hsol : SolvesTo sv k.approx.K m.n 1e-4 sol) {e : Env} {g : List ℕ × List ℕ} (hg : m.fk.activeDims = [g]) (hg1 : g.1 = List.range P)
    (hp : (e.pool (m.gridCols g)).Works (m.gridCols g)) :
    m.nu sv e = .ok ((List.range (m.gridCols g)).map fun j => ∑ l ∈ Finset.range (m.gridCols g), m.gridEntry g j l *
      ∑ s ∈ Finset.range m.n, interpOf g.1 (m.axesOf g.1) m.gp.Xs s l * (sol (vmk m.n fun s => m.gridCross g j s)).getD s 0) := by
  obtain ⟨hsq, hal, hkeys, hgr⟩ := current_facts hs h hc
  have hmem : g ∈ m.fk.activeDims := by rw [hg]; simp
  obtain ⟨G, g1, g2⟩ := hgr g hmem
  obtain ⟨gg, d1, d2, d3, d4⟩ := h.mem_grids hmem
  have hcols : 0 < m.gridCols g := g2.pos.1
  have hn : 0 < m.n := by have := hsq.rep.rpos; rw [hsq.rows] at this; exact this
  have hlen : m.interp.length = 1 := by
    have := congrArg List.length h.keys
    rw [List.length_map, List.length_map, hg] at this
    unfold LLGP.interp
    rw [List.length_map, this]
    rfl
  have hi : dictIdx m.interp (List.range m.gp.inputDim) = .ok (gg.W, gg.WT) := by
    refine dictIdx_of_get ?_
    unfold LLGP.interp
    rw [h.inputDim, ← hg1, dictGet_mapv (fun g : GroupGrid => (g.W, g.WT)), d1]
    rfl
  have hW : gg.W = Arr2.of m.n (m.gridCols g) (interpOf g.1 (m.axesOf g.1) m.gp.Xs) := by
    rw [d3.W]
    unfold LLGP.gridCols
    rw [d4, ← h.data.inputs.len]
    rfl
  have hWT : gg.WT = Arr2.of (m.gridCols g) m.n fun l s => interpOf g.1 (m.axesOf g.1) m.gp.Xs s l := by
    rw [d3.WT, hW]
    exact of_T _
  have hfirst : firstGridK k = .ok G.gridK := by
    rw [hg] at hkeys
    unfold firstGridK
    cases hk : k.grids with
    | nil => rw [hk] at hkeys; cases hkeys
    | cons a l =>
      rw [hk] at hkeys g1
      simp only [List.map_cons, List.map_nil, List.cons.injEq] at hkeys
      unfold dictGet at g1
      simp only [hkeys.1, if_true, Option.some.injEq] at g1
      simp only [g1]
  obtain ⟨Wm, w1, w2, w3, w4⟩ := wrap_dense hn hcols (interpOf g.1 (m.axesOf g.1) m.gp.Xs)
  obtain ⟨Tm, t1, t2, t3, t4⟩ := wrap_dense hcols hn fun l s => interpOf g.1 (m.axesOf g.1) m.gp.Xs s l
  obtain ⟨XU, x1, x2, x3, x4⟩ := repr_comp2 w2 w3 w4 g2.represents g2.rows g2.cols
  obtain ⟨UX, u1, u2, u3, u4⟩ := repr_comp2 g2.represents g2.rows g2.cols t2 t3 t4
  unfold LLGP.nu
  rw [if_neg (by rw [hlen]; simp), hi]
  simp only [ok_bind, LLGP.theKernel, hc.kernel, hfirst]
  rw [hW, hWT, w1]
  simp only [ok_bind, x1, t1, u1]
  rw [x3]
  refine starmap_ok (by rw [List.length_range]; exact hp) fun j hj => ?_
  have hj := List.mem_range.1 hj
  unfold varSolve matvecOf
  simp only
  rw [x3, vmk_length, if_pos rfl, ok_bind, x4 _ (vmk_length _ _)]
  have hcol : (vmk m.n fun i => ∑ p ∈ Finset.range (m.gridCols g), interpOf g.1 (m.axesOf g.1) m.gp.Xs i p *
      ∑ l ∈ Finset.range (m.gridCols g), m.gridEntry g p l * (vmk (m.gridCols g) fun l => if l = j then (1 : ℝ) else 0).getD l 0) = vmk m.n fun s => m.gridCross g j s := by
    refine vmk_congr fun s _ => Finset.sum_congr rfl fun p _ => ?_
    congr 1
    rw [Finset.sum_eq_single_of_mem j (Finset.mem_range.2 hj) fun l hl hne => by
      rw [vmk_getD_lt (Finset.mem_range.1 hl), if_neg hne, mul_zero], vmk_getD_lt hj, if_pos rfl, mul_one]
  rw [hcol]
  obtain ⟨s1, lg, s2⟩ := hsol (vmk m.n fun s => m.gridCross g j s) (vmk_length _ _)
  rw [s2, ok_bind]
  rw [show plainOf (.plain (sol (vmk m.n fun s => m.gridCross g j s))) = .ok (sol (vmk m.n fun s => m.gridCross g j s)) from rfl, ok_bind, u3, s1, if_pos rfl, ok_bind, u4 _ s1]
  have : (vmk (m.gridCols g) fun i => ∑ l ∈ Finset.range (m.gridCols g), m.gridEntry g i l *
      ∑ s ∈ Finset.range m.n, interpOf g.1 (m.axesOf g.1) m.gp.Xs s l * (sol (vmk m.n fun s => m.gridCross g j s)).getD s 0)[j]? =
      some (∑ l ∈ Finset.range (m.gridCols g), m.gridEntry g j l *
      ∑ s ∈ Finset.range m.n, interpOf g.1 (m.axesOf g.1) m.gp.Xs s l * (sol (vmk m.n fun s => m.gridCross g j s)).getD s 0) := by
    unfold vmk
    rw [List.getElem?_map, List.getElem?_range hj]
    rfl
  rw [this]

theorem nu_split {sv : Solvers} {m : LLGP} {P : ℕ} (h : m.OK P) (e : Env) (hg : m.fk.activeDims.length ≠ 1) : m.nu sv e = .error .valueError := by
  unfold LLGP.nu
  rw [if_pos ?_]
  have := congrArg List.length h.keys
  rw [List.length_map, List.length_map] at this
  unfold LLGP.interp
  rw [List.length_map, this]
  exact hg

theorem nu_key {sv : Solvers} {m : LLGP} {P : ℕ} (h : m.OK P) (e : Env) {g : List ℕ × List ℕ} (hg : m.fk.activeDims = [g]) (hg1 : g.1 ≠ List.range P) :
    m.nu sv e = .error .keyError := by
  have hk := h.keys
  rw [hg] at hk
  unfold LLGP.nu LLGP.interp
  cases hgr : m.grids with
  | nil => rw [hgr] at hk; cases hk
  | cons a l =>
    rw [hgr] at hk
    simp only [List.map_cons, List.map_nil, List.cons.injEq, List.map_eq_nil_iff] at hk
    obtain ⟨h1, rfl⟩ := hk
    simp only [List.map_cons, List.map_nil, List.length_singleton, ne_eq, not_true_eq_false, if_false]
    rw [h.inputDim]
    have : dictGet [(a.1, (a.2.W, a.2.WT))] (List.range P) = none := by
      unfold dictGet
      simp [h1, hg1, dictGet]
    unfold dictIdx
    rw [this]
    rfl

end Verif
