import Verif.Proofs.LLGPExample

/-! The explained variances of the three prediction methods, and their quadratic forms. -/

namespace Verif

open Matrix

/-! ### the three methods -/

/-- the interpolation matrices of queries -/
noncomputable def LLGP.queryWs (m : LLGP) (Xs : List (Arr2 ℝ)) : List (List ℕ × Arr2 ℝ) :=
  m.fk.activeDims.map fun g => (g.1, Arr2.of (Xs.map Arr2.rows).sum (m.gridCols g) (interpOf g.1 (m.axesOf g.1) Xs))

theorem explained_exact {m : LLGP} {P : ℕ} (h : m.OK P) (hm : m.prediction = .exact) {Xs : List (Arr2 ℝ)} (hX : InputsOK m.fk.D P Xs) (sv : Solvers) (e : Env)
    (Ws : List (List ℕ × Arr2 ℝ)) :
    ((m.fk.covMat m.gp.Xs).PosDef → m.explained sv e Xs Ws = .ok (vmk (Xs.map Arr2.rows).sum fun r =>
      m.fk.crossCov m.gp.Xs (ownerOf (Xs.map Arr2.rows) r) (rowPoint Xs r) ⬝ᵥ (m.fk.covMat m.gp.Xs)⁻¹ *ᵥ
        m.fk.crossCov m.gp.Xs (ownerOf (Xs.map Arr2.rows) r) (rowPoint Xs r))) ∧
    (¬ (m.fk.covMat m.gp.Xs).PosDef → m.explained sv e Xs Ws = .error .linAlgError) := by
  obtain ⟨h1, h2⟩ := exactLMC_contents h.ready h.data
  unfold LLGP.explained
  rw [hm]
  refine ⟨fun hp => ?_, fun hp => ?_⟩
  · obtain ⟨l, hl, -⟩ := h1 hp
    show (do let ex ← m.dense; m.varExact ex Xs) = _
    rw [show m.dense = .ok l from hl, ok_bind, varExact_ok h hl hX]
  · show (do let ex ← m.dense; m.varExact ex Xs) = _
    rw [show m.dense = .error .linAlgError from h2 hp]
    rfl

theorem explained_fly {sv : Solvers} (hs : sv.Fit) {m : LLGP} {P : ℕ} (h : m.OK P) (hm : m.prediction = .onTheFly) {k : LLKernel} (hc : m.Current sv k)
    {sol : List ℝ → List ℝ} (hsol : SolvesTo sv k.approx.K m.n 1e-4 sol) {e : Env} {Xs : List (Arr2 ℝ)} (hX : InputsOK m.fk.D P Xs)
    (hp : (e.pool (Xs.map Arr2.rows).sum).Works (Xs.map Arr2.rows).sum) (hn : 0 < (Xs.map Arr2.rows).sum) (Ws : List (List ℕ × Arr2 ℝ)) :
    m.explained sv e Xs Ws = .ok (vmk (Xs.map Arr2.rows).sum fun r => ∑ s : Fin (m.gp.Xs.map Arr2.rows).sum,
      m.fk.crossCov m.gp.Xs (ownerOf (Xs.map Arr2.rows) r) (rowPoint Xs r) s *
        (sol (vmk m.n fun s => m.fk.cov (ownerOf (Xs.map Arr2.rows) r) (ownerOf (m.gp.Xs.map Arr2.rows) s) (rowPoint Xs r) (rowPoint m.gp.Xs s))).getD s 0) := by
  unfold LLGP.explained
  rw [hm]
  exact varOnTheFly_ok hs h hc hsol hX hp hn

theorem explained_fly_none {sv : Solvers} {m : LLGP} {P : ℕ} (h : m.OK P) (hm : m.prediction = .onTheFly) {k : LLKernel} (hc : m.Current sv k) {e : Env}
    {Xs : List (Arr2 ℝ)} (hX : InputsOK m.fk.D P Xs) (hp : (e.pool 0).Works 0) (hn : (Xs.map Arr2.rows).sum = 0) (Ws : List (List ℕ × Arr2 ℝ)) :
    m.explained sv e Xs Ws = .error .valueError := by
  unfold LLGP.explained
  rw [hm]
  show m.varOnTheFly sv e Xs = _
  unfold LLGP.varOnTheFly
  rw [kernelFromIndices_ok h.ready hX h.data.inputs, ok_bind]
  simp only [LLGP.theKernel, hc.kernel, ok_bind]
  have h0 : ∀ f, (Arr2.of (α := ℝ) (Xs.map Arr2.rows).sum (m.gp.Xs.map Arr2.rows).sum f).rows = 0 := fun f => hn
  simp only [h0, List.range_zero]
  rw [starmap_ok (g := fun _ => []) (by exact hp) (by simp), ok_bind, if_pos trivial]

theorem explained_pre {sv : Solvers} (hs : sv.Fit) {m : LLGP} {P : ℕ} (h : m.OK P) (hm : m.prediction = .precompute) {k : LLKernel} (hc : m.Current sv k)
    {sol : List ℝ → List ℝ} (hsol : SolvesTo sv k.approx.K m.n 1e-4 sol) {e : Env} {Xs : List (Arr2 ℝ)} {g : List ℕ × List ℕ} (hg : m.fk.activeDims = [g])
    (hg1 : g.1 = List.range P) (hp : (e.pool (m.gridCols g)).Works (m.gridCols g)) :
    m.explained sv e Xs (m.queryWs Xs) = .ok (vmk (Xs.map Arr2.rows).sum fun r => ∑ j ∈ Finset.range (m.gridCols g), interpOf g.1 (m.axesOf g.1) Xs r j *
      ∑ l ∈ Finset.range (m.gridCols g), m.gridEntry g j l *
        ∑ s ∈ Finset.range m.n, interpOf g.1 (m.axesOf g.1) m.gp.Xs s l * (sol (vmk m.n fun s => m.gridCross g j s)).getD s 0) := by
  unfold LLGP.explained
  rw [hm]
  show (do let nu ← m.nu sv e; varPrecompute (m.queryWs Xs) nu) = _
  rw [nu_ok hs h hc hsol hg hg1 hp, ok_bind]
  unfold LLGP.queryWs varPrecompute
  rw [hg]
  simp only [List.map_cons, List.map_nil]
  unfold csrDot
  rw [if_pos (by rw [List.length_map, List.length_range]; rfl)]
  unfold Arr2.dotv
  refine congrArg Except.ok (vmk_congr fun r hr => Finset.sum_congr rfl fun j hj => ?_)
  rw [Arr2.of_get (by exact hr) (by exact Finset.mem_range.1 hj), range_map_getD _ _ _ (by exact Finset.mem_range.1 hj)]

theorem explained_pre_fails {sv : Solvers} {m : LLGP} {P : ℕ} (h : m.OK P) (hm : m.prediction = .precompute) (e : Env) (Xs : List (Arr2 ℝ))
    (Ws : List (List ℕ × Arr2 ℝ)) :
    (m.fk.activeDims.length ≠ 1 → m.explained sv e Xs Ws = .error .valueError) ∧
    (∀ g, m.fk.activeDims = [g] → g.1 ≠ List.range P → m.explained sv e Xs Ws = .error .keyError) := by
  have : m.explained sv e Xs Ws = (do let nu ← m.nu sv e; varPrecompute Ws nu) := by
    unfold LLGP.explained
    rw [hm]
  rw [this]
  refine ⟨fun hg => ?_, fun g hg hg1 => ?_⟩
  · rw [nu_split h e hg]; rfl
  · rw [nu_key h e hg hg1]; rfl

/-! ### exact solves -/

theorem exactSol {sv : Solvers} {K : MatObj} {n : ℕ} {A : ℕ → ℕ → ℝ} {tol : ℝ} (h : ExactSolves sv K n A tol) :
    ∃ sol, SolvesTo sv K n tol sol ∧ ∀ b : List ℝ, b.length = n → toVec n (sol b) = (fnMatrix n n A)⁻¹ *ᵥ toVec n b := by
  have : ∀ b : List ℝ, ∃ x : List ℝ, b.length = n → (∃ lg, iterativeSolve sv K b false true tol = .ok (.plain x, lg)) ∧ x.length = n ∧
      toVec n x = (fnMatrix n n A)⁻¹ *ᵥ toVec n b := by
    intro b
    by_cases hb : b.length = n
    · obtain ⟨x, lg, h1, h2, h3⟩ := h b hb
      exact ⟨x, fun _ => ⟨⟨lg, h1⟩, h2, h3⟩⟩
    · exact ⟨[], fun h => absurd h hb⟩
  choose sol hsol using this
  exact ⟨sol, fun b hb => ⟨(hsol b hb).2.1, (hsol b hb).1⟩, fun b hb => (hsol b hb).2.2⟩

theorem toVec_vmk (n : ℕ) (f : ℕ → ℝ) : toVec n (vmk n f) = fun i : Fin n => f i := by
  funext i
  exact vmk_getD_lt i.2

/-! ### the quadratic form of the grid variances -/

theorem B_symm' (fk : FK) (q a b : ℕ) : fk.B q a b = fk.B q b a := by
  unfold FK.B
  congr 1
  · exact Finset.sum_congr rfl fun _ _ => mul_comm _ _
  · by_cases e : a = b
    · rw [e]
    · rw [if_neg e, if_neg (Ne.symm e)]

theorem gridDistance_symm (axes : List (List ℝ)) (p q : ℕ) : gridDistance axes p q = gridDistance axes q p := by
  unfold gridDistance euclid
  congr 1
  refine Finset.sum_congr rfl fun k _ => ?_
  ring

theorem gridCov_symm (fk : FK) (axes : List (List ℝ)) (idxs : List ℕ) (a b p q : ℕ) : fk.gridCov axes idxs a b p q = fk.gridCov axes idxs b a q p := by
  unfold FK.gridCov
  refine congrArg List.sum (List.map_congr_left fun k _ => ?_)
  rw [B_symm', gridDistance_symm]

theorem gridEntry_symm (m : LLGP) (g : List ℕ × List ℕ) (i j : ℕ) : m.gridEntry g i j = m.gridEntry g j i := by
  unfold LLGP.gridEntry
  rw [gridCov_symm]
  congr 1
  by_cases e : i / gridSize (m.axesOf g.1) = j / gridSize (m.axesOf g.1) ∧ i % gridSize (m.axesOf g.1) = j % gridSize (m.axesOf g.1)
  · rw [if_pos e, if_pos ⟨e.1.symm, e.2.symm⟩]
  · rw [if_neg e, if_neg fun h => e ⟨h.1.symm, h.2.symm⟩]

theorem gridSize_pos {m : LLGP} {P : ℕ} (h : m.OK P) {g : List ℕ × List ℕ} (hg : g ∈ m.fk.activeDims) : 0 < gridSize (m.axesOf g.1) := by
  obtain ⟨gg, d1, d2, d3, d4⟩ := h.mem_grids hg
  rw [d4]
  unfold gridSize
  refine Nat.pos_of_ne_zero fun e => ?_
  rw [List.prod_eq_zero_iff] at e
  obtain ⟨a, ha, ha'⟩ := List.mem_map.1 e
  have := d3.size a ha
  omega

/-- the column of a grid point is the covariance of that grid point with the observations -/
theorem gridCross_eq {m : LLGP} {P : ℕ} (h : m.OK P) {g : List ℕ × List ℕ} (hg : g ∈ m.fk.activeDims) {j : ℕ} (s : Fin (m.gp.Xs.map Arr2.rows).sum) :
    m.gridCross g j s = m.fk.gridToData (m.axesOf g.1) m.fk.extraOf g m.gp.Xs (j / gridSize (m.axesOf g.1)) (j % gridSize (m.axesOf g.1)) s := by
  have hG := gridSize_pos h hg
  unfold LLGP.gridCross LLGP.gridCols FK.gridToData
  rw [sum_range_mul]
  have hown := owner_lt_D h s.2
  rw [Finset.sum_eq_single_of_mem (ownerOf (m.gp.Xs.map Arr2.rows) s) (Finset.mem_range.2 hown)]
  · refine Finset.sum_congr rfl fun q hq => ?_
    have hq := Finset.mem_range.1 hq
    rw [gridEntry_symm]
    unfold interpOf interpEntry LLGP.gridEntry
    rw [show ((m.axesOf g.1).map List.length).prod = gridSize (m.axesOf g.1) from rfl, idx_div hq, idx_mod hq, if_pos rfl, mul_comm]
  · intro b hb hne
    refine Finset.sum_eq_zero fun q hq => ?_
    have hq := Finset.mem_range.1 hq
    unfold interpOf interpEntry
    rw [show ((m.axesOf g.1).map List.length).prod = gridSize (m.axesOf g.1) from rfl, idx_div hq, if_neg hne, zero_mul]

theorem nu_explained {m : LLGP} {P : ℕ} (h : m.OK P) {g : List ℕ × List ℕ} (hg : g ∈ m.fk.activeDims) {sol : List ℝ → List ℝ}
    (hsol : ∀ b : List ℝ, b.length = m.n → toVec m.n (sol b) = (fnMatrix m.n m.n (m.fk.skiFull m.axesOf m.fk.extraOf m.gp.Xs))⁻¹ *ᵥ toVec m.n b) (j : ℕ) :
    ∑ l ∈ Finset.range (m.gridCols g), m.gridEntry g j l *
        ∑ s ∈ Finset.range m.n, interpOf g.1 (m.axesOf g.1) m.gp.Xs s l * (sol (vmk m.n fun s => m.gridCross g j s)).getD s 0 =
      m.fk.gridExplained m.axesOf m.fk.extraOf g m.gp.Xs (j / gridSize (m.axesOf g.1)) (j % gridSize (m.axesOf g.1)) := by
  have hv := hsol (vmk m.n fun s => m.gridCross g j s) (vmk_length _ _)
  set x := sol (vmk m.n fun s => m.gridCross g j s) with hx
  have hb : toVec m.n (vmk m.n fun s => m.gridCross g j s) =
      m.fk.gridToData (m.axesOf g.1) m.fk.extraOf g m.gp.Xs (j / gridSize (m.axesOf g.1)) (j % gridSize (m.axesOf g.1)) := by
    rw [toVec_vmk]
    funext s
    exact gridCross_eq h hg s
  rw [hb] at hv
  have : ∑ l ∈ Finset.range (m.gridCols g), m.gridEntry g j l * ∑ s ∈ Finset.range m.n, interpOf g.1 (m.axesOf g.1) m.gp.Xs s l * x.getD s 0 =
      ∑ s ∈ Finset.range m.n, m.gridCross g j s * x.getD s 0 := by
    simp only [Finset.mul_sum, LLGP.gridCross, Finset.sum_mul]
    rw [Finset.sum_comm]
    refine Finset.sum_congr rfl fun s _ => Finset.sum_congr rfl fun l _ => ?_
    rw [gridEntry_symm]
    ring
  rw [this, Finset.sum_range]
  unfold FK.gridExplained dotProduct
  refine Finset.sum_congr rfl fun s _ => ?_
  rw [gridCross_eq h hg s]
  congr 1
  exact congrFun hv s

/-- interpolating a function of output and grid point -/
theorem interp_grid {D : ℕ} {ad : List ℕ} {axes : List (List ℝ)} {Xs : List (Arr2 ℝ)} (hD : Xs.length = D) {r : ℕ}
    (hr : r < (Xs.map Arr2.rows).sum) (F : ℕ → ℕ → ℝ) :
    ∑ j ∈ Finset.range (D * gridSize axes), interpOf ad axes Xs r j * F (j / gridSize axes) (j % gridSize axes) =
      ∑ p ∈ Finset.range (gridSize axes), gridWeight axes (coords ad (rowPoint Xs r)) p * F (ownerOf (Xs.map Arr2.rows) r) p := by
  rw [sum_range_mul]
  have hown : ownerOf (Xs.map Arr2.rows) r < D := by
    have := ownerOf_lt _ _ hr
    rwa [List.length_map, hD] at this
  rw [Finset.sum_eq_single_of_mem (ownerOf (Xs.map Arr2.rows) r) (Finset.mem_range.2 hown)]
  · refine Finset.sum_congr rfl fun q hq => ?_
    have hq := Finset.mem_range.1 hq
    unfold interpOf interpEntry
    rw [show (axes.map List.length).prod = gridSize axes from rfl, idx_div hq, idx_mod hq, if_pos rfl]
  · intro b hb hne
    refine Finset.sum_eq_zero fun q hq => ?_
    have hq := Finset.mem_range.1 hq
    unfold interpOf interpEntry
    rw [show (axes.map List.length).prod = gridSize axes from rfl, idx_div hq, if_neg hne, zero_mul]

/-! ### weights at grid points -/

theorem keysWeight_gridpoint {a : List ℝ} {g0 h : ℝ} (hm : 4 ≤ a.length) (hh : 0 < h) (he : Equispaced a g0 h) {k : ℕ} (hk : k < a.length) {j : ℕ} (hj : j < a.length) :
    keysWeight a (a.getD k 0) j = if j = k then 1 else 0 := by
  rw [keysWeight_eq, factor_equispaced hm he, he k hk, show (g0 + k * h - g0) / h = k by field_simp; ring]
  have := interpRow_gridpoint hk fun i => if i = j then (1 : ℝ) else 0
  simp only [mul_ite, mul_one, mul_zero] at this
  rw [Finset.sum_ite_eq' (Finset.range a.length) j, if_pos (Finset.mem_range.2 hj)] at this
  rw [this]
  by_cases e : j = k
  · rw [if_pos e, if_pos e.symm]
  · rw [if_neg e, if_neg (Ne.symm e)]

theorem gridWeight_gridpoint : ∀ (axes : List (List ℝ)), (∀ a ∈ axes, 4 ≤ a.length ∧ ∃ g0 h, 0 < h ∧ Equispaced a g0 h) → ∀ {p : ℕ}, p < gridSize axes →
    ∀ {x : ℕ → ℝ}, (∀ k < axes.length, x k = (gridPoint axes p).getD k 0) → ∀ {q : ℕ}, q < gridSize axes → gridWeight axes x q = if q = p then 1 else 0
  | [], _, p, hp, x, _, q, hq => by
    have h1 : p < 1 := hp
    have h2 : q < 1 := hq
    rw [gridWeight, if_pos (by omega)]
  | a :: axes, ha, p, hp, x, hx, q, hq => by
    obtain ⟨h4, g0, h, hh, he⟩ := ha a (by simp)
    have hS : gridSize (a :: axes) = a.length * gridSize axes := rfl
    rw [hS] at hp hq
    have hpos : 0 < gridSize axes := Nat.pos_of_ne_zero fun e => by rw [e, mul_zero] at hp; omega
    have p1 : p / gridSize axes < a.length := Nat.div_lt_of_lt_mul (by rw [mul_comm]; exact hp)
    have q1 : q / gridSize axes < a.length := Nat.div_lt_of_lt_mul (by rw [mul_comm]; exact hq)
    have p2 := Nat.mod_lt p hpos
    have q2 := Nat.mod_lt q hpos
    rw [gridWeight, show (axes.map List.length).prod = gridSize axes from rfl, hx 0 (by simp)]
    rw [show (gridPoint (a :: axes) p).getD 0 0 = a.getD (p / gridSize axes) 0 from rfl, keysWeight_gridpoint h4 hh he p1 q1,
      gridWeight_gridpoint axes (fun b hb => ha b (by simp [hb])) p2 (fun k hk => by
        rw [hx (k + 1) (by simpa using hk)]
        rfl) q2]
    by_cases e : q = p
    · subst e
      simp
    · rw [if_neg e]
      by_cases e1 : q / gridSize axes = p / gridSize axes
      · rw [if_neg (c := q % gridSize axes = p % gridSize axes), mul_zero]
        intro e2
        apply e
        rw [← Nat.div_add_mod q (gridSize axes), ← Nat.div_add_mod p (gridSize axes), e1, e2]
      · rw [if_neg e1, zero_mul]

/-! ### the conditional variance -/

theorem joint_psd {fk : FK} (hw : fk.WF) (hk : ∀ q < fk.Q, fk.KernelPSD q) (hd : ∀ q < fk.Q, ∀ a < fk.D, 0 ≤ (fk.coregDiags.getD q []).getD a 0) {n : ℕ}
    (o : Fin n → Fin fk.D) (x : Fin n → ℕ → ℝ) : (Matrix.of fun i j => fk.cov (o i) (o j) (x i) (x j)).PosSemidef := by
  have e : (Matrix.of fun i j => fk.cov (o i) (o j) (x i) (x j)) = ∑ q ∈ Finset.range fk.Q, ((fnMatrix fk.D fk.D (fk.B q)).submatrix o o).hadamard
      (Matrix.of fun i j => (fk.kernels.getD q (.identity none)).doc (distOn (fk.kdims q) (x i) (x j))) := by
    ext r s
    rw [Matrix.sum_apply]
    rfl
  rw [e]
  refine Matrix.posSemidef_sum _ fun q hq => ?_
  exact ((B_psd hw (Finset.mem_range.1 hq) (hd q (Finset.mem_range.1 hq))).submatrix o).hadamard (hk q (Finset.mem_range.1 hq) _ _)

theorem schur_ge {n : ℕ} {K : Matrix (Fin n) (Fin n) ℝ} {G : Fin n → Fin n → ℝ} {N k : Fin n → ℝ} {c : ℝ} (hK : IsUnit K.det) (hG : ∀ i j, K i j = G i j + if i = j then N i else 0)
    (hN : ∀ i, 0 ≤ N i) (hJ : ∀ v : Fin n → ℝ, 0 ≤ (∑ i, ∑ j, v i * G i j * v j) - 2 * (∑ i, v i * k i) + c) : k ⬝ᵥ K⁻¹ *ᵥ k ≤ c := by
  set v := K⁻¹ *ᵥ k with hv
  have hKv : K *ᵥ v = k := by rw [hv, Matrix.mulVec_mulVec, Matrix.mul_nonsing_inv _ hK, Matrix.one_mulVec]
  have h1 : ∑ i, ∑ j, v i * G i j * v j = (∑ i, v i * k i) - ∑ i, N i * v i ^ 2 := by
    rw [← Finset.sum_sub_distrib]
    refine Finset.sum_congr rfl fun i _ => ?_
    have e1 : k i = ∑ j, K i j * v j := (congrFun hKv i).symm
    have e2 : ∑ j, K i j * v j = (∑ j, G i j * v j) + N i * v i := by
      have : ∀ j, K i j * v j = G i j * v j + if i = j then N i * v i else 0 := by
        intro j
        rw [hG i j, add_mul]
        by_cases e : i = j
        · rw [if_pos e, if_pos e, e]
        · rw [if_neg e, if_neg e, zero_mul]
      simp only [this]
      rw [Finset.sum_add_distrib, Finset.sum_ite_eq Finset.univ i, if_pos (Finset.mem_univ _)]
    have e3 : ∑ j, v i * G i j * v j = v i * ∑ j, G i j * v j := by
      rw [Finset.mul_sum]
      exact Finset.sum_congr rfl fun j _ => by ring
    rw [e1, e2, e3]
    ring
  have h2 := hJ v
  have h3 : 0 ≤ ∑ i, N i * v i ^ 2 := Finset.sum_nonneg fun i _ => mul_nonneg (hN i) (sq_nonneg _)
  have h4 : k ⬝ᵥ v = ∑ i, v i * k i := Finset.sum_congr rfl fun i _ => mul_comm _ _
  rw [h4]
  rw [h1] at h2
  linarith

theorem cov_symm (fk : FK) (a b : ℕ) (x z : ℕ → ℝ) : fk.cov a b x z = fk.cov b a z x := by
  unfold FK.cov
  refine Finset.sum_congr rfl fun q _ => ?_
  rw [B_symm']
  congr 2
  unfold distOn
  congr 2
  exact List.map_congr_left fun c _ => by ring

/-- conditioning never leaves less than the noise -/
theorem condVar_ge {fk : FK} (hw : fk.WF) {Xs : List (Arr2 ℝ)} (hX : Xs.length = fk.D) (hs : fk.Sound) {d : ℕ} (hd : d < fk.D) (x : ℕ → ℝ) :
    fk.noise.getD d 0 ≤ fk.condVar Xs d x := by
  have hpd := covMat_posDef hw hX hs.kernels hs.kappa hs.noise
  have hlt : ∀ r : Fin (Xs.map Arr2.rows).sum, ownerOf (Xs.map Arr2.rows) r < fk.D := by
    intro r
    have := ownerOf_lt _ _ r.2
    rwa [List.length_map, hX] at this
  have key := schur_ge (K := fk.covMat Xs) (G := fun i j => fk.cov (ownerOf (Xs.map Arr2.rows) i) (ownerOf (Xs.map Arr2.rows) j) (rowPoint Xs i) (rowPoint Xs j))
    (N := fun i => fk.noise.getD (ownerOf (Xs.map Arr2.rows) i) 0) (k := fk.crossCov Xs d x) (c := fk.cov d d x x) ((Matrix.isUnit_iff_isUnit_det _).1 hpd.isUnit) (fun i j => by
      unfold FK.covMat fnMatrix FK.fullCov
      simp only
      congr 1
      by_cases e : i = j
      · rw [if_pos e, if_pos (by rw [e])]
      · rw [if_neg e, if_neg fun h => e (Fin.ext h)]) (fun i => (hs.noise _ (hlt i)).le) (fun v => by
      have hJ := joint_psd hw hs.kernels hs.kappa (n := (Xs.map Arr2.rows).sum + 1) (Fin.snoc (fun i => ⟨ownerOf (Xs.map Arr2.rows) i, hlt i⟩) ⟨d, hd⟩)
        (Fin.snoc (fun i => rowPoint Xs i) x)
      have := hJ.dotProduct_mulVec_nonneg (Fin.snoc (fun i => - v i) 1)
      simp only [dotProduct, Matrix.mulVec, Fin.sum_univ_castSucc, Matrix.of_apply, Fin.snoc_castSucc, Fin.snoc_last, Pi.star_apply, star_trivial] at this
      refine this.trans (le_of_eq ?_)
      have e1 : ∀ i : Fin (Xs.map Arr2.rows).sum, fk.cov (ownerOf (Xs.map Arr2.rows) i) d (rowPoint Xs i) x = fk.crossCov Xs d x i := fun i => cov_symm fk _ _ _ _
      have e2 : ∀ i : Fin (Xs.map Arr2.rows).sum, fk.cov d (ownerOf (Xs.map Arr2.rows) i) x (rowPoint Xs i) = fk.crossCov Xs d x i := fun i => rfl
      simp only [e1, e2, mul_one, one_mul, mul_add, Finset.sum_add_distrib, Finset.mul_sum, mul_neg, neg_mul, neg_neg, Finset.sum_neg_distrib]
      have e3 : ∑ i, 2 * (v i * fk.crossCov Xs d x i) = ∑ i, v i * fk.crossCov Xs d x i + ∑ i, fk.crossCov Xs d x i * v i := by
        rw [← Finset.sum_add_distrib]
        exact Finset.sum_congr rfl fun i _ => by ring
      rw [e3]
      simp only [mul_assoc]
      ring)
  unfold FK.condVar FK.priorVar
  linarith

end Verif
