import Verif.Spec.Documented
import Verif.Props.VarianceBounds
import Verif.Props.Reordered
import Verif.Props.SkiAccuracy

/-! C104: which covariance `K`, `log_det_K`, `normal_quadratic` and `log_likelihood` answer for. -/

namespace Verif

open Matrix

/-- what a program is told, in terms of the model -/
theorem tells_of {sv : Solvers} (hs : sv.Fit) {ops : List Op} {i : ℕ} {a : LLGPArgs} {m : LLGP} (h : Held sv ops i a m) (q : Query) {e : Env} (he : e.Works) {x : Answer}
    (hx : m.answer sv e q = .ok x) : Tells sv ops i q e x := by
  obtain ⟨k, -, -, -, -, -, f6, -⟩ := h.facts hs
  unfold Tells
  rw [(C48_answers sv ops (validFrom_works ops [] h.valid) i m h.model (by rw [f6.kernel]; simp) q e he).1, hx]

/-- a program is told one thing -/
theorem tells_unique {sv : Solvers} {ops : List Op} {i : ℕ} {q : Query} {e : Env} {x y : Answer} (hx : Tells sv ops i q e x) (hy : Tells sv ops i q e y) : x = y := by
  unfold Tells at hx hy
  rw [hx] at hy
  have := List.append_cancel_left hy
  simpa using this

/-- C104, what the answers are. With exact linear solves, in every program: `K()` is the exact covariance, not `K_SKI`; `log_det_K()` is the log determinant of the exact
covariance; `normal_quadratic()` is, as documented, `yᵀ K_SKI⁻¹ y`; and `log_likelihood()` differs from the log density of the observations under `K_SKI` by half the
difference of the log determinants, and from the one under the exact covariance by half the difference of the quadratic forms. The first two hold for any solver. -/
theorem C104_answers (sv : Solvers) (hs : sv.Fit) (ops : List Op) (i : ℕ) (a : LLGPArgs) (m : LLGP) (h : Held sv ops i a m) (e : Env) (he : e.Works) :
    Tells sv ops i .covariance e (.matrix m.kExact) ∧
    Tells sv ops i .logDet e (.extended (some (Real.log (m.fk.covMat m.gp.Xs).det))) ∧
    (sv.Exact → (∀ ad ∈ m.fk.activeDims.map Prod.fst, ad.Nodup) →
      Tells sv ops i .normalQuadratic e (.number (toVec m.n m.y ⬝ᵥ (m.fk.skiMat m.axesOf m.fk.extraOf m.gp.Xs)⁻¹.mulVec (toVec m.n m.y))) ∧
      ∃ l, Tells sv ops i .logLikelihood e (.extended (some l)) ∧
        l - m.densityWith (m.fk.skiFull m.axesOf m.fk.extraOf m.gp.Xs) =
          (Real.log (m.fk.skiMat m.axesOf m.fk.extraOf m.gp.Xs).det - Real.log (m.fk.covMat m.gp.Xs).det) / 2 ∧
        l - m.densityWith (m.fk.fullCov m.gp.Xs) =
          (toVec m.n m.y ⬝ᵥ (m.fk.covMat m.gp.Xs)⁻¹.mulVec (toVec m.n m.y) -
            toVec m.n m.y ⬝ᵥ (m.fk.skiMat m.axesOf m.fk.extraOf m.gp.Xs)⁻¹.mulVec (toVec m.n m.y)) / 2) := by
  obtain ⟨k, f1, f2, f3, f4, f5, f6, f7⟩ := h.facts hs
  have hpd := covMat_posDef f5.ready.wf f5.data.inputs.len f2.kernels f2.kappa f2.noise
  obtain ⟨l, hl, cl⟩ := (exactLMC_contents f5.ready f5.data).1 hpd
  have hl' : m.dense = .ok l := hl
  have hld : logDetOf l = some (Real.log (m.fk.covMat m.gp.Xs).det) := logDet_ok f5 hl
  refine ⟨tells_of hs h _ he ?_, tells_of hs h _ he ?_, fun hx hn => ?_⟩
  · show m.dense.map _ = _
    rw [hl']
    show Except.ok (Answer.matrix l.K) = _
    rw [cl.K]
    rfl
  · show m.dense.map _ = _
    rw [hl']
    show Except.ok (Answer.extended (logDetOf l)) = _
    rw [hld]
  · obtain ⟨q1, q2⟩ := C40_log_likelihood sv hs m _ f5 k f6 l hl
    have hα := alpha_exact f5 f6 (exact_of_current hs hx f5 f6 f2 hn m.tol)
    rw [hα] at q1 q2
    refine ⟨tells_of hs h _ he ?_, -(1 / 2) * (Real.log (m.fk.covMat m.gp.Xs).det + toVec m.n m.y ⬝ᵥ (m.fk.skiMat m.axesOf m.fk.extraOf m.gp.Xs)⁻¹.mulVec (toVec m.n m.y) +
      m.n * Real.log (2 * Real.pi)), tells_of hs h _ he ?_, ?_, ?_⟩
    · show m.normalQuadratic.map _ = _
      rw [q1]
      rfl
    · show (do let l ← m.dense; m.logLikelihoodOf l).map _ = _
      rw [hl', ok_bind, q2]
      rfl
    · unfold LLGP.densityWith gaussLogDensity FK.skiMat FK.covMat LLGP.n
      ring
    · unfold LLGP.densityWith gaussLogDensity FK.skiMat FK.covMat LLGP.n
      ring

/-! ### where the documentation is right -/

theorem fineGrids_of {m : LLGP} {P : ℕ} (h : m.OK P) : ∃ s, m.fk.FineGrids s m.axesOf := by
  have key : ∀ l : List (List ℝ), (∀ a ∈ l, 4 ≤ a.length ∧ ∃ g0 h, 0 < h ∧ Equispaced a g0 h) → ∃ s, ∀ a ∈ l, FineAxis s a := by
    intro l
    induction l with
    | nil => exact fun _ => ⟨0, by simp⟩
    | cons a l ih =>
      intro hl
      obtain ⟨s, hs⟩ := ih fun b hb => hl b (List.mem_cons_of_mem _ hb)
      obtain ⟨h4, g0, d, hd, he⟩ := hl a (List.mem_cons_self ..)
      refine ⟨max s d, fun b hb => ?_⟩
      rcases List.mem_cons.1 hb with rfl | hb
      · exact ⟨h4, g0, d, hd, le_max_right _ _, he⟩
      · obtain ⟨x1, x2, x3, x4, x5, x6⟩ := hs b hb
        exact ⟨x1, x2, x3, x4, x5.trans (le_max_left _ _), x6⟩
  obtain ⟨s, hs⟩ := key (m.fk.activeDims.flatMap fun g => m.axesOf g.1) fun a ha => by
    obtain ⟨g, hg, ha⟩ := List.mem_flatMap.1 ha
    exact (C66_grids m P h g hg).2 a ha
  exact ⟨s, fun g hg => ⟨(C66_grids m P h g hg).1, fun a ha => hs a (List.mem_flatMap.2 ⟨g, hg, ha⟩)⟩⟩

/-- with all observations at grid points the interpolated covariance is the exact one -/
theorem skiFull_on_grid {m : LLGP} {P : ℕ} (h : m.OK P) (hc : ∀ g ∈ m.fk.activeDims, ¬ Spoiled m.fk g) (hg : ∀ r < m.n, m.fk.OnGrid m.axesOf (rowPoint m.gp.Xs r)) (r s : ℕ)
    (hr : r < m.n) (hs : s < m.n) : m.fk.skiFull m.axesOf m.fk.extraOf m.gp.Xs r s = m.fk.fullCov m.gp.Xs r s := by
  obtain ⟨w, hw⟩ := fineGrids_of h
  rw [C66_documented m.fk hc]
  unfold FK.skiFull FK.fullCov
  simp only
  rw [C71_on_grid m.fk P h.ready h.groups w m.axesOf hw _ _ (hg r hr) (hg s hs)]
  rfl

theorem fnMatrix_congr {n : ℕ} {f g : ℕ → ℕ → ℝ} (h : ∀ r < n, ∀ s < n, f r s = g r s) : fnMatrix n n f = fnMatrix n n g := by
  ext r s
  exact h r r.2 s s.2

theorem rowPoint_padded {P : ℕ} {Qs : List (NDArr ℝ)} {r : ℕ} (hr : r < (queryLens Qs).sum) :
    rowPoint (padded P Qs) r = queryPoint P Qs (ownerOf (queryLens Qs) r) (innerIdx (queryLens Qs) r) := by
  unfold rowPoint
  rw [padded_lens, pointOf_padded]
  have := ownerOf_lt _ _ hr
  rwa [queryLens, List.length_map] at this

/-- C104, the part that holds: the four answers are as documented for `K_SKI` if every observed point is a point of the grids, and no group of kernels is of the kind
described in C33. -/
theorem C104_on_grid_partial (sv : Solvers) (hs : sv.Fit) (hx : sv.Exact) (ops : List Op) (i : ℕ) (a : LLGPArgs) (m : LLGP) (h : Held sv ops i a m)
    (hn : ∀ ad ∈ m.fk.activeDims.map Prod.fst, ad.Nodup) (hc : ∀ g ∈ m.fk.activeDims, ¬ Spoiled m.fk g)
    (hg : ∀ d < m.gp.outputDim, ∀ j < (queryLens a.Xs).getD d 0, m.fk.OnGrid m.axesOf (queryPoint m.gp.inputDim a.Xs d j)) (e : Env) (he : e.Works) :
    AnswersFor sv ops i m e (m.fk.skiFull m.axesOf m.fk.extraOf m.gp.Xs) := by
  obtain ⟨k, f1, f2, f3, f4, f5, f6, f7⟩ := h.facts hs
  obtain ⟨fk, m0, g1, g2, g3, -⟩ := f1
  have hX : m.gp.Xs = padded m.gp.inputDim a.Xs := by
    rw [g3] at g1 ⊢
    exact (documented_gp g1 g2).1
  have hlen : m.n = (queryLens a.Xs).sum := by
    unfold LLGP.n
    rw [hX, padded_lens]
  have hD : a.Xs.length = m.gp.outputDim := by
    have := f5.data.inputs.len
    rw [hX, padded, List.length_map] at this
    rw [this, f3]
  have hon : ∀ r < m.n, m.fk.OnGrid m.axesOf (rowPoint m.gp.Xs r) := fun r hr => by
    rw [hlen] at hr
    rw [hX, rowPoint_padded hr]
    have ho := ownerOf_lt _ _ hr
    refine hg _ ?_ _ (offset_owner hr).2
    rw [← hD]
    rwa [queryLens, List.length_map] at ho
  have hK := fun r hr s hs => skiFull_on_grid f5 hc hon r s hr hs
  have hM : m.fk.skiMat m.axesOf m.fk.extraOf m.gp.Xs = m.fk.covMat m.gp.Xs := fnMatrix_congr hK
  obtain ⟨a1, a2, a3⟩ := C104_answers sv hs ops i a m h e he
  obtain ⟨a4, l, a5, a6, -⟩ := a3 hx hn
  refine ⟨?_, ?_, a4, ?_⟩
  · have : Arr2.of m.n m.n (m.fk.skiFull m.axesOf m.fk.extraOf m.gp.Xs) = m.kExact := Arr2.of_congr hK
    rw [this]
    exact a1
  · have : fnMatrix m.n m.n (m.fk.skiFull m.axesOf m.fk.extraOf m.gp.Xs) = m.fk.covMat m.gp.Xs := hM
    rw [this]
    exact a2
  · rw [hM, sub_self, zero_div, sub_eq_zero] at a6
    rw [← a6]
    exact a5

/-- the hypotheses of `C104_on_grid_partial`: a program that makes a model with observations at the grid points 3 and 7 -/
example (mode : PredMode) : ∃ (a : LLGPArgs) (m : LLGP), Held exactSolvers [.new a quiet] 0 a m ∧ m.n = 2 ∧
    AnswersFor exactSolvers [.new a quiet] 0 m quiet (m.fk.skiFull m.axesOf m.fk.extraOf m.gp.Xs) := by
  obtain ⟨fk, h, m, hm, c1, c2, c3, c4, c5, c6, c7, c8, c9, c10, c11⟩ := small_model mode (x1 := 3) (x2 := 7) (by norm_num) (by norm_num) (by norm_num)
  obtain ⟨k, f1, -, f3, -, f5, -, -⟩ := hm.facts exactSolvers_fit
  refine ⟨_, m, hm, by unfold LLGP.n; rw [c10]; rfl, C104_on_grid_partial exactSolvers exactSolvers_fit (fun K n A tol hK _ => exactSolvers_exact hK tol) _ 0 _ m hm (by rw [c7]; simp) ?_ ?_ quiet
    quiet_calm.1⟩
  · rw [c7]
    intro g hg
    rw [List.mem_singleton] at hg
    rw [hg]
    exact (small_facts (c11 ▸ f5) c2 c4 c5 c6 c7 c8 c9 c10).plain
  · rw [f3, c3]
    intro d hd j hj g hg t ht
    obtain rfl : d = 0 := by omega
    rw [c7, List.mem_singleton] at hg
    subst hg
    obtain rfl : t = 0 := by simpa using ht
    have hj : j < 2 := hj
    rw [c9, c11]
    interval_cases j
    · exact ⟨3, by simp [vmk_length], by simp [queryPoint, smallArgs, vmk, List.range_succ]⟩
    · exact ⟨7, by simp [vmk_length], by simp [queryPoint, smallArgs, vmk, List.range_succ]⟩

/-! ### where it is wrong -/

theorem det_two {n : ℕ} (hn : n = 2) (f : ℕ → ℕ → ℝ) : (fnMatrix n n f).det = f 0 0 * f 1 1 - f 0 1 * f 1 0 := by
  subst hn
  rw [Matrix.det_fin_two]
  rfl

theorem quad_two {n : ℕ} (hn : n = 2) (f : ℕ → ℕ → ℝ) (y : List ℝ) :
    toVec n y ⬝ᵥ (fnMatrix n n f)⁻¹.mulVec (toVec n y) =
      (f 1 1 * y.getD 0 0 ^ 2 - (f 0 1 + f 1 0) * (y.getD 0 0 * y.getD 1 0) + f 0 0 * y.getD 1 0 ^ 2) / (f 0 0 * f 1 1 - f 0 1 * f 1 0) := by
  subst hn
  rw [Matrix.inv_def, Matrix.adjugate_fin_two, Matrix.det_fin_two, Ring.inverse_eq_inv']
  simp only [fnMatrix, toVec, dotProduct, Matrix.mulVec, Matrix.smul_apply, Fin.sum_univ_two, Matrix.of_apply, Matrix.cons_val', Matrix.cons_val_zero, Matrix.cons_val_one,
    Matrix.cons_val_fin_one, Fin.val_zero, Fin.val_one, smul_eq_mul]
  rw [div_eq_inv_mul]
  ring

/-- the interpolated covariance of the two observations of a small model -/
theorem small_ski {m : LLGP} {x1 x2 : ℝ} (hn : m.fk.noise = [0.1]) (hk : m.fk.kernels = [.rbf 100 (some [0])]) (hB : m.fk.B 0 0 0 = 1)
    (hg : m.fk.activeDims = [([0], [0])]) (he : m.fk.extraOf ([0], [0]) = 0) (ha : m.axesOf [0] = [vmk 10 fun i => (i : ℝ)]) (hX : m.gp.Xs = [⟨2, 1, [x1, x2]⟩]) (r s : ℕ)
    (hr : r < 2) (hs : s < 2) : m.fk.skiFull m.axesOf m.fk.extraOf m.gp.Xs r s = (∑ p ∈ Finset.range 10, ∑ q ∈ Finset.range 10,
      gridWeight [vmk 10 fun i => (i : ℝ)] (fun _ => if r = 0 then x1 else x2) p * smallKer ((p : ℝ) - q) * gridWeight [vmk 10 fun i => (i : ℝ)] (fun _ => if s = 0 then x1 else x2) q) +
        if r = s then 0.1 else 0 := by
  have hown : ∀ i < 2, ownerOf (m.gp.Xs.map Arr2.rows) i = 0 := fun i hi => by rw [hX]; simp [ownerOf, hi]
  have hrow : ∀ i < 2, rowPoint m.gp.Xs i 0 = if i = 0 then x1 else x2 := fun i hi => by
    unfold rowPoint innerIdx
    rw [hown i hi, hX]
    interval_cases i <;> simp [pointOf, Arr2.get, offset]
  unfold FK.skiFull FK.skiCov
  simp only [hg, List.map_cons, List.map_nil, List.sum_cons, List.sum_nil, add_zero, hown r hr, hown s hs, hn, List.getD_cons_zero]
  congr 1
  rw [ha, small_size]
  refine Finset.sum_congr rfl fun p hp => Finset.sum_congr rfl fun q hq => ?_
  rw [small_gridCov hk hB (Finset.mem_range.1 hp) (Finset.mem_range.1 hq), small_coords, small_coords, hrow r hr, hrow s hs, he, ite_self, add_zero]

/-- the exact covariance of the two observations of a small model -/
theorem small_exact {m : LLGP} {x1 x2 : ℝ} (hn : m.fk.noise = [0.1]) (hk : m.fk.kernels = [.rbf 100 (some [0])]) (hB : m.fk.B 0 0 0 = 1) (hX : m.gp.Xs = [⟨2, 1, [x1, x2]⟩])
    (r s : ℕ) (hr : r < 2) (hs : s < 2) : m.fk.fullCov m.gp.Xs r s = smallKer ((if r = 0 then x1 else x2) - if s = 0 then x1 else x2) + if r = s then 0.1 else 0 := by
  have hown : ∀ i < 2, ownerOf (m.gp.Xs.map Arr2.rows) i = 0 := fun i hi => by rw [hX]; simp [ownerOf, hi]
  have hrow : ∀ i < 2, pointOf m.gp.Xs 0 (innerIdx (m.gp.Xs.map Arr2.rows) i) 0 = if i = 0 then x1 else x2 := fun i hi => by
    unfold innerIdx
    rw [hown i hi, hX]
    interval_cases i <;> simp [pointOf, Arr2.get, offset]
  have hQ : m.fk.Q = 1 := by simp [FK.Q, hk]
  have hdi : m.fk.kdims 0 = [0] := by simp [FK.kdims, hk, Kern.activeDims]
  unfold FK.fullCov FK.cov
  simp only [hown r hr, hown s hs, hn, List.getD_cons_zero]
  congr 1
  rw [hQ, Finset.sum_range_one, hB, hdi, hk, one_mul]
  simp only [List.getD_cons_zero, Kern.doc, distOn, List.map_cons, List.map_nil, List.sum_cons, List.sum_nil, add_zero, hrow r hr, hrow s hs, smallKer]
  rw [Real.sq_sqrt (sq_nonneg _)]

theorem small_arith_exact {u v : ℝ} (h1 : 0 < u) (h2 : u ≤ 1 / 51) (h3 : 0 < v) (h4 : v ≤ 1 / 51) :
    (1.1 * (-1) ^ 2 - (u + v) * (-1 * 1) + 1.1 * 1 ^ 2 : ℝ) / (1.1 * 1.1 - u * v) ≤ 1.9 := by
  have := mul_le_mul h2 h4 h3.le (by norm_num)
  rw [div_le_iff₀ (by linarith)]
  linarith

theorem small_arith_ski {d f o : ℝ} (h1 : 0.6 < d) (h2 : d < 0.8) (h3 : 0.6 < f) (h4 : f < 0.8) (h5 : -0.04 < o) (hS : 0 < d * f - o * o) :
    (1.9 : ℝ) < (f * (-1) ^ 2 - (o + o) * (-1 * 1) + d * 1 ^ 2) / (d * f - o * o) := by
  rw [lt_div_iff₀ hS]
  nlinarith [sq_nonneg o, mul_pos (sub_pos.2 h2) (sub_pos.2 h3), mul_pos (sub_pos.2 h4) (sub_pos.2 h1)]

/-- the covariances of two observations half way between grid points -/
theorem small_halves {m : LLGP} (c4 : m.fk.noise = [0.1]) (c5 : m.fk.kernels = [.rbf 100 (some [0])]) (c6 : m.fk.B 0 0 0 = 1)
    (c7 : m.fk.activeDims = [([0], [0])]) (c8 : m.fk.extraOf ([0], [0]) = 0) (c9 : m.axesOf [0] = [vmk 10 fun i => (i : ℝ)]) (c10 : m.gp.Xs = [⟨2, 1, [5 / 2, 13 / 2]⟩])
    (hpd : (m.fk.skiMat m.axesOf m.fk.extraOf m.gp.Xs).PosDef) :
    (0.6 < m.fk.skiFull m.axesOf m.fk.extraOf m.gp.Xs 0 0 ∧ m.fk.skiFull m.axesOf m.fk.extraOf m.gp.Xs 0 0 < 0.8) ∧
    (0.6 < m.fk.skiFull m.axesOf m.fk.extraOf m.gp.Xs 1 1 ∧ m.fk.skiFull m.axesOf m.fk.extraOf m.gp.Xs 1 1 < 0.8) ∧
    -0.04 < m.fk.skiFull m.axesOf m.fk.extraOf m.gp.Xs 0 1 ∧ m.fk.skiFull m.axesOf m.fk.extraOf m.gp.Xs 1 0 = m.fk.skiFull m.axesOf m.fk.extraOf m.gp.Xs 0 1 ∧
    m.fk.fullCov m.gp.Xs 0 0 = 1.1 ∧ m.fk.fullCov m.gp.Xs 1 1 = 1.1 ∧ (0 < m.fk.fullCov m.gp.Xs 0 1 ∧ m.fk.fullCov m.gp.Xs 0 1 ≤ 1 / 51) ∧
    (0 < m.fk.fullCov m.gp.Xs 1 0 ∧ m.fk.fullCov m.gp.Xs 1 0 ≤ 1 / 51) := by
  have hsk := small_ski c4 c5 c6 c7 c8 c9 c10
  have hex := small_exact c4 c5 c6 c10
  have b1 := smallKer_le (r := 1) (by norm_num)
  have b2 := smallKer_le (r := -1) (by norm_num)
  have b3 := smallKer_le (r := 2) (by norm_num)
  have b4 := smallKer_le (r := -2) (by norm_num)
  have b5 := smallKer_le (r := 3) (by norm_num)
  have b6 := smallKer_le (r := -3) (by norm_num)
  have b7 := smallKer_le (r := 4) (by norm_num)
  have b8 := smallKer_le (r := -4) (by norm_num)
  have b9 := smallKer_le (r := 5) (by norm_num)
  have b10 := smallKer_le (r := -5) (by norm_num)
  have b11 := smallKer_le (r := 6) (by norm_num)
  have b12 := smallKer_le (r := -6) (by norm_num)
  have b13 := smallKer_le (r := 7) (by norm_num)
  have b14 := smallKer_le (r := -7) (by norm_num)
  have p1 := smallKer_pos 1
  have p2 := smallKer_pos (-1)
  have p3 := smallKer_pos 2
  have p4 := smallKer_pos (-2)
  have p5 := smallKer_pos 3
  have p6 := smallKer_pos (-3)
  have p7 := smallKer_pos 4
  have p8 := smallKer_pos (-4)
  have p9 := smallKer_pos 5
  have p10 := smallKer_pos (-5)
  have p11 := smallKer_pos 6
  have p12 := smallKer_pos (-6)
  have p13 := smallKer_pos 7
  have p14 := smallKer_pos (-7)
  have w1 := fun p => small_half (s := 5 / 2) (n := 2) (by norm_num) (by norm_num) (by norm_num) (p := p)
  have w2 := fun p => small_half (s := 13 / 2) (n := 6) (by norm_num) (by norm_num) (by norm_num) (p := p)
  have s00 : 0.6 < m.fk.skiFull m.axesOf m.fk.extraOf m.gp.Xs 0 0 ∧ m.fk.skiFull m.axesOf m.fk.extraOf m.gp.Xs 0 0 < 0.8 := by
    rw [hsk 0 0 (by norm_num) (by norm_num)]
    simp only [if_true, w1, Finset.sum_range_succ, Finset.sum_range_zero]
    norm_num [smallKer_zero]
    constructor <;> linarith
  have s11 : 0.6 < m.fk.skiFull m.axesOf m.fk.extraOf m.gp.Xs 1 1 ∧ m.fk.skiFull m.axesOf m.fk.extraOf m.gp.Xs 1 1 < 0.8 := by
    rw [hsk 1 1 (by norm_num) (by norm_num)]
    simp only [if_true, one_ne_zero, if_false, w2, Finset.sum_range_succ, Finset.sum_range_zero]
    norm_num [smallKer_zero]
    constructor <;> linarith
  have s01 : -0.04 < m.fk.skiFull m.axesOf m.fk.extraOf m.gp.Xs 0 1 := by
    rw [hsk 0 1 (by norm_num) (by norm_num)]
    simp only [if_true, one_ne_zero, zero_ne_one, if_false, w1, w2, Finset.sum_range_succ, Finset.sum_range_zero]
    norm_num [smallKer_zero]
    linarith
  have s10 : m.fk.skiFull m.axesOf m.fk.extraOf m.gp.Xs 1 0 = m.fk.skiFull m.axesOf m.fk.extraOf m.gp.Xs 0 1 := by
    have := hpd.1.apply ⟨0, by rw [c10]; simp⟩ ⟨1, by rw [c10]; simp⟩
    simpa [FK.skiMat, fnMatrix] using this
  have e00 : m.fk.fullCov m.gp.Xs 0 0 = 1.1 := by rw [hex 0 0 (by norm_num) (by norm_num)]; norm_num [smallKer_zero]
  have e11 : m.fk.fullCov m.gp.Xs 1 1 = 1.1 := by rw [hex 1 1 (by norm_num) (by norm_num)]; norm_num [smallKer_zero]
  have e01 : 0 < m.fk.fullCov m.gp.Xs 0 1 ∧ m.fk.fullCov m.gp.Xs 0 1 ≤ 1 / 51 := by rw [hex 0 1 (by norm_num) (by norm_num)]; norm_num; constructor <;> linarith
  have e10 : 0 < m.fk.fullCov m.gp.Xs 1 0 ∧ m.fk.fullCov m.gp.Xs 1 0 ≤ 1 / 51 := by rw [hex 1 0 (by norm_num) (by norm_num)]; norm_num; constructor <;> linarith
  exact ⟨s00, s11, s01, s10, e00, e11, e01, e10⟩

/-- C104 is false: a program that makes a model as documented, in any prediction mode, with two observations half way between grid points, is told a covariance that is
not `K_SKI` (a diagonal entry is 1.1, that of `K_SKI` less than 0.8), a log determinant that is not the one of `K_SKI`, and a log likelihood less than the log density of the
observations under `K_SKI` and also less than that under the exact covariance. -/
theorem C104_violated (mode : PredMode) : ∃ (fk : FK) (a : LLGPArgs) (m : LLGP) (ld l : ℝ) (K : Arr2 ℝ),
    fkNew (fun _ _ _ => 1) ⟨some 1, some [], some [], some [.rbf 100 none], none, none⟩ = .ok fk ∧ a = smallArgs mode (5 / 2) (13 / 2) fk ∧
    Held exactSolvers [.new a quiet] 0 a m ∧ (∀ g ∈ m.fk.activeDims, g.1.Nodup ∧ ¬ Spoiled m.fk g) ∧
    Tells exactSolvers [.new a quiet] 0 .covariance quiet (.matrix K) ∧ K.get 0 0 = 1.1 ∧ m.kSki.get 0 0 < 0.8 ∧
    Tells exactSolvers [.new a quiet] 0 .logDet quiet (.extended (some ld)) ∧ Real.log (m.fk.skiMat m.axesOf m.fk.extraOf m.gp.Xs).det < ld ∧
    Tells exactSolvers [.new a quiet] 0 .logLikelihood quiet (.extended (some l)) ∧
    l < m.densityWith (m.fk.skiFull m.axesOf m.fk.extraOf m.gp.Xs) ∧ l < m.densityWith (m.fk.fullCov m.gp.Xs) := by
  obtain ⟨fk, h, m, hm, c1, c2, c3, c4, c5, c6, c7, c8, c9, c10, c11⟩ := small_model mode (x1 := 5 / 2) (x2 := 13 / 2) (by norm_num) (by norm_num) (by norm_num)
  obtain ⟨k, f1, -, -, -, f5, -, -⟩ := hm.facts exactSolvers_fit
  have hn2 : m.n = 2 := by unfold LLGP.n; rw [c10]; rfl
  have hy : m.y = [-1, 1] := by
    obtain ⟨fk', m0, g1, g2, g3, -⟩ := f1
    unfold LLGP.y
    rw [g3, (documented_gp g1 g2).2.2]
    simp [smallArgs, LLGPArgs.centreOf, LLGPArgs.scaleOf, sdOf, varOf, meanOf, Finset.sum_range_succ]
    norm_num
  have hpd : (m.fk.skiMat m.axesOf m.fk.extraOf m.gp.Xs).PosDef := f5.ski_posDef c2 (by rw [c7]; simp)
  obtain ⟨s00, s11, s01, s10, e00, e11, e01, e10⟩ := small_halves c4 c5 c6 c7 c8 c9 c10 hpd
  obtain ⟨a1, a2, a3⟩ := C104_answers exactSolvers exactSolvers_fit _ 0 _ m hm quiet quiet_calm.1
  obtain ⟨-, l, a5, a6, a7⟩ := a3 (fun K n A tol hK _ => exactSolvers_exact hK tol) (by rw [c7]; simp)
  have dS : (m.fk.skiMat m.axesOf m.fk.extraOf m.gp.Xs).det = _ := det_two hn2 _
  have dE : (m.fk.covMat m.gp.Xs).det = _ := det_two hn2 _
  have qS : toVec m.n m.y ⬝ᵥ (m.fk.skiMat m.axesOf m.fk.extraOf m.gp.Xs)⁻¹.mulVec (toVec m.n m.y) = _ := quad_two hn2 _ _
  have qE : toVec m.n m.y ⬝ᵥ (m.fk.covMat m.gp.Xs)⁻¹.mulVec (toVec m.n m.y) = _ := quad_two hn2 _ _
  have hS := hpd.det_pos
  rw [dS] at hS
  rw [qS, qE, hy] at a7
  simp only [List.getD_cons_zero, List.getD_cons_succ] at a7
  rw [s10] at hS a7 dS
  rw [e00, e11] at a7 dE
  generalize m.fk.skiFull m.axesOf m.fk.extraOf m.gp.Xs 0 1 = o at *
  generalize m.fk.fullCov m.gp.Xs 0 1 = u at *
  generalize m.fk.fullCov m.gp.Xs 1 0 = v at *
  have hld : Real.log (m.fk.skiMat m.axesOf m.fk.extraOf m.gp.Xs).det < Real.log (m.fk.covMat m.gp.Xs).det := by
    rw [dS, dE]
    refine Real.log_lt_log hS ?_
    nlinarith [mul_pos e01.1 e10.1, mul_le_mul e01.2 e10.2 e10.1.le (by norm_num), sq_nonneg o]
  refine ⟨fk, _, m, _, l, _, h, rfl, hm, ?_, a1, ?_, ?_, a2, hld, a5, ?_, ?_⟩
  · rw [c7]
    intro g hg
    rw [List.mem_singleton] at hg
    rw [hg]
    exact ⟨by simp, (small_facts (c11 ▸ f5) c2 c4 c5 c6 c7 c8 c9 c10).plain⟩
  · unfold LLGP.kExact
    rw [Arr2.of_get (by rw [hn2]; norm_num) (by rw [hn2]; norm_num)]
    exact e00
  · unfold LLGP.kSki
    rw [Arr2.of_get (by rw [hn2]; norm_num) (by rw [hn2]; norm_num)]
    exact s00.2
  · linarith only [hld, a6]
  · have hq := small_arith_exact e01.1 e01.2 e10.1 e10.2
    have hq' := small_arith_ski s00.1 s00.2 s11.1 s11.2 s01 hS
    linarith only [hq, hq', a7]

end Verif
