import Verif.Proofs.LLGPExample

/-! C40, C43 to C46 and C66: the model, its likelihood and its predictions. -/

namespace Verif

open Matrix

/-! ### C66 -/

/-- C66: constructing a model from documented arguments succeeds; the model keeps the padded inputs and the given kernel, and its covariance
operator (built from Toeplitz blocks, Kronecker products and sparse interpolation) is the interpolated LMC covariance: entry `(r, s)` is
`∑_g w_g(x_r)ᵀ K_g w_g(x_s)` with Keys' cubic interpolation weights `w_g` on the grid of each group of dimensions, plus the noise. `extraOf` is
zero except for the groups of C33. -/
theorem C66_constructor (a : LLGPArgs) (P : ℕ) (hP : 0 < P) (fk : FK) (h : a.Documented P fk) :
    ∃ m fk', llgpInit a = .ok m ∧ fk.setInputDim P = .ok fk' ∧ m.fk = fk' ∧ m.gp.Xs = padded P a.Xs ∧ m.OK P ∧
      ∃ K gks, genGridKernel m.fk m.dists m.interp m.lens = .ok (K, gks) ∧ K.rows = m.n ∧ K.cols = m.n ∧
        ∀ x : List ℝ, x.length = m.n → K.matvec x = vmk m.n fun r => ∑ s ∈ Finset.range m.n, m.fk.skiFull m.axesOf m.fk.extraOf m.gp.Xs r s * x.getD s 0 := by
  obtain ⟨m, fk', h1, h2, h3, h4, h5⟩ := llgpInit_documented h hP
  obtain ⟨K, gks, g1, g2, g3, g4, -⟩ := genGridKernel_model h2
  refine ⟨m, fk', h1, h3, h4, h5, h2, K, gks, g1, g2, g3, fun x hx => ?_⟩
  have := g4.matvec x (by rw [g3]; exact hx)
  rw [g2, g3] at this
  exact this

/-- the grids of a constructed model: at least four equispaced points per axis -/
theorem C66_grids (m : LLGP) (P : ℕ) (h : m.OK P) (g : List ℕ × List ℕ) (hg : g ∈ m.fk.activeDims) :
    (m.axesOf g.1).length = g.1.length ∧ ∀ a ∈ m.axesOf g.1, 4 ≤ a.length ∧ ∃ g0 h, 0 < h ∧ Equispaced a g0 h := by
  obtain ⟨gg, d1, d2, d3, d4⟩ := h.mem_grids hg
  rw [d4]
  exact ⟨d3.axes, fun a ha => ⟨d3.size a ha, d3.spacing a ha⟩⟩

/-- no group is affected by C33 if every group has some LMC kernel; then the covariance is the documented one -/
theorem C66_documented (fk : FK) (h : ∀ g ∈ fk.activeDims, ¬ Spoiled fk g) (axes : List ℕ → List (List ℝ)) (Xs : List (Arr2 ℝ)) :
    fk.skiFull axes fk.extraOf Xs = fk.skiFull axes noExtra Xs := by
  funext r s
  unfold FK.skiFull FK.skiCov
  simp only
  congr 1
  refine congrArg List.sum (List.map_congr_left fun g hg => ?_)
  have : fk.extraOf g = noExtra g := by unfold FK.extraOf noExtra; rw [if_neg (h g hg)]
  rw [this]

example : ∃ (a : LLGPArgs) (fk : FK), a.Documented 2 fk ∧ fk.D = 2 :=
  let ⟨a, fk, h, _, _, _, _, _, hD, _⟩ := exists_documented .exact true
  ⟨a, fk, h, hD⟩

/-! ### C40 -/

theorem list_prod_pos {l : List ℝ} (h : ∀ x ∈ l, 0 < x) : 0 < l.prod := by
  induction l with
  | nil => simp
  | cons a l ih => rw [List.prod_cons]; exact mul_pos (h a (by simp)) (ih fun x hx => h x (by simp [hx]))

theorem logDet_ok {m : LLGP} {P : ℕ} (h : m.OK P) {l : ExactLMC} (hl : m.dense = .ok l) : logDetOf l = some (Real.log (m.fk.covMat m.gp.Xs).det) := by
  have hc := contents_of_ok h.ready h.data hl
  obtain ⟨U, u1, u2, u3, u4⟩ := hc.factor
  obtain ⟨hdet, -⟩ := cholesky_det u1 u2 u3
  have hdiag : npDiagOf l.L = List.ofFn fun i : Fin (m.gp.Xs.map Arr2.rows).sum => U i i := by
    unfold npDiagOf
    rw [hc.rows, hc.cols, min_self]
    unfold vmk
    refine List.ext_getElem (by simp) fun i h1 h2 => ?_
    simp only [List.getElem_map, List.getElem_range, List.getElem_ofFn]
    exact u4 ⟨i, by simpa using h1⟩ ⟨i, by simpa using h1⟩ le_rfl
  unfold logDetOf
  simp only [hdiag, List.map_ofFn]
  rw [if_neg, hdet]
  · rw [List.sum_ofFn, Real.log_pow, Real.log_prod (fun i _ => (u2 i).ne')]
    norm_num
    rw [mul_comm]
  · rw [not_le]
    refine list_prod_pos fun x hx => ?_
    rw [List.mem_ofFn] at hx
    obtain ⟨i, rfl⟩ := hx
    simp [u2 i]

theorem vdot_eq {n : ℕ} {x y : List ℝ} (hx : x.length = n) (hy : y.length = n) : vdot x y = toVec n x ⬝ᵥ toVec n y := by
  subst hx
  unfold vdot dotProduct toVec
  rw [hy.symm] at *
  simp [Finset.sum_range]

/-- C40: `log_det_K()` is the logarithm of the determinant of the exact LMC covariance. -/
theorem C40_log_det (m : LLGP) (P : ℕ) (h : m.OK P) :
    ((m.fk.covMat m.gp.Xs).PosDef → ∃ l, m.dense = .ok l ∧ logDetOf l = some (Real.log (m.fk.covMat m.gp.Xs).det)) ∧
    (¬ (m.fk.covMat m.gp.Xs).PosDef → m.dense = .error .linAlgError) := by
  obtain ⟨h1, h2⟩ := exactLMC_contents h.ready h.data
  refine ⟨fun hp => ?_, h2⟩
  obtain ⟨l, hl, -⟩ := h1 hp
  exact ⟨l, hl, logDet_ok h hl⟩

/-- C40: on an updated model `log_likelihood()` is `-1/2 (log det K + yᵀ α + n log 2π)` with the exact covariance `K` and the `α` of the linear
solve with the interpolated covariance, and `normal_quadratic()` is `yᵀ α`. -/
theorem C40_log_likelihood (sv : Solvers) (hs : sv.Fit) (m : LLGP) (P : ℕ) (h : m.OK P) (k : LLKernel) (hc : m.Current sv k) (l : ExactLMC)
    (hl : m.dense = .ok l) :
    m.normalQuadratic = .ok (toVec m.n m.y ⬝ᵥ toVec m.n k.approx.alpha) ∧
    m.logLikelihoodOf l = .ok (some (-(1 / 2) * (Real.log (m.fk.covMat m.gp.Xs).det + toVec m.n m.y ⬝ᵥ toVec m.n k.approx.alpha + m.n * Real.log (2 * Real.pi)))) := by
  obtain ⟨-, hal, -⟩ := current_facts hs h hc
  have hq : m.normalQuadratic = .ok (toVec m.n m.y ⬝ᵥ toVec m.n k.approx.alpha) := by
    unfold LLGP.normalQuadratic
    simp only [LLGP.theKernel, hc.kernel, ok_bind]
    rw [if_pos (by rw [y_length h, hal]), vdot_eq (y_length h) hal]
    rfl
  refine ⟨hq, ?_⟩
  unfold LLGP.logLikelihoodOf
  rw [hq, ok_bind, logDet_ok h hl, y_length h]
  show Except.ok _ = _
  simp only [Option.map_some]
  norm_num

/-- C40: if the linear solve gives the exact `K⁻¹ y`, `log_likelihood()` is the log density of the observations. -/
theorem C40_exact (sv : Solvers) (hs : sv.Fit) (m : LLGP) (P : ℕ) (h : m.OK P) (k : LLKernel) (hc : m.Current sv k) (l : ExactLMC)
    (hl : m.dense = .ok l) (hα : ∀ i (hi : i < m.n), k.approx.alpha.getD i 0 = ((m.fk.covMat m.gp.Xs)⁻¹ *ᵥ toVec m.n m.y) ⟨i, hi⟩) :
    m.logLikelihoodOf l = .ok (some (m.fk.logLik m.gp.Xs m.gp.Ys)) := by
  rw [(C40_log_likelihood sv hs m P h k hc l hl).2]
  have : toVec m.n k.approx.alpha = (m.fk.covMat m.gp.Xs)⁻¹ *ᵥ toVec m.n m.y := funext fun i => hα i i.2
  rw [this]
  unfold FK.logLik gaussLogDensity
  rw [add_comm (Real.log _)]
  rfl

end Verif
