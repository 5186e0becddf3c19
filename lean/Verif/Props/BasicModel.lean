import Verif.Proofs.TestingUtils
import Verif.Proofs.MatDeriv
import Verif.Props.Kern
import Verif.Props.Likelihood2
import Verif.Props.Predict
import Mathlib.Analysis.Complex.ExponentialBounds

/-!
C76: the single-kernel model the tests optimise with: its gradient is the derivative of the Gaussian log density, but its `log_likelihood` is not that
density.
-/

namespace Verif
open Matrix

theorem kern_updateGradient : ∀ (k : Kern) (g : List ℝ), g.length = k.params.length → k.updateGradient g = .ok g
  | .rbf _ _, g, h => by
    match g, h with
    | [a], _ => rfl
  | .matern32 _ _, g, h => by
    match g, h with
    | [a], _ => rfl
  | .stdPeriodic _ _ _, g, h => by
    match g, h with
    | [a, b], _ => rfl
  | .identity _, g, h => by
    match g, h with
    | [], _ => rfl
  | .scaled k s a, g, h => by
    simp only [Kern.params, List.length_append, List.length_singleton] at h
    have hne : g ≠ [] := fun h0 => by rw [h0] at h; simp at h
    simp only [Kern.updateGradient]
    rw [kern_updateGradient k g.dropLast (by simp [h]), List.getLast?_eq_some_getLast hne]
    simp only [ok_bind, Option.elim]
    rw [List.dropLast_append_getLast hne]

theorem onLine_apply (k : Kern) (dists : List ℝ) (i j : Fin dists.length) : k.onLine dists i j = k.doc (dists.getD (absDiff i j) 0) := by
  unfold Kern.onLine absDiff
  congr 2
  split_ifs <;> omega

theorem toep_map_get (f : ℝ → ℝ) (dists : List ℝ) {i j : ℕ} (hi : i < dists.length) (hj : j < dists.length) :
    (laToeplitz (dists.map f)).get i j = f (dists.getD (absDiff i j) 0) := by
  rw [laToeplitz_tpf _ (by simpa using hi) (by simpa using hj)]
  unfold tpf
  exact map_getD_lt (absDiff_lt hi hj) f 0 0

theorem leading_posDef {k : Kern} {dists : List ℝ} (h : (k.onLine dists).PosDef) {m : ℕ} (hm : m ≤ dists.length) :
    (leading (dists.map k.doc) m).PosDef := by
  have e : leading (dists.map k.doc) m = (k.onLine dists).submatrix (Fin.castLE hm) (Fin.castLE hm) := by
    funext i j
    unfold leading
    rw [toep_map_get _ _ (lt_of_lt_of_le i.2 hm) (lt_of_lt_of_le j.2 hm), submatrix_apply, onLine_apply]
    rfl
  rw [e]
  exact h.submatrix (Fin.castLE_injective hm)

/-- with a positive definite covariance `solve_toeplitz` returns `K⁻¹ b` -/
theorem solveToeplitz_ok {k : Kern} {dists b : List ℝ} (h : (k.onLine dists).PosDef) (hb : b.length = dists.length) :
    ∃ x, solveToeplitz (dists.map k.doc) b = .ok x ∧ x.length = dists.length ∧
      ∀ i : Fin dists.length, x.getD i 0 = ((k.onLine dists)⁻¹ *ᵥ toVec dists.length b) i := by
  have hl : (dists.map k.doc).length = dists.length := List.length_map _
  unfold solveToeplitz
  rw [if_neg (by rw [hl, hb]; simp), if_neg]
  · refine ⟨_, rfl, by simp [vmk], fun i => ?_⟩
    rw [vmk_getD_lt (by rw [hl]; exact i.2), dif_pos (by rw [hl]; exact i.2)]
    generalize hc : dists.map k.doc = c at hl
    have key : ∀ (n : ℕ) (hn : n = dists.length) (h1 : (i : ℕ) < n), ((leading c n)⁻¹ *ᵥ fun j => b.getD j 0) ⟨i, h1⟩ = ((k.onLine dists)⁻¹ *ᵥ toVec dists.length b) i := by
      intro n hn h1
      subst hn
      have : leading c dists.length = k.onLine dists := by
        funext i j
        unfold leading
        rw [← hc, toep_map_get _ _ i.2 j.2, onLine_apply]
      rw [this]; rfl
    exact key _ hl _
  · rintro ⟨m, hm, h0⟩
    exact (leading_posDef h (by rwa [hl] at hm)).det_pos.ne' h0

theorem basicModel_entry {k : Kern} {dists a : List ℝ} (h : (k.onLine dists).PosDef) (f : ℝ → ℝ) (ha : a.length = dists.length) :
    BasicModel.gradientEntry (dists.map k.doc) a (.arr ⟨[dists.length], dists.map f⟩) =
      .ok (0.5 * (toVec dists.length a ⬝ᵥ (Matrix.of fun i j : Fin dists.length => f (dists.getD (absDiff i j) 0)) *ᵥ toVec dists.length a -
        ((k.onLine dists)⁻¹ * Matrix.of fun i j : Fin dists.length => f (dists.getD (absDiff i j) 0)).trace)) := by
  set n := dists.length with hn
  have hl : (dists.map f).length = n := List.length_map _
  unfold BasicModel.gradientEntry topOf
  simp only [ok_bind]
  have hcol : ∀ j < n, ∃ x, solveToeplitz (dists.map k.doc) ((laToeplitz (dists.map f)).col j) = .ok x ∧
      ∀ i : Fin n, x.getD i 0 = ((k.onLine dists)⁻¹ *ᵥ fun l : Fin n => f (dists.getD (absDiff l j) 0)) i := by
    intro j hj
    obtain ⟨x, h1, -, h3⟩ := solveToeplitz_ok h (b := (laToeplitz (dists.map f)).col j) (by simp [Arr2.col, laToeplitz, Arr2.of, vmk])
    refine ⟨x, h1, fun i => ?_⟩
    rw [h3 i]
    congr 2
    funext l
    unfold toVec Arr2.col
    rw [vmk_getD_lt (by show (l : ℕ) < (dists.map f).length; rw [hl]; exact l.2), toep_map_get _ _ l.2 hj]
  obtain ⟨cols, c1, c2, c3⟩ := mapExcept_range (n := n) (f := fun j => solveToeplitz (dists.map k.doc) ((laToeplitz (dists.map f)).col j))
    (R := fun j x => ∀ i : Fin n, x.getD i 0 = ((k.onLine dists)⁻¹ *ᵥ fun l : Fin n => f (dists.getD (absDiff l j) 0)) i) [] hcol
  have hs : solveToeplitz2 (dists.map k.doc) (laToeplitz (dists.map f)) = .ok (Arr2.of n n fun i j => (cols.getD j []).getD i 0) := by
    unfold solveToeplitz2
    have : (laToeplitz (dists.map f)).cols = n := hl
    have h2 : (laToeplitz (dists.map f)).rows = n := hl
    rw [this, h2, c1]
    rfl
  rw [hs]
  simp only [ok_bind]
  congr 2
  rw [ha, Finset.sum_sub_distrib]
  congr 1
  · rw [Finset.sum_range]
    refine Finset.sum_congr rfl fun i _ => ?_
    congr 1
    unfold Arr2.dotv
    rw [vmk_getD_lt (by show (i : ℕ) < (dists.map f).length; rw [hl]; exact i.2)]
    rw [show (laToeplitz (dists.map f)).cols = n from hl, Finset.sum_range]
    refine Finset.sum_congr rfl fun j _ => ?_
    rw [toep_map_get _ _ i.2 j.2]
    rfl
  · rw [Finset.sum_range]
    refine Finset.sum_congr rfl fun i _ => ?_
    rw [Arr2.of_get i.2 i.2, c3 i i.2 i]
    rfl

/-- C76: whenever the covariance is positive definite, `parameters_changed` succeeds and writes, for every hyperparameter, the derivative of the Gaussian
log density of the data. -/
theorem C76_gradient (m : BasicModel) (hk : m.kern.Valid) (hne : m.dists ≠ []) (hY : m.Y.length = m.dists.length) (hpd : (m.kern.onLine m.dists).PosDef) :
    ∃ G, m.parametersChanged = .ok G ∧ G.length = m.kern.params.length ∧ ∀ j < m.kern.params.length,
      HasDerivAt (fun t => gaussLog ((m.kern.setParam j t).onLine m.dists) (toVec m.dists.length m.Y)) (G.getD j 0) (m.kern.params.getD j 0) := by
  obtain ⟨fs, f1, f2, f3⟩ := gradient_arr m.kern hk (NDArr.vec m.dists) (by simp [NDArr.vec])
  obtain ⟨a, a1, a2, a3⟩ := solveToeplitz_ok hpd hY
  have hfrom := fromDist_arr m.kern hk (NDArr.vec m.dists) (by simp [NDArr.vec])
  set D : (ℝ → ℝ) → Matrix (Fin m.dists.length) (Fin m.dists.length) ℝ := fun f => Matrix.of fun i j => f (m.dists.getD (absDiff i j) 0) with hD
  set val : (ℝ → ℝ) → ℝ := fun f => 0.5 * (toVec m.dists.length a ⬝ᵥ D f *ᵥ toVec m.dists.length a - ((m.kern.onLine m.dists)⁻¹ * D f).trace) with hval
  have hmap : mapExcept (BasicModel.gradientEntry (m.dists.map m.kern.doc) a) (fs.map fun f => KVal.arr ⟨[m.dists.length], m.dists.map f⟩) = .ok (fs.map val) := by
    clear f1 f2 f3
    induction fs with
    | nil => rfl
    | cons f fs ih =>
      simp only [List.map_cons, mapExcept]
      rw [basicModel_entry hpd f a2, ih]
      rfl
  have hrun : m.parametersChanged = .ok (fs.map val) := by
    unfold BasicModel.parametersChanged
    rw [hfrom]
    simp only [ok_bind, topOf, NDArr.vec]
    rw [a1]
    simp only [ok_bind]
    have f1' : m.kern.kernelGradient (.arr ⟨[m.dists.length], m.dists⟩) = .ok (fs.map fun f => KVal.arr ⟨[m.dists.length], m.dists.map f⟩) := f1
    rw [f1']
    simp only [ok_bind]
    rw [hmap]
    simp only [ok_bind]
    exact kern_updateGradient _ _ (by rw [List.length_map]; exact f2)
  refine ⟨_, hrun, by rw [List.length_map]; exact f2, fun j hj => ?_⟩
  have hj' : j < fs.length := f2 ▸ hj
  rw [map_getD_lt hj' val 0 (fun _ => 0)]
  set f := fs.getD j fun _ => 0 with hf
  have hent : ∀ i l : Fin m.dists.length, HasDerivAt (fun t => (m.kern.setParam j t).onLine m.dists i l) (D f i l) (m.kern.params.getD j 0) := by
    intro i l
    simp only [onLine_apply]
    exact f3 j hj _
  have hself : m.kern.setParam j (m.kern.params.getD j 0) = m.kern := (setParam_self m.kern j).resolve_right (by omega)
  have hdet : ((m.kern.setParam j (m.kern.params.getD j 0)).onLine m.dists).det ≠ 0 := by rw [hself]; exact hpd.det_pos.ne'
  have h1 := hasDerivAt_quadratic hent hdet (toVec m.dists.length m.Y)
  have h2 := hasDerivAt_logdet hent hdet
  refine ((h1.const_mul (-(1 / 2))).sub (h2.const_mul (1 / 2))).congr_deriv ?_
  rw [hself]
  have ha : toVec m.dists.length a = (m.kern.onLine m.dists)⁻¹ *ᵥ toVec m.dists.length m.Y := by
    funext i; exact a3 i
  have hsymm : ((m.kern.onLine m.dists)⁻¹)ᵀ = (m.kern.onLine m.dists)⁻¹ := by
    have := hpd.inv.isHermitian
    rwa [IsHermitian, conjTranspose_eq_transpose_of_trivial] at this
  have hq : toVec m.dists.length a ⬝ᵥ D f *ᵥ toVec m.dists.length a =
      toVec m.dists.length m.Y ⬝ᵥ ((m.kern.onLine m.dists)⁻¹ * D f * (m.kern.onLine m.dists)⁻¹) *ᵥ toVec m.dists.length m.Y := by
    rw [ha, ← mulVec_mulVec, ← mulVec_mulVec, dotProduct_mulVec (toVec m.dists.length m.Y), ← mulVec_transpose, hsymm]
  rw [hval]
  simp only
  rw [hq]
  ring

/-- C76: whenever the covariance is positive definite `log_likelihood` succeeds; its determinant term is that of `K + 10⁻¹⁰ I`, so that it is not the
density whose gradient is used. -/
theorem C76_log_likelihood (m : BasicModel) (hk : m.kern.Valid) (hY : m.Y.length = m.dists.length) (hpd : (m.kern.onLine m.dists).PosDef) :
    m.logLikelihood = .ok (-(1 / 2) * (toVec m.dists.length m.Y ⬝ᵥ (m.kern.onLine m.dists)⁻¹ *ᵥ toVec m.dists.length m.Y) -
      1 / 2 * Real.log (m.kern.onLine m.dists + (1e-10 : ℝ) • (1 : Matrix (Fin m.dists.length) (Fin m.dists.length) ℝ)).det) := by
  obtain ⟨a, a1, a2, a3⟩ := solveToeplitz_ok hpd hY
  have hfrom := fromDist_arr m.kern hk (NDArr.vec m.dists) (by simp [NDArr.vec])
  have hl : (m.dists.map m.kern.doc).length = m.dists.length := List.length_map _
  unfold BasicModel.logLikelihood
  rw [hfrom]
  simp only [ok_bind, topOf, NDArr.vec]
  rw [a1]
  simp only [ok_bind]
  have hdet : Matrix.det (fun i j : Fin (m.dists.map m.kern.doc).length => (laToeplitz (m.dists.map m.kern.doc)).get i j + 1e-10 * if i = j then 1 else 0) =
      (m.kern.onLine m.dists + (1e-10 : ℝ) • (1 : Matrix (Fin m.dists.length) (Fin m.dists.length) ℝ)).det := by
    have key : ∀ (n : ℕ) (hn : n = m.dists.length),
        Matrix.det (fun i j : Fin n => (laToeplitz (m.dists.map m.kern.doc)).get i j + 1e-10 * if i = j then 1 else 0) =
        (m.kern.onLine m.dists + (1e-10 : ℝ) • (1 : Matrix (Fin m.dists.length) (Fin m.dists.length) ℝ)).det := by
      intro n hn
      subst hn
      congr 1
      funext i j
      rw [toep_map_get _ _ i.2 j.2, Matrix.add_apply, onLine_apply, Matrix.smul_apply, Matrix.one_apply, smul_eq_mul]
    exact key _ hl
  have hpos : 0 < (m.kern.onLine m.dists + (1e-10 : ℝ) • (1 : Matrix (Fin m.dists.length) (Fin m.dists.length) ℝ)).det :=
    (hpd.add_posSemidef (PosSemidef.one.smul (by norm_num))).det_pos
  rw [hdet, if_neg (not_not.2 hpos), abs_of_pos hpos]
  have hdot : vdot m.Y a = toVec m.dists.length m.Y ⬝ᵥ (m.kern.onLine m.dists)⁻¹ *ᵥ toVec m.dists.length m.Y := by
    unfold vdot
    rw [hY, Finset.sum_range]
    exact Finset.sum_congr rfl fun i _ => by rw [a3 i]; rfl
  rw [hdot]
  show Except.ok _ = Except.ok _
  congr 1
  norm_num

/-- one observation under a scaled kernel -/
noncomputable def oneScaled : BasicModel := ⟨[0], [1], .scaled (.rbf 1 none) 1 none⟩

theorem oneScaled_onLine (t : ℝ) : (oneScaled.kern.setParam 1 t).onLine oneScaled.dists = t • (1 : Matrix (Fin 1) (Fin 1) ℝ) := by
  funext (i : Fin 1) (j : Fin 1)
  have hi : i = 0 := Subsingleton.elim _ _
  have hj : j = 0 := Subsingleton.elim _ _
  subst hi hj
  simp [Kern.onLine, oneScaled, Kern.setParam, Kern.params, Kern.doc]

theorem oneScaled_pd {t : ℝ} (ht : 0 < t) : ((oneScaled.kern.setParam 1 t).onLine oneScaled.dists).PosDef := by
  rw [oneScaled_onLine]
  exact Matrix.PosDef.one.smul ht

/-- C76: because of the added `10⁻¹⁰` the gradient is not the derivative of the reported `log_likelihood`. -/
theorem C76_jitter : ∃ G, oneScaled.parametersChanged = .ok G ∧ ∀ f : ℝ → ℝ,
    (∀ t > 0, BasicModel.logLikelihood ⟨oneScaled.dists, oneScaled.Y, oneScaled.kern.setParam 1 t⟩ = .ok (f t)) → ¬ HasDerivAt f (G.getD 1 0) 1 := by
  have hself : oneScaled.kern.setParam 1 1 = oneScaled.kern := by simp [oneScaled, Kern.setParam, Kern.params]
  have hv : ∀ t > 0, (oneScaled.kern.setParam 1 t).Valid := by
    intro t ht
    simp only [oneScaled, Kern.setParam, Kern.params, List.length_singleton, if_true, Kern.Valid]
    exact ⟨by norm_num, ht⟩
  obtain ⟨G, g1, -, g3⟩ := C76_gradient oneScaled (by rw [← hself]; exact hv 1 one_pos) (by simp [oneScaled]) rfl (by rw [← hself]; exact oneScaled_pd one_pos)
  refine ⟨G, g1, fun f hf hd => ?_⟩
  have hg := g3 1 (by simp [oneScaled, Kern.params])
  have hp : oneScaled.kern.params.getD 1 0 = 1 := by simp [oneScaled, Kern.params]
  rw [hp] at hg
  have d1 : ∀ t : ℝ, ((oneScaled.kern.setParam 1 t).onLine oneScaled.dists).det = t := by
    intro t
    rw [oneScaled_onLine]
    show Matrix.det (t • (1 : Matrix (Fin 1) (Fin 1) ℝ)) = t
    rw [Matrix.det_smul]
    simp
  have d2 : ∀ t : ℝ, ((oneScaled.kern.setParam 1 t).onLine oneScaled.dists +
      (1e-10 : ℝ) • (1 : Matrix (Fin oneScaled.dists.length) (Fin oneScaled.dists.length) ℝ)).det = t + 1e-10 := by
    intro t
    rw [oneScaled_onLine]
    show Matrix.det (t • (1 : Matrix (Fin 1) (Fin 1) ℝ) + (1e-10 : ℝ) • (1 : Matrix (Fin 1) (Fin 1) ℝ)) = _
    rw [← add_smul, Matrix.det_smul]
    simp
  have hdiff := hd.sub hg
  have e : (f - fun t => gaussLog ((oneScaled.kern.setParam 1 t).onLine oneScaled.dists) (toVec oneScaled.dists.length oneScaled.Y)) =ᶠ[nhds 1]
      fun t => 1 / 2 * Real.log t - 1 / 2 * Real.log (t + 1e-10) := by
    filter_upwards [lt_mem_nhds (one_pos (α := ℝ))] with t ht
    have h1 := C76_log_likelihood ⟨oneScaled.dists, oneScaled.Y, oneScaled.kern.setParam 1 t⟩ (hv t ht) rfl (oneScaled_pd ht)
    rw [hf t ht] at h1
    have h2 := Except.ok.inj h1
    simp only [Pi.sub_apply]
    rw [h2]
    unfold gaussLog
    rw [d1]
    simp only
    rw [d2]
    ring
  have h3 := hdiff.congr_of_eventuallyEq e.symm
  have h4 : HasDerivAt (fun t : ℝ => 1 / 2 * Real.log t - 1 / 2 * Real.log (t + 1e-10)) (1 / 2 * 1⁻¹ - 1 / 2 * (1 / (1 + 1e-10))) 1 :=
    ((Real.hasDerivAt_log one_ne_zero).const_mul _).sub ((((hasDerivAt_id (1 : ℝ)).add_const (1e-10 : ℝ)).log (by norm_num)).const_mul _)
  have := h3.unique h4
  norm_num at this

/-- the hypotheses of `C76_gradient` hold for three equispaced points under a squared exponential kernel -/
example : ((Kern.rbf 2 none).onLine [0, 1, 2]).PosDef := by
  have e : (Kern.rbf 2 none).onLine [0, 1, 2] = fnMatrix 3 3 (fun i j => (Kern.rbf 2 none).doc (([0, 1, 2] : List ℝ).getD (absDiff i j) 0)) := by
    funext i j
    exact onLine_apply _ _ i j
  rw [e]
  refine pd_of_quad (fun i _ j _ => by rw [absDiff_comm]) fun x hx => ?_
  have h1 : Real.exp (-1) < 0.37 := by
    have := Real.exp_one_gt_d9
    rw [Real.exp_neg, inv_lt_comm₀ (Real.exp_pos _) (by norm_num)]
    refine lt_trans ?_ this
    norm_num
  have h2 : Real.exp (-4) < 0.02 := by
    have : Real.exp (-4) = Real.exp (-1) ^ 4 := by rw [← Real.exp_nat_mul]; norm_num
    rw [this]
    calc Real.exp (-1) ^ 4 < 0.37 ^ 4 := by gcongr
      _ < 0.02 := by norm_num
  have h3 := Real.exp_pos (-1)
  have h4 := Real.exp_pos (-4)
  have hq : quad 3 (fun i j => (Kern.rbf 2 none).doc (([0, 1, 2] : List ℝ).getD (absDiff i j) 0)) x =
      x 0 * x 0 + x 1 * x 1 + x 2 * x 2 + 2 * Real.exp (-1) * (x 0 * x 1 + x 1 * x 2) + 2 * Real.exp (-4) * (x 0 * x 2) := by
    simp [quad, Finset.sum_range_succ, absDiff, Kern.doc]
    rw [show (-(2 * 2 ^ 2) / 2 : ℝ) = -4 by norm_num]
    ring
  have hn := nrm_pos hx
  simp only [nrm, Finset.sum_range_succ, Finset.sum_range_zero, zero_add] at hn
  rw [hq]
  have b1 : -(x 0 * x 0 + x 1 * x 1) / 2 ≤ x 0 * x 1 := by nlinarith [sq_nonneg (x 0 + x 1)]
  have b2 : -(x 1 * x 1 + x 2 * x 2) / 2 ≤ x 1 * x 2 := by nlinarith [sq_nonneg (x 1 + x 2)]
  have b3 : -(x 0 * x 0 + x 2 * x 2) / 2 ≤ x 0 * x 2 := by nlinarith [sq_nonneg (x 0 + x 2)]
  have c1 := mul_le_mul_of_nonneg_left b1 h3.le
  have c2 := mul_le_mul_of_nonneg_left b2 h3.le
  have c3 := mul_le_mul_of_nonneg_left b3 h4.le
  nlinarith [mul_self_nonneg (x 0), mul_self_nonneg (x 1), mul_self_nonneg (x 2), mul_nonneg (sub_nonneg.2 h1.le) (mul_self_nonneg (x 0)),
    mul_nonneg (sub_nonneg.2 h1.le) (mul_self_nonneg (x 1)), mul_nonneg (sub_nonneg.2 h1.le) (mul_self_nonneg (x 2)),
    mul_nonneg (sub_nonneg.2 h2.le) (mul_self_nonneg (x 0)), mul_nonneg (sub_nonneg.2 h2.le) (mul_self_nonneg (x 2))]

end Verif
