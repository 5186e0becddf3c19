import Verif.Spec.LogLikBounds
import Verif.Props.Influence
import Verif.Props.ProperScore

/-! C116: the range of the log likelihood, its log determinant and its quadratic form. -/

namespace Verif

open Matrix

theorem trace_mul_psd {n : ℕ} {A S : Matrix (Fin n) (Fin n) ℝ} (hA : A.PosDef) (hS : S.PosSemidef) : 0 ≤ (A * S).trace := by
  obtain ⟨U, -, -, hU⟩ := exists_cholesky n A hA
  have := (hS.mul_mul_conjTranspose_same U).trace_nonneg
  rwa [conjTranspose_eq_transpose_of_trivial, Matrix.trace_mul_comm, ← Matrix.mul_assoc, hU] at this

/-- noise bounds the determinant from below -/
theorem logDet_ge {n : ℕ} {S : Matrix (Fin n) (Fin n) ℝ} (hS : S.PosSemidef) {ν : Fin n → ℝ} (hν : ∀ i, 0 < ν i) : ∑ i, Real.log (ν i) ≤ Real.log (diagonal ν + S).det := by
  have hD : (diagonal ν).PosDef := Matrix.posDef_diagonal_iff.2 hν
  have hA : (diagonal ν + S).PosDef := hD.add_posSemidef hS
  have g := (gibbs hA hD).1
  have hu : IsUnit (diagonal ν + S).det := (Matrix.isUnit_iff_isUnit_det _).1 hA.isUnit
  have e : ((diagonal ν + S)⁻¹ * diagonal ν).trace = n - ((diagonal ν + S)⁻¹ * S).trace := by
    have h1 : (diagonal ν + S)⁻¹ * (diagonal ν + S) = 1 := Matrix.nonsing_inv_mul _ hu
    rw [Matrix.mul_add] at h1
    have := congrArg Matrix.trace h1
    rw [Matrix.trace_add, Matrix.trace_one, Fintype.card_fin] at this
    linarith
  have hp := trace_mul_psd hA.inv hS
  rw [e, det_diagonal, Real.log_prod fun i _ => (hν i).ne'] at g
  linarith

/-- Hadamard's inequality -/
theorem logDet_le {n : ℕ} {A : Matrix (Fin n) (Fin n) ℝ} (hA : A.PosDef) : Real.log A.det ≤ ∑ i, Real.log (A i i) := by
  have hp : ∀ i, 0 < A i i := fun i => hA.diag_pos
  have hD : (diagonal fun i => A i i).PosDef := Matrix.posDef_diagonal_iff.2 hp
  have g := (gibbs hD hA).1
  have e : ((diagonal fun i => A i i)⁻¹ * A).trace = n := by
    have hi : (diagonal fun i => A i i)⁻¹ = diagonal fun i => (A i i)⁻¹ := by
      refine Matrix.inv_eq_right_inv ?_
      rw [Matrix.diagonal_mul_diagonal, ← Matrix.diagonal_one]
      congr 1
      funext i
      exact mul_inv_cancel₀ (hp i).ne'
    rw [hi]
    unfold Matrix.trace
    simp only [Matrix.diag_apply, Matrix.diagonal_mul]
    rw [Finset.sum_congr rfl fun i _ => inv_mul_cancel₀ (hp i).ne']
    simp
  rw [e, det_diagonal, Real.log_prod fun i _ => (hp i).ne'] at g
  linarith

theorem covMat_split {fk : FK} (hw : fk.WF) {Xs : List (Arr2 ℝ)} (hX : Xs.length = fk.D)
    (hk : ∀ q < fk.Q, fk.KernelPSD q) (hd : ∀ q < fk.Q, ∀ a < fk.D, 0 ≤ (fk.coregDiags.getD q []).getD a 0) :
    ∃ S, S.PosSemidef ∧ fk.covMat Xs = Matrix.diagonal (fk.noiseRows Xs) + S := by
  set lens := Xs.map Arr2.rows with hlens
  have hl : lens.length = fk.D := by rw [hlens, List.length_map, hX]
  let o : Fin lens.sum → Fin fk.D := fun r => ⟨ownerOf lens r, hl ▸ ownerOf_lt lens r r.2⟩
  let x : Fin lens.sum → ℕ → ℝ := fun r => pointOf Xs (ownerOf lens r) (innerIdx lens r)
  refine ⟨∑ q ∈ Finset.range fk.Q, ((fnMatrix fk.D fk.D (fk.B q)).submatrix o o).hadamard
        (Matrix.of fun i j => (fk.kernels.getD q (.identity none)).doc (distOn (fk.kdims q) (x i) (x j))), ?_, ?_⟩
  · refine Matrix.posSemidef_sum _ fun q hq => ?_
    exact ((B_psd hw (Finset.mem_range.1 hq) (hd q (Finset.mem_range.1 hq))).submatrix o).hadamard (hk q (Finset.mem_range.1 hq) _ _)
  · ext r s
    rw [Matrix.add_apply, Matrix.sum_apply, add_comm]
    unfold FK.covMat fnMatrix FK.fullCov
    simp only
    congr 1
    by_cases hrs : r = s
    · subst hrs
      rw [if_pos rfl, Matrix.diagonal_apply_eq]
      rfl
    · rw [if_neg (fun h => hrs (Fin.ext h)), Matrix.diagonal_apply_ne _ hrs]

theorem noiseLogDet_rows {m : LLGP} {P : ℕ} {a : LLGPArgs} (ok : m.OK P) (ha : m.MadeFrom P a) :
    ∑ s : Fin (m.gp.Xs.map Arr2.rows).sum, Real.log (m.fk.noiseRows m.gp.Xs s) = a.noiseLogDet m.fk.noise := by
  obtain ⟨r1, r2, r3⟩ := model_rows ok ha
  have hXl : (m.gp.Xs.map Arr2.rows).length = a.Xs.length := by rw [r2]; unfold queryLens; rw [List.length_map]
  rw [sum_rows_fin _ _ (fun d i => Real.log (m.fk.noise.getD d 0)) fun d hd i hi => by
    obtain ⟨hlt, q1, -⟩ := r3 d (by rw [← hXl]; exact hd) i (by rw [← r2]; exact hi)
    refine ⟨hlt, ?_⟩
    unfold FK.noiseRows
    simp only
    rw [q1]]
  rw [hXl, r2]
  unfold LLGPArgs.noiseLogDet
  simp

theorem freeLogDet_rows {m : LLGP} {P : ℕ} {a : LLGPArgs} (ok : m.OK P) (ha : m.MadeFrom P a) :
    ∑ s : Fin (m.gp.Xs.map Arr2.rows).sum, Real.log (m.fk.covMat m.gp.Xs s s) = a.freeLogDet P m.fk := by
  obtain ⟨r1, r2, r3⟩ := model_rows ok ha
  have hXl : (m.gp.Xs.map Arr2.rows).length = a.Xs.length := by rw [r2]; unfold queryLens; rw [List.length_map]
  rw [sum_rows_fin _ _ (fun d i => Real.log (m.fk.cov d d (queryPoint P a.Xs d i) (queryPoint P a.Xs d i) + m.fk.noise.getD d 0)) fun d hd i hi => by
    obtain ⟨hlt, q1, -, q3⟩ := r3 d (by rw [← hXl]; exact hd) i (by rw [← r2]; exact hi)
    refine ⟨hlt, ?_⟩
    show Real.log (m.fk.cov _ _ (rowPoint _ _) (rowPoint _ _) + if _ then _ else _) = _
    rw [if_pos rfl, q1, q3]]
  rw [hXl, r2]
  rfl

theorem quadratic_range {m : LLGP} {P : ℕ} (h : m.OK P) (hs : m.fk.Sound) (hn : ∀ ad ∈ m.fk.activeDims.map Prod.fst, ad.Nodup) (y : Fin (m.gp.Xs.map Arr2.rows).sum → ℝ) :
    0 ≤ y ⬝ᵥ (m.fk.skiMat m.axesOf m.fk.extraOf m.gp.Xs)⁻¹ *ᵥ y ∧ y ⬝ᵥ (m.fk.skiMat m.axesOf m.fk.extraOf m.gp.Xs)⁻¹ *ᵥ y ≤ ∑ i, y i ^ 2 / m.fk.noiseRows m.gp.Xs i := by
  have hp := h.ski_posDef hs hn
  have hν := noiseRows_pos h hs
  refine ⟨by have q := hp.inv.posSemidef.dotProduct_mulVec_nonneg y; rw [star_trivial] at q; exact q, ?_⟩
  refine (fit_exact (S := m.fk.skiClean m.axesOf m.fk.extraOf m.gp.Xs) (h.clean_psd hs hn) hν ?_).2
  rw [← skiMat_clean, Matrix.mulVec_mulVec, Matrix.mul_nonsing_inv _ ((Matrix.isUnit_iff_isUnit_det _).1 hp.isUnit), Matrix.one_mulVec]

/-- C116: `log_det_K()` is at least that of the noise alone and at most that of independent observations with the same variances, whatever the solvers do. -/
theorem C116_log_det (sv : Solvers) (hs : sv.Fit) (ops : List Op) (i : ℕ) (a : LLGPArgs) (m : LLGP) (h : Held sv ops i a m) (e : Env) (he : e.Works) :
    ∃ v, Tells sv ops i .logDet e (.extended (some v)) ∧ a.noiseLogDet m.fk.noise ≤ v ∧ v ≤ a.freeLogDet m.gp.inputDim m.fk := by
  obtain ⟨k, f1, f2, f3, f4, f5, f6, f7⟩ := h.facts hs
  obtain ⟨S, h1, h2⟩ := covMat_split f5.ready.wf f5.data.inputs.len f2.kernels f2.kappa
  refine ⟨_, (C104_answers sv hs ops i a m h e he).2.1, ?_, ?_⟩
  · rw [← noiseLogDet_rows f5 f1, h2]
    exact logDet_ge h1 (noiseRows_pos f5 f2)
  · rw [← freeLogDet_rows f5 f1]
    exact logDet_le (covMat_posDef f5.ready.wf f5.data.inputs.len f2.kernels f2.kappa f2.noise)

/-- C116: `normal_quadratic()` is between zero and the sum of the squared values relative to the noise. -/
theorem C116_quadratic (sv : Solvers) (hs : sv.Fit) (hx : sv.Exact) (ops : List Op) (i : ℕ) (a : LLGPArgs) (m : LLGP) (h : Held sv ops i a m)
    (hn : ∀ ad ∈ m.fk.activeDims.map Prod.fst, ad.Nodup) (e : Env) (he : e.Works) :
    ∃ v, Tells sv ops i .normalQuadratic e (.number v) ∧ 0 ≤ v ∧ v ≤ a.strengthOf m.fk.noise := by
  obtain ⟨k, f1, f2, f3, f4, f5, f6, f7⟩ := h.facts hs
  obtain ⟨q1, q2⟩ := quadratic_range f5 f2 hn (toVec (m.gp.Xs.map Arr2.rows).sum m.gp.Ys.flatten)
  rw [strength_rows f5 f1] at q2
  exact ⟨_, ((C104_answers sv hs ops i a m h e he).2.2 hx hn).1, q1, q2⟩

/-- C116: `log_likelihood()` is a number; it is at most the greatest log density that noise alone can have, and at least the one that independent observations with the same variances
would have if each value were divided by the standard deviation of the noise only. -/
theorem C116_log_likelihood (sv : Solvers) (hs : sv.Fit) (hx : sv.Exact) (ops : List Op) (i : ℕ) (a : LLGPArgs) (m : LLGP) (h : Held sv ops i a m)
    (hn : ∀ ad ∈ m.fk.activeDims.map Prod.fst, ad.Nodup) (e : Env) (he : e.Works) :
    ∃ v, Tells sv ops i .logLikelihood e (.extended (some v)) ∧ v ≤ -(1 / 2) * (a.noiseLogDet m.fk.noise + a.count * Real.log (2 * Real.pi)) ∧
      -(1 / 2) * (a.strengthOf m.fk.noise + a.freeLogDet m.gp.inputDim m.fk + a.count * Real.log (2 * Real.pi)) ≤ v := by
  obtain ⟨k, f1, f2, f3, f4, f5, f6, f7⟩ := h.facts hs
  obtain ⟨S, h1, h2⟩ := covMat_split f5.ready.wf f5.data.inputs.len f2.kernels f2.kappa
  have hc : ((m.gp.Xs.map Arr2.rows).sum : ℝ) = a.count := by rw [(model_rows f5 f1).2.1]; rfl
  obtain ⟨q1, q2⟩ := quadratic_range f5 f2 hn (toVec (m.gp.Xs.map Arr2.rows).sum m.gp.Ys.flatten)
  rw [strength_rows f5 f1] at q2
  have l1 : a.noiseLogDet m.fk.noise ≤ Real.log (m.fk.covMat m.gp.Xs).det := by
    rw [← noiseLogDet_rows f5 f1, h2]
    exact logDet_ge h1 (noiseRows_pos f5 f2)
  have l2 : Real.log (m.fk.covMat m.gp.Xs).det ≤ a.freeLogDet m.gp.inputDim m.fk := by
    rw [← freeLogDet_rows f5 f1]
    exact logDet_le (covMat_posDef f5.ready.wf f5.data.inputs.len f2.kernels f2.kappa f2.noise)
  refine ⟨_, tells_likelihood hs hx h hn he rfl rfl rfl, ?_, ?_⟩
  · rw [hc]
    linarith
  · rw [hc]
    linarith

/-- C116: with normalisation the bounds do not depend on the values: they are the same for all data sets with the same inputs. -/
theorem C116_normalised (sv : Solvers) (hs : sv.Fit) (hx : sv.Exact) (ops : List Op) (i : ℕ) (a : LLGPArgs) (m : LLGP) (h : Held sv ops i a m)
    (hn : ∀ ad ∈ m.fk.activeDims.map Prod.fst, ad.Nodup) (hno : a.normalize = true) (e : Env) (he : e.Works) :
    ∃ v, Tells sv ops i .logLikelihood e (.extended (some v)) ∧ v ≤ -(1 / 2) * (a.noiseLogDet m.fk.noise + a.count * Real.log (2 * Real.pi)) ∧
      -(1 / 2) * (∑ d ∈ Finset.range a.Xs.length, ((queryLens a.Xs).getD d 0 : ℝ) / m.fk.noise.getD d 0 + a.freeLogDet m.gp.inputDim m.fk + a.count * Real.log (2 * Real.pi)) ≤ v := by
  obtain ⟨k, f1, -⟩ := h.facts hs
  obtain ⟨v, v1, v2, v3⟩ := C116_log_likelihood sv hs hx ops i a m h hn e he
  rw [strength_normalised f1 hno] at v3
  exact ⟨v, v1, v2, v3⟩

/-- a model of two observations, 1 and 0, with noise 0.1: its log likelihood is at most 0.47 and a number whatever the program does with it -/
example : ∃ (a : LLGPArgs) (m : LLGP) (v : ℝ), a.Ys = [⟨[2], [1, 0]⟩] ∧ m.fk.noise = [0.1] ∧ Held exactSolvers [.new a quiet] 0 a m ∧
    Tells exactSolvers [.new a quiet] 0 .logLikelihood quiet (.extended (some v)) ∧ v ≤ -(Real.log 0.1 + Real.log (2 * Real.pi)) ∧
      -(1 / 2) * (10 + a.freeLogDet 1 m.fk + 2 * Real.log (2 * Real.pi)) ≤ v := by
  obtain ⟨fk, m₀, hd, hf, hi, ht⟩ := exists_tiny
  obtain ⟨m, hm, f⟩ := held_new exactSolvers_fit (by norm_num) hd (by norm_num [tinyArgs]) rfl hf ht.sound
  obtain ⟨κ, x1, x2, x3, x4, x5, -⟩ := hm.facts exactSolvers_fit
  have hP : m.gp.inputDim = 1 := same_inputDim ht.ok x5 f
  have hno : m.fk.noise = [0.1] := by rw [f, ht.noise]
  have hnd : ∀ ad ∈ m.fk.activeDims.map Prod.fst, ad.Nodup := by
    rw [f, ht.group]
    simp
  obtain ⟨v, v1, v2, v3⟩ := C116_log_likelihood exactSolvers exactSolvers_fit (fun _ _ _ tol h _ => exactSolvers_exact h tol) _ 0 _ m hm hnd quiet quiet_calm.1
  refine ⟨_, m, v, rfl, hno, hm, v1, ?_, ?_⟩
  · rw [hno] at v2
    have e1 : (tinyArgs fk).noiseLogDet [0.1] = 2 * Real.log 0.1 := by simp [LLGPArgs.noiseLogDet, tinyArgs, queryLens]
    have e2 : (tinyArgs fk).count = 2 := by simp [LLGPArgs.count, tinyArgs, queryLens]
    rw [e1, e2] at v2
    push_cast at v2
    linarith
  · rw [hno, hP] at v3
    have e1 : (tinyArgs fk).strengthOf [0.1] = 10 := by
      simp [LLGPArgs.strengthOf, tinyArgs, queryLens, LLGPArgs.level, LLGPArgs.value, LLGPArgs.scaleOf, LLGPArgs.centreOf, Finset.sum_range_succ]
      norm_num
    have e2 : (tinyArgs fk).count = 2 := by simp [LLGPArgs.count, tinyArgs, queryLens]
    rw [e1, e2] at v3
    exact_mod_cast v3

end Verif
