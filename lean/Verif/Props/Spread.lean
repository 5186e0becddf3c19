import Verif.Proofs.Spread
import Verif.Props.ApproxUnbiased

/-! C86: more probes make the stochastic derivatives more accurate. -/

namespace Verif

open Matrix

theorem meanSquare_probeValue {n N : ℕ} (hN : 0 < N) {A : Matrix (Fin n) (Fin n) ℝ} (hA : Aᵀ = A) (y : Fin n → ℝ) (B : ℕ → ℕ → ℝ) :
    average (fun z : Fin N → Fin n → Bool => (probeValue n N A y z B - average fun z => probeValue n N A y z B) ^ 2) = offDiagonal (A⁻¹ * fnMatrix n n B) / (8 * N) := by
  have hs : A⁻¹ᵀ = A⁻¹ := by rw [Matrix.transpose_nonsing_inv, hA]
  have hN' : (N : ℝ) ≠ 0 := by exact_mod_cast hN.ne'
  have h2 : (2 : ℝ) ^ (N * n) ≠ 0 := by positivity
  set M := A⁻¹ * fnMatrix n n B with hM
  set c := (A⁻¹ *ᵥ y) ⬝ᵥ fnMatrix n n B *ᵥ (A⁻¹ *ᵥ y) with hc
  have hv : ∀ z : Fin N → Fin n → Bool, probeValue n N A y z B = 1 / 2 * (c - M.trace) - (∑ x : Fin N × Fin n × Fin n, offAt M x * pairAt z x) / (2 * N) := by
    intro z
    unfold probeValue
    rw [hs, ← hM, ← hc, quadratic_trace]
    field_simp
    ring
  have h0 : ∑ z : Fin N → Fin n → Bool, ∑ x : Fin N × Fin n × Fin n, offAt M x * pairAt z x = 0 := by
    rw [Finset.sum_comm]
    refine Finset.sum_eq_zero fun x _ => ?_
    rw [← Finset.mul_sum]
    by_cases hd : x.2.1 = x.2.2
    · unfold offAt
      rw [if_pos hd, zero_mul]
    · have : ∑ z : Fin N → Fin n → Bool, pairAt z x = 0 := by
        have := sum_signs x.1 x.2.1 x.2.2
        rw [if_neg hd] at this
        exact this
      rw [this, mul_zero]
  have ha : average (fun z : Fin N → Fin n → Bool => probeValue n N A y z B) = 1 / 2 * (c - M.trace) := by
    unfold average
    rw [Finset.sum_congr rfl fun z _ => hv z, Finset.sum_sub_distrib, ← Finset.sum_div, h0, Finset.sum_const, card_tables]
    simp only [nsmul_eq_mul]
    push_cast
    field_simp
    ring
  rw [ha]
  unfold average
  have he : ∀ z : Fin N → Fin n → Bool, (probeValue n N A y z B - 1 / 2 * (c - M.trace)) ^ 2 = (∑ x : Fin N × Fin n × Fin n, offAt M x * pairAt z x) ^ 2 / (4 * N ^ 2) := by
    intro z
    rw [hv]
    field_simp
    ring
  rw [Finset.sum_congr rfl fun z _ => he z, ← Finset.sum_div, sum_square]
  field_simp
  ring

/-- C86: with exact solves, the stochastic derivative is off its average (the exact derivative, C38) by a mean square of `s / (8 trace_iterations)`, where
`s` measures only what `K⁻¹ dK` has outside its diagonal; so for every `ε` the chance of being off by `ε` or more is at most `s / (8 trace_iterations ε²)`,
which more probes make as small as wanted. -/
theorem C86_spread (sv : Solvers) (hs : sv.Fit) (s : DerivService) (hn : 0 < s.nIt) (metrics : Option Metrics) (K dK : MatObj) (n : ℕ)
    (A B : ℕ → ℕ → ℝ) (hK : SquareOp K n A) (hB : SquareOp dK n B) (y : List ℝ) (hy : y.length = n) (hp : s.pool.Works (s.nIt + 1))
    (hsymm : ∀ i < n, ∀ j < n, A i j = A j i) (hx : ExactSolves sv K n A s.tol) :
    ∃ val : (Fin s.nIt → Fin n → Bool) → ℝ,
      (∀ z, ∃ d m', s.generate sv metrics (tableBits z) K y = .ok (d, m') ∧ d.derivative dK = .ok (val z)) ∧
      average (fun z => (val z - average val) ^ 2) = offDiagonal ((fnMatrix n n A)⁻¹ * fnMatrix n n B) / (8 * s.nIt) ∧
      ∀ ε > 0, fraction (fun z => ε ≤ |val z - average val|) ≤ offDiagonal ((fnMatrix n n A)⁻¹ * fnMatrix n n B) / (8 * s.nIt * ε ^ 2) := by
  have hv : average (fun z => (probeValue n s.nIt (fnMatrix n n A) (toVec n y) z B - average fun z => probeValue n s.nIt (fnMatrix n n A) (toVec n y) z B) ^ 2) =
      offDiagonal ((fnMatrix n n A)⁻¹ * fnMatrix n n B) / (8 * s.nIt) := meanSquare_probeValue hn (by ext i j; exact hsymm j j.2 i i.2) _ _
  refine ⟨fun z => probeValue n s.nIt (fnMatrix n n A) (toVec n y) z B, fun z => estimate_value sv hs s hn metrics hK hB hy hp hx z, hv, fun ε hε => ?_⟩
  refine (fraction_le _ _ ε hε).trans_eq ?_
  rw [hv, div_div]

/-- `f z`, for the outcomes `z` of the probes, estimates the partial derivative of the log marginal likelihood along the path `g` of kernels, at `t`: its
average is the derivative, and its mean squared error is `s / (8 trace_iterations)` where `s` does not depend on the number of probes. -/
def Concentrates (m : LLGP) (g : ℝ → FK) (t : ℝ) (f : (Fin m.nIt → Fin m.n → Bool) → ℝ) : Prop :=
  HasDerivAt (fun u => (g u).skiLogLik m.axesOf m.fk.extraOf m.gp.Xs m.gp.Ys) (average f) t ∧
  ∃ dK : Matrix (Fin m.n) (Fin m.n) ℝ,
    (∀ r s : Fin m.n, HasDerivAt (fun u => (g u).skiFull m.axesOf m.fk.extraOf m.gp.Xs r s) (dK r s) t) ∧
    average (fun z => (f z - average f) ^ 2) = offDiagonal ((fnMatrix m.n m.n (m.fk.skiFull m.axesOf m.fk.extraOf m.gp.Xs))⁻¹ * dK) / (8 * m.nIt) ∧
    ∀ ε > 0, fraction (fun z => ε ≤ |f z - average f|) ≤ offDiagonal ((fnMatrix m.n m.n (m.fk.skiFull m.axesOf m.fk.extraOf m.gp.Xs))⁻¹ * dK) / (8 * m.nIt * ε ^ 2)

theorem concentrates_along {m : LLGP} (hn : 0 < m.nIt) (hp : (m.fk.skiMat m.axesOf m.fk.extraOf m.gp.Xs).PosDef) {g : ℝ → FK} {t : ℝ} {f : ℕ → ℕ → ℝ}
    (hf : m.Along m.fk.extraOf g t f) : Concentrates m g t fun z => m.probeAt z f := by
  have hT : (m.fk.skiMat m.axesOf m.fk.extraOf m.gp.Xs)ᵀ = m.fk.skiMat m.axesOf m.fk.extraOf m.gp.Xs := by
    have := hp.isHermitian
    rwa [Matrix.IsHermitian, Matrix.conjTranspose_eq_transpose_of_trivial] at this
  have hv : average (fun z => (m.probeAt z f - average fun z => m.probeAt z f) ^ 2) =
      offDiagonal ((fnMatrix m.n m.n (m.fk.skiFull m.axesOf m.fk.extraOf m.gp.Xs))⁻¹ * fnMatrix m.n m.n f) / (8 * m.nIt) :=
    meanSquare_probeValue (A := m.fk.skiMat m.axesOf m.fk.extraOf m.gp.Xs) hn hT (toVec m.n m.y) f
  refine ⟨avg_correct hn _ hp g t f hf, fnMatrix m.n m.n f, fun r s => (hf r r.2 s s.2).2, hv, fun ε hε => ?_⟩
  refine (fraction_le _ _ ε hε).trans_eq ?_
  rw [hv, div_div]

/-- C86, for the model: the gradients an update stores concentrate around the partial derivatives of the log marginal likelihood, in every parameter. -/
theorem C86_gradients (sv : Solvers) (hs : sv.Fit) (m : LLGP) (P : ℕ) (h : m.OK P) (hn : 0 < m.nIt) (hS : m.fk.Sound)
    (hd : ∀ ad ∈ m.fk.activeDims.map Prod.fst, ad.Nodup)
    (hx : ∀ K gks, genGridKernel m.fk m.dists m.interp m.lens = .ok (K, gks) → ExactSolves sv K m.n (m.fk.skiFull m.axesOf m.fk.extraOf m.gp.Xs) m.tol)
    (e : Env) (he : e.Works) (hi : e.interrupt = none) (useCache : Bool) (w : World) (i : ℕ) (hw : w.heap i = some m) :
    ∃ G : (Fin m.nIt → Fin m.n → Bool) → FKGrad,
      (∀ z, ∃ w' m', parametersChanged useCache sv { e with z := tableBits z } i w = (.ok (), w') ∧ w'.heap i = some m' ∧ m'.grad = some (G z)) ∧
      (∀ q < m.fk.Q, ∀ i < (m.fk.coregVecs.getD q ⟨0, 0, []⟩).rows, ∀ j < m.fk.D,
        Concentrates m (m.fk.setVec q i j) ((m.fk.coregVecs.getD q ⟨0, 0, []⟩).get i j) fun z => ((G z).vecs.getD q ⟨0, 0, []⟩).get i j) ∧
      (∀ q < m.fk.Q, ∀ i < m.fk.D, Concentrates m (m.fk.setDiag q i) ((m.fk.coregDiags.getD q []).getD i 0) fun z => ((G z).diags.getD q []).getD i 0) ∧
      (∀ q < m.fk.Q, ∀ j < (m.fk.kernels.getD q (.identity none)).params.length,
        Concentrates m (m.fk.setKern q j) ((m.fk.kernels.getD q (.identity none)).params.getD j 0) fun z => ((G z).kernels.getD q []).getD j 0) ∧
      (∀ i < m.fk.D, Concentrates m (m.fk.setNoise i) (m.fk.noise.getD i 0) fun z => (G z).noise.getD i 0) := by
  obtain ⟨fs, hf⟩ := exists_gradFns h
  have hp := h.ski_posDef hS hd
  refine ⟨m.probeGrad fs, update_probes sv hs m P h hn hS hd hx e he hi useCache w i hw fs hf, fun q hq i hi j hj => ?_, fun q hq i hi => ?_, fun q hq j hj => ?_,
    fun i hi => ?_⟩
  · obtain ⟨f, hf', he⟩ := probe_vec h fs hq hi hj
    rw [funext he]
    exact concentrates_along hn hp hf'
  · obtain ⟨f, hf', he⟩ := probe_diag h fs hq hi
    rw [funext he]
    exact concentrates_along hn hp hf'
  · obtain ⟨f, hf', he⟩ := probe_kern h hf hq hj
    rw [funext he]
    exact concentrates_along hn hp hf'
  · obtain ⟨f, hf', he⟩ := probe_noise h fs hi
    rw [funext he]
    exact concentrates_along hn hp hf'

/-- C86: enough probes make any error as unlikely as wanted -/
theorem C86_enough (s ε δ : ℝ) (hε : 0 < ε) (hδ : 0 < δ) : ∃ N0 : ℕ, ∀ N ≥ N0, s / (8 * N * ε ^ 2) ≤ δ := by
  obtain ⟨N0, h0⟩ := exists_nat_gt (|s| / (8 * ε ^ 2 * δ))
  refine ⟨N0, fun N hN => ?_⟩
  have h1 : |s| / (8 * ε ^ 2 * δ) < N := h0.trans_le (by exact_mod_cast hN)
  have hNp : (0 : ℝ) < N := lt_of_le_of_lt (by positivity) h1
  rw [div_lt_iff₀ (by positivity)] at h1
  rw [div_le_iff₀ (by positivity)]
  have := le_abs_self s
  nlinarith

/-- hypotheses of C86: an example in which the estimates do vary, and another of a whole model -/
example : ∃ K dK : MatObj, ∃ A B : ℕ → ℕ → ℝ, SquareOp K 2 A ∧ SquareOp dK 2 B ∧ (∀ i < 2, ∀ j < 2, A i j = A j i) ∧
    ExactSolves exactSolvers K 2 A 1e-4 ∧ exactSolvers.Fit ∧ (PoolArg.pool 2 [1, 0]).Works (3 + 1) ∧ offDiagonal ((fnMatrix 2 2 A)⁻¹ * fnMatrix 2 2 B) ≠ 0 := by
  obtain ⟨K, hK⟩ : ∃ K, identityNew 2 = .ok K := ⟨_, rfl⟩
  have h2 := identity_represents hK
  obtain ⟨dK, hdK, h1⟩ := isMatrix_numpy (A := ⟨2, 2, [2, 1, 1, 2]⟩) rfl (by norm_num) (by norm_num)
  refine ⟨K, dK, _, _, ⟨h2.2.2, h2.1, h2.2.1⟩, ⟨h1.represents, h1.rows, h1.cols⟩, fun i _ j _ => by simp only [eq_comm], exactSolvers_exact ⟨h2.2.2, h2.1, h2.2.1⟩ _, exactSolvers_fit, ?_, ?_⟩
  · intro size schedule h
    cases h
    refine ⟨by norm_num, ?_⟩
    simp [nchunks, List.range_succ]
    exact List.Perm.swap _ _ _
  · have : (fnMatrix 2 2 fun i j => if i = j then (1 : ℝ) else 0) = 1 := by
      ext i j
      fin_cases i <;> fin_cases j <;> simp [fnMatrix]
    rw [this]
    simp [offDiagonal, fnMatrix, Fin.sum_univ_two, Arr2.get]

example : ∃ (m : LLGP) (e : Env), m.OK 2 ∧ 0 < m.nIt ∧ m.fk.Sound ∧ (∀ ad ∈ m.fk.activeDims.map Prod.fst, ad.Nodup) ∧ exactSolvers.Fit ∧
    (∀ K gks, genGridKernel m.fk m.dists m.interp m.lens = .ok (K, gks) → ExactSolves exactSolvers K m.n (m.fk.skiFull m.axesOf m.fk.extraOf m.gp.Xs) m.tol) ∧
    e.Works ∧ e.interrupt = none ∧ m.fk.D = 2 := by
  obtain ⟨a, fk, m, -, hi, h1, -, h3, h4, ⟨-, -, -, htr⟩, g, hg, hg1⟩ := exists_model .exact true
  have hnIt : m.nIt = a.traceIterations := (init_fields hi).2.2.2.1
  refine ⟨m, ⟨fun _ _ => true, fun _ => .none, false, none⟩, h1, by rw [hnIt]; exact htr, h3, ?_, exactSolvers_fit, ?_, ?_, rfl, h4⟩
  · intro ad had
    rw [hg] at had
    simp only [List.map_cons, List.map_nil, List.mem_singleton] at had
    rw [had, hg1]
    exact List.nodup_range
  · intro K gks hK
    obtain ⟨K', gks', g1, g2, g3, g4, -⟩ := genGridKernel_model h1
    rw [g1] at hK
    cases hK
    exact exactSolvers_exact ⟨g4, g2, g3⟩ _
  · intro len size schedule hh
    cases hh

end Verif
