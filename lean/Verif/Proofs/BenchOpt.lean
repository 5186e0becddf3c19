import Verif.Proofs.BenchGrads
import Verif.Proofs.ApproxUnbiased
import Verif.Proofs.LLGPExample

/-! The two likelihoods of the benchmark program. -/

namespace Verif

open Matrix

theorem noIdentity_bench {kern : String} {k : Kern} (h : BenchKernel kern k) (ad : List ℕ) : (k.setActiveDims (some ad)).noIdentity := by
  obtain ⟨g, act, -, -, (⟨-, rfl⟩ | ⟨-, rfl⟩ | ⟨-, rfl⟩)⟩ := h <;> trivial

/-- the shape of a gradient -/
theorem gradOf_shape {fk : FK} {rr : ℕ} (hr : ∀ q < fk.Q, (fk.coregVecs.getD q ⟨0, 0, []⟩).rows = rr) {own : ℕ → ℕ} {kv : ℕ → (ℝ → ℝ) → ℕ → ℕ → ℝ} {fs : ℕ → List (ℝ → ℝ)}
    {Dv : (ℕ → ℕ → ℝ) → ℝ} (hl : ∀ q < fk.Q, (fs q).length = (fk.kernels.getD q (.identity none)).params.length) :
    ∃ f, GradShape fk rr f (gradOf fk own kv fs Dv) := by
  refine ⟨fun q i j => Dv fun r s => (dAdt fk.D ((fk.coregVecs.getD q ⟨0, 0, []⟩).row i) j).get (own r) (own s) * kv q (fk.kernels.getD q (.identity none)).doc r s, ?_, ?_, ?_, ?_⟩
  · unfold gradOf
    simp only
    unfold vmk
    refine List.map_congr_left fun q hq => ?_
    rw [hr q (List.mem_range.1 hq)]
  · unfold gradOf vmk
    simp [Function.comp_def]
  · unfold gradOf
    simp only
    unfold vmk
    rw [List.map_map]
    refine List.map_congr_left fun q hq => ?_
    simp only [Function.comp, List.length_map]
    exact hl q (List.mem_range.1 hq)
  · exact vmk_length _ _

theorem kinds_of_ops {δ : Type} {fk : FK} {P : ℕ} (h : fk.Ready P) {ops : LikOps δ} {own : ℕ → ℕ} {kv : ℕ → (ℝ → ℝ) → ℕ → ℕ → ℝ} {fs : ℕ → List (ℝ → ℝ)}
    {Dv : (ℕ → ℕ → ℝ) → ℝ} (ho : OpsFor ops fk own kv fs Dv) : gradKinds fk ops = [.ok (parts1 (gradOf fk own kv fs Dv).kernels), parts2 (gradOf fk own kv fs Dv).vecs,
      .ok (parts1 (gradOf fk own kv fs Dv).diags), .ok (parts1 [(gradOf fk own kv fs Dv).noise])] := by
  unfold gradKinds
  rw [ho.kerns h, ho.vecs h, ho.diags, ho.noises]
  rfl

/-- the gradient of the exact likelihood -/
theorem exact_true {fk : FK} {P : ℕ} (h : fk.Ready P) {Xs : List (Arr2 ℝ)} {Ys : List (List ℝ)} (hd : DataOK fk.D P Xs Ys) {l : ExactLMC} (hl : exactLMCNew fk Xs Ys = .ok l)
    {own : ℕ → ℕ} {kv : ℕ → (ℝ → ℝ) → ℕ → ℕ → ℝ} {fs : ℕ → List (ℝ → ℝ)} {Dv : (ℕ → ℕ → ℝ) → ℝ} (ho : OpsFor l.ops fk own kv fs Dv) :
    TrueGradient fk Xs Ys (gradOf fk own kv fs Dv) := by
  obtain ⟨G, g1, g2, g3, g4, g5⟩ := C37_update_gradient h hd hl
  rw [ho.updateGradient h] at g1
  cases g1
  refine ⟨vmk_length _ _, fun q hq => ?_, g2, ⟨vmk_length _ _, fun q hq => ?_⟩, g3, ⟨vmk_length _ _, fun q hq => ?_⟩, g4, vmk_length _ _, g5⟩
  · unfold gradOf
    simp only
    rw [vmk_getD_lt hq]
    exact ⟨Arr2.of_wf _ _ _, rfl, rfl⟩
  · unfold gradOf
    simp only
    rw [vmk_getD_lt hq, vmk_length]
  · unfold gradOf
    simp only
    rw [vmk_getD_lt hq, List.length_map]
    exact ho.len q hq

/-- the likelihood `ApproxLMCLikelihood(...)` builds from the data of a model is the one the model builds for itself -/
theorem approxLMC_model {sv : Solvers} (hs : sv.Fit) {m : LLGP} {P : ℕ} (h : m.OK P) {e : Env} (he : e.Works) {K : MatObj} {A : ℕ → ℕ → ℝ} (hK : SquareOp K m.n A) {pool : PoolArg}
    (hp : pool.Works (m.nIt + 1)) : ∃ l met, approxLMCNew sv m.fk K m.dists m.interp m.gp.Ys ⟨pool, m.nIt, m.tol⟩ none e.z = .ok (l, met) ∧ l.K = K ∧
      (∃ lg, iterativeSolve sv K m.y false true m.tol = .ok (.plain l.deriv.alpha, lg)) ∧ l.deriv.alpha.length = m.n ∧
      ∀ kd, approxFirst sv e m K = .ok kd → ∀ grads, m.fk.evalKernelGradients (m.dists.map fun kd => (kd.1, .arr kd.2)) = .ok grads →
        l = ⟨m.fk, m.y, m.lens, kd.1, K, kd.2.1, grads, m.interp⟩ := by
  obtain ⟨ks, d, x, a1, ⟨vals, a2, a2'⟩, a3, a4, a5, a6⟩ := approxFirst_ok hs he h hK
  obtain ⟨fs, hfs⟩ := exists_gradFns h
  obtain ⟨gr, a7⟩ : ∃ gr, m.fk.evalKernelGradients (m.dists.map fun kd => (kd.1, .arr kd.2)) = .ok gr := ⟨_, evalKernelGradients_model h hfs⟩
  have hYs : m.gp.Ys ≠ [] := by
    intro e0
    unfold approxFirst at a1
    rw [if_pos e0] at a1
    cases a1
  have hgen : (m.service e).generate sv m.metrics e.z K m.y = .ok (d, x) := by
    have := a1
    unfold approxFirst at this
    rw [if_neg hYs, a2, ok_bind, a2', ok_bind] at this
    simp only [bind_ok, pure_ok] at this
    obtain ⟨dx, h1, h2⟩ := this
    rw [h1]
    simp only [Prod.mk.injEq] at h2
    obtain ⟨-, h3, h4⟩ := h2
    rw [← h3, ← h4]
  have hsame := C39_same sv hs m.nIt m.tol pool (e.pool (m.nIt + 1)) none m.metrics e.z K m.n A hK m.y (y_length h) hp (he _)
  rw [show (⟨e.pool (m.nIt + 1), m.nIt, m.tol⟩ : DerivService) = m.service e from rfl, hgen] at hsame
  obtain ⟨d', met, b1, b2⟩ := C39_generate sv hs ⟨pool, m.nIt, m.tol⟩ none e.z K m.n A hK m.y (y_length h) hp
  rw [b1] at hsame
  simp only [Except.map, Except.ok.injEq] at hsame
  subst hsame
  refine ⟨⟨m.fk, m.y, m.lens, ks, K, d', gr, m.interp⟩, met, ?_, rfl, b2.alpha, a3, ?_⟩
  · unfold approxLMCNew
    rw [if_neg hYs, a2, ok_bind, a2', ok_bind]
    rw [show (⟨pool, m.nIt, m.tol⟩ : DerivService).generate sv none e.z K m.gp.Ys.flatten = _ from b1, ok_bind, a7]
    rfl
  · intro kd hkd grads hg
    rw [a1] at hkd
    cases hkd
    rw [a7] at hg
    cases hg
    rfl

namespace BenchBuilt

variable {a : BenchArgs} {r : BenchDraws} {c : String × ℕ × String} {b : BenchSetup}

theorem kernel (hb : BenchBuilt a r c b) {q : ℕ} (hq : q < b.fkern.Q) :
    ∃ k, BenchKernel c.1 k ∧ b.fkern.kernels.getD q (.identity none) = k.setActiveDims (some [0]) := by
  obtain ⟨ks, k2, k3, k4, f1, g, g3, g4⟩ := hb.fk
  have hq' : q < b.fkern.kernels.length := hq
  rw [g4, List.length_map] at hq'
  refine ⟨ks.getD q (.identity none), k3 _ (getD_mem_of_lt hq' _), ?_⟩
  rw [g4, map_getD_lt hq' _ _ (.identity none)]

/-- the parameters of the benchmark are valid -/
theorem sound (hu : r.Usual a) (hb : BenchBuilt a r c b) (h : b.fkern.Ready 1) : b.fkern.Sound := by
  have hQ := hb.Q
  have hD := hb.D
  refine ⟨fun q hq => C36_kernels_psd b.fkern 1 h q hq (.inr ⟨0, ?_⟩), fun k hk => ?_, fun q hq i hi => ?_, fun i hi => ?_⟩
  · obtain ⟨k, hk, e⟩ := hb.kernel hq
    unfold FK.kdims
    rw [e]
    obtain ⟨g, act, -, -, (⟨-, rfl⟩ | ⟨-, rfl⟩ | ⟨-, rfl⟩)⟩ := hk <;> rfl
  · obtain ⟨q, hq, rfl⟩ := List.getElem_of_mem hk
    obtain ⟨k, hk, e⟩ := hb.kernel (q := q) hq
    rw [← List.getD_eq_getElem _ (.identity none) hq, e]
    exact noIdentity_bench hk _
  · rw [hQ] at hq
    rw [hD] at hi
    rw [hb.diags, vmk_getD_lt hq, vmk_getD_lt hi]
    exact (inv_pos.2 (hu.diags q hq i hi)).le
  · rw [hD] at hi
    rw [hb.noise, vmk_getD_lt hi]
    exact inv_pos.2 (hu.noise i hi)

theorem rows (hb : BenchBuilt a r c b) {q : ℕ} (hq : q < b.fkern.Q) : (b.fkern.coregVecs.getD q ⟨0, 0, []⟩).rows = a.rq.toNat := by
  rw [hb.Q] at hq
  rw [hb.vecs, vmk_getD_lt hq]
  rfl

end BenchBuilt

end Verif
