import Verif.Proofs.ApproxUnbiased
import Verif.Proofs.LLGPValid
import Verif.Proofs.LLGPExample

/-! C67: the gradients of the interpolated model are unbiased. -/

namespace Verif

open Matrix

/-- `G z` are gradients whose averages over all probes `z` are the partial derivatives of the log marginal likelihood with the SKI covariance -/
structure Unbiased (m : LLGP) (extra : List ℕ × List ℕ → ℝ) (G : (Fin m.nIt → Fin m.n → Bool) → FKGrad) : Prop where
  vecs : ∀ q < m.fk.Q, ∀ i < (m.fk.coregVecs.getD q ⟨0, 0, []⟩).rows, ∀ j < m.fk.D,
    HasDerivAt (fun u => (m.fk.setVec q i j u).skiLogLik m.axesOf extra m.gp.Xs m.gp.Ys)
      ((∑ z, ((G z).vecs.getD q ⟨0, 0, []⟩).get i j) / 2 ^ (m.nIt * m.n)) ((m.fk.coregVecs.getD q ⟨0, 0, []⟩).get i j)
  diags : ∀ q < m.fk.Q, ∀ i < m.fk.D,
    HasDerivAt (fun u => (m.fk.setDiag q i u).skiLogLik m.axesOf extra m.gp.Xs m.gp.Ys)
      ((∑ z, ((G z).diags.getD q []).getD i 0) / 2 ^ (m.nIt * m.n)) ((m.fk.coregDiags.getD q []).getD i 0)
  kernels : ∀ q < m.fk.Q, ∀ j < (m.fk.kernels.getD q (.identity none)).params.length,
    HasDerivAt (fun u => (m.fk.setKern q j u).skiLogLik m.axesOf extra m.gp.Xs m.gp.Ys)
      ((∑ z, ((G z).kernels.getD q []).getD j 0) / 2 ^ (m.nIt * m.n)) ((m.fk.kernels.getD q (.identity none)).params.getD j 0)
  noise : ∀ i < m.fk.D,
    HasDerivAt (fun u => (m.fk.setNoise i u).skiLogLik m.axesOf extra m.gp.Xs m.gp.Ys)
      ((∑ z, (G z).noise.getD i 0) / 2 ^ (m.nIt * m.n)) (m.fk.noise.getD i 0)

/-- the gradients that an update stores for each outcome of the probes -/
theorem update_probes (sv : Solvers) (hs : sv.Fit) (m : LLGP) (P : ℕ) (h : m.OK P) (hn : 0 < m.nIt) (hS : m.fk.Sound)
    (hd : ∀ ad ∈ m.fk.activeDims.map Prod.fst, ad.Nodup)
    (hx : ∀ K gks, genGridKernel m.fk m.dists m.interp m.lens = .ok (K, gks) → ExactSolves sv K m.n (m.fk.skiFull m.axesOf m.fk.extraOf m.gp.Xs) m.tol)
    (e : Env) (he : e.Works) (hi : e.interrupt = none) (useCache : Bool) (w : World) (i : ℕ) (hw : w.heap i = some m) (fs : ℕ → List (ℝ → ℝ)) (hf : GradFns m fs)
    (z : Fin m.nIt → Fin m.n → Bool) :
    ∃ w' m', parametersChanged useCache sv { e with z := tableBits z } i w = (.ok (), w') ∧ w'.heap i = some m' ∧ m'.grad = some (m.probeGrad fs z) := by
  obtain ⟨w', hw'⟩ := update_completes (e := { e with z := tableBits z }) hs he hi h hn (fun _ => sound_posDef h hS) hw useCache
  obtain ⟨m', Kg, kd, grads, G, u1, u2, u3, u4, u5, u6⟩ := update_grad sv useCache _ hw hw'
  refine ⟨w', m', hw', u1, ?_⟩
  rw [u6]
  obtain ⟨K, gks, g1, g2, g3, g4, -⟩ := genGridKernel_model h
  rw [g1] at u2
  cases u2
  have hK : SquareOp K m.n (m.fk.skiFull m.axesOf m.fk.extraOf m.gp.Xs) := ⟨g4, g2, g3⟩
  have hD := derivative_probe h hn hs (e := { e with z := tableBits z }) he hK (hx _ _ g1) z rfl u3
  have hv : ∃ vals, m.fk.evalKernels (m.dists.map fun kd => (kd.1, .arr kd.2)) = .ok vals ∧ mapExcept kvalBttb vals = .ok kd.1 := by
    have ha := u3
    unfold approxFirst at ha
    split_ifs at ha
    simp only [bind_ok, pure_ok] at ha
    obtain ⟨vals, v1, ks, v2, d, -, rfl⟩ := ha
    exact ⟨vals, v1, v2⟩
  have hl : ApproxOf m fs ⟨m.fk, m.y, m.lens, kd.1, K, kd.2.1, grads, m.interp⟩ := ⟨rfl, rfl, rfl, hv, u4⟩
  have ho := (approx_opsFor h hf hl hD).updateGradient h.ready
  rw [ho] at u5
  cases u5
  rfl

/-- C67: with exact linear solves, an update of a model with sound parameters completes for every outcome of the probes, and the gradients it stores
average over all equally likely outcomes to the partial derivatives of the log marginal likelihood of the interpolated covariance the model uses, in
every parameter. -/
theorem C67_unbiased (sv : Solvers) (hs : sv.Fit) (m : LLGP) (P : ℕ) (h : m.OK P) (hn : 0 < m.nIt) (hS : m.fk.Sound)
    (hd : ∀ ad ∈ m.fk.activeDims.map Prod.fst, ad.Nodup)
    (hx : ∀ K gks, genGridKernel m.fk m.dists m.interp m.lens = .ok (K, gks) → ExactSolves sv K m.n (m.fk.skiFull m.axesOf m.fk.extraOf m.gp.Xs) m.tol)
    (e : Env) (he : e.Works) (hi : e.interrupt = none) (useCache : Bool) (w : World) (i : ℕ) (hw : w.heap i = some m) :
    ∃ G : (Fin m.nIt → Fin m.n → Bool) → FKGrad,
      (∀ z, ∃ w' m', parametersChanged useCache sv { e with z := tableBits z } i w = (.ok (), w') ∧ w'.heap i = some m' ∧ m'.grad = some (G z)) ∧
      Unbiased m m.fk.extraOf G := by
  obtain ⟨fs, hf⟩ := exists_gradFns h
  have hp := h.ski_posDef hS hd
  exact ⟨m.probeGrad fs, update_probes sv hs m P h hn hS hd hx e he hi useCache w i hw fs hf, fun q hq i hi j hj => avg_vec h hn hp fs hq hi hj, fun q hq i hi => avg_diag h hn hp fs hq hi,
    fun q hq j hj => avg_kern h hn hp hf hq hj, fun i hi => avg_noise h hn hp fs hi⟩

theorem skiLogLik_congr (fk : FK) {extra extra' : List ℕ × List ℕ → ℝ} (h : ∀ g ∈ fk.activeDims, extra g = extra' g) (axes : List ℕ → List (List ℝ)) (Xs : List (Arr2 ℝ))
    (Ys : List (List ℝ)) : fk.skiLogLik axes extra Xs Ys = fk.skiLogLik axes extra' Xs Ys := by
  have : fk.skiFull axes extra Xs = fk.skiFull axes extra' Xs := by
    funext r s
    unfold FK.skiFull FK.skiCov
    simp only
    congr 1
    exact congrArg List.sum (List.map_congr_left fun g hg => by rw [h g hg])
  unfold FK.skiLogLik
  rw [this]

/-- C67, for the documented covariance: this is the one the model uses when no group of kernels is affected by C33. -/
theorem C67_documented (m : LLGP) (h : ∀ g ∈ m.fk.activeDims, ¬ Spoiled m.fk g) (G : (Fin m.nIt → Fin m.n → Bool) → FKGrad) (hG : Unbiased m m.fk.extraOf G) :
    Unbiased m noExtra G := by
  have hc : ∀ fk' : FK, fk'.activeDims = m.fk.activeDims → fk'.skiLogLik m.axesOf m.fk.extraOf m.gp.Xs m.gp.Ys = fk'.skiLogLik m.axesOf noExtra m.gp.Xs m.gp.Ys := by
    intro fk' ha
    refine skiLogLik_congr fk' (fun g hg => ?_) _ _ _
    unfold FK.extraOf noExtra
    rw [if_neg (h g (ha ▸ hg))]
  refine ⟨fun q hq i hi j hj => ?_, fun q hq i hi => ?_, fun q hq j hj => ?_, fun i hi => ?_⟩
  · have := hG.vecs q hq i hi j hj
    simp only [fun u => hc (m.fk.setVec q i j u) rfl] at this
    exact this
  · have := hG.diags q hq i hi
    simp only [fun u => hc (m.fk.setDiag q i u) rfl] at this
    exact this
  · have := hG.kernels q hq j hj
    simp only [fun u => hc (m.fk.setKern q j u) rfl] at this
    exact this
  · have := hG.noise i hi
    simp only [fun u => hc (m.fk.setNoise i u) rfl] at this
    exact this

/-- hypotheses of C67: a model of two correlated outputs and two kernels, with solvers that solve exactly -/
example : ∃ (m : LLGP) (e : Env), m.OK 2 ∧ 0 < m.nIt ∧ m.fk.Sound ∧ (∀ ad ∈ m.fk.activeDims.map Prod.fst, ad.Nodup) ∧ exactSolvers.Fit ∧
    (∀ K gks, genGridKernel m.fk m.dists m.interp m.lens = .ok (K, gks) → ExactSolves exactSolvers K m.n (m.fk.skiFull m.axesOf m.fk.extraOf m.gp.Xs) m.tol) ∧
    e.Works ∧ e.interrupt = none ∧ m.fk.D = 2 := by
  obtain ⟨a, fk, m, -, hi, h1, -, h3, h4, ⟨-, -, -, htr⟩, g, hg, hg1⟩ := exists_model .exact true
  have hnIt : m.nIt = a.traceIterations := (init_fields hi).2.2.2.1
  refine ⟨m, ⟨fun _ _ => true, fun _ => .none, false, none⟩, h1, by rw [hnIt]; exact htr, h3, ?_, exactSolvers_fit, ?_, ?_, rfl, h4⟩
  · intro ad had
    rw [hg] at had
    simp only [List.map_cons, List.map_nil, List.mem_singleton] at had
    rw [had, hg1]
    exact List.nodup_range
  · intro K gks hK
    obtain ⟨K', gks', g1, g2, g3, g4, -⟩ := genGridKernel_model h1
    rw [g1] at hK
    cases hK
    exact exactSolvers_exact ⟨g4, g2, g3⟩ _
  · intro len size schedule hh
    cases hh

end Verif
