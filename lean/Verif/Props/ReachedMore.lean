import Verif.Props.Reached

/-! More of the theorems about single models, written out for every model that a documented program reaches (C84, C89, C94). -/

namespace Verif

open Matrix

/-- C84 for programs, with other observed points too: two programs that hold models with the same parameters, grids and prediction mode, which were given the same
observations of the outputs in `S`. The observed points and values of the other outputs, how many of them there are, and what else the programs did does not matter
for the predictions of the outputs in `S`. -/
theorem C84_program_points (sv : Solvers) (hs : sv.Fit) (hx : sv.Exact) (ops ops' : List Op) (i i' : ℕ) (a a' : LLGPArgs) (m m' : LLGP) (h : Held sv ops i a m)
    (h' : Held sv ops' i' a' m') (hn : ∀ ad ∈ m.fk.activeDims.map Prod.fst, ad.Nodup) (hfk : m'.fk = m.fk) (hm : a'.prediction = a.prediction) (hg : m'.axesOf = m.axesOf)
    (S : Finset ℕ) (hS : a.SameOn S a') (hu : m.fk.Uncoupled S) (Qs : List (NDArr ℝ)) (hQ : m.Accepts Qs) (e e' : Env) (he : e.Works) (he' : e'.Works) :
    (∃ x, Predicts sv ops i Qs e (.error x) ∧ Predicts sv ops' i' Qs e' (.error x)) ∨
    ∃ r r', Predicts sv ops i Qs e (.ok r) ∧ Predicts sv ops' i' Qs e' (.ok r') ∧
      ∀ d ∈ S, d < m.gp.outputDim → r'.1.getD d [] = r.1.getD d [] ∧ r'.2.getD d [] = r.2.getD d [] := by
  obtain ⟨k, f1, f2, f3, f4, f5, -, f7⟩ := h.facts hs
  obtain ⟨k', g1, -, g3, g4, g5, -, g7⟩ := h'.facts hs
  have hP := same_inputDim f5 g5 hfk
  have hQ' : m'.Accepts Qs := by unfold LLGP.Accepts; rw [hP, g3, hfk, ← f3]; exact hQ
  have ask' := g4 Qs hQ'
  rw [hP] at g1 ask'
  have F := f7 Qs e he
  have G := g7 Qs e' he'
  rcases C84_uncoupled sv hx _ Qs m m' k k' (f4 Qs hQ) ask' e e' he he' f2 hn hfk (held_prediction hs h h' hm) hg a a' f1 g1 S hS hu with ⟨x, x1, x2⟩ | ⟨r, r', r1, r2, r3⟩
  · exact .inl ⟨x, x1 ▸ F, x2 ▸ G⟩
  · refine .inr ⟨r, r', r1 ▸ F, r2 ▸ G, ?_⟩
    rw [f3]
    exact r3

/-- C89 for programs: when the solve of the last update of a model reported no failure, its means and its log likelihood are as close to those of exact solves as the
tolerance says, whatever the program did before. -/
theorem C89_program (sv : Solvers) (hs : sv.Fit) (ops : List Op) (i : ℕ) (a : LLGPArgs) (m : LLGP) (h : Held sv ops i a m) (hn : ∀ ad ∈ m.fk.activeDims.map Prod.fst, ad.Nodup)
    (ν : ℝ) (hν : m.fk.NoiseAtLeast ν) (hc : ∀ k, m.kernel = some k → Converged sv k.approx.K m.y m.tol) :
    (∀ (Qs : List (NDArr ℝ)) (e : Env) (r : Predicted), m.Accepts Qs → e.Works → Predicts sv ops i Qs e (.ok r) → ∀ d < m.gp.outputDim, ∀ j < (queryLens Qs).getD d 0,
      |(r.1.getD d []).getD j 0 -
          (m.fk.skiMean m.axesOf m.fk.extraOf m.gp.Xs m.gp.Ys d (queryPoint m.gp.inputDim Qs d j) * (normOf m.gp d).1 + (normOf m.gp d).2)| ≤
        Real.sqrt (m.fk.skiExplained m.axesOf m.fk.extraOf m.gp.Xs d (queryPoint m.gp.inputDim Qs d j)) * (m.tol / Real.sqrt ν) * |(normOf m.gp d).1|) ∧
    ∀ e e' : Env, e.Works → e'.Works →
      let q := toVec m.n m.y ⬝ᵥ (fnMatrix m.n m.n (m.fk.skiFull m.axesOf m.fk.extraOf m.gp.Xs))⁻¹ *ᵥ toVec m.n m.y
      ∃ v w, results sv (ops ++ [.ask i .normalQuadratic e]) = results sv ops ++ [.ok (.number v)] ∧ |v - q| ≤ Real.sqrt q * (m.tol / Real.sqrt ν) ∧
        results sv (ops ++ [.ask i .logLikelihood e']) = results sv ops ++ [.ok (.extended (some w))] ∧
        |w - -(1 / 2) * (Real.log (m.fk.covMat m.gp.Xs).det + q + m.n * Real.log (2 * Real.pi))| ≤ 1 / 2 * (Real.sqrt q * (m.tol / Real.sqrt ν)) := by
  obtain ⟨k, f1, f2, f3, f4, f5, f6, f7⟩ := h.facts hs
  refine ⟨fun Qs e r hQ he hr d hd j hj => ?_, ?_⟩
  · exact C89_mean sv m _ k Qs (f4 Qs hQ) f2 hn ν hν (hc k f6.kernel) e r (predicts_unique hr (f7 Qs e he)) d (by rw [← f3]; exact hd) j hj
  · intro e e' he he' q
    obtain ⟨v, l, w, c1, c2, c3, c4, c5⟩ := C89_log_likelihood sv hs m _ f5 k f6 f2 hn ν hν (hc k f6.kernel)
    refine ⟨v, w, ?_, c2, ?_, c5⟩
    · rw [(C48_answers sv ops (validFrom_works ops [] h.valid) i m h.model (by rw [f6.kernel]; simp) .normalQuadratic e he).1]
      show _ ++ [m.normalQuadratic.map _] = _
      rw [c1]
      rfl
    · rw [(C48_answers sv ops (validFrom_works ops [] h.valid) i m h.model (by rw [f6.kernel]; simp) .logLikelihood e' he').1]
      show results sv ops ++ [(do let l ← m.dense; m.logLikelihoodOf l).map .extended] = _
      rw [c3]
      show results sv ops ++ [(m.logLikelihoodOf l).map .extended] = _
      rw [c4]
      rfl

/-- C94 for programs: the variances of the mode `precompute` at points that the grids do not tell apart. -/
theorem C94_program_variance (sv : Solvers) (hs : sv.Fit) (ops : List Op) (i : ℕ) (a : LLGPArgs) (m : LLGP) (h : Held sv ops i a m) (hm : m.prediction = .precompute)
    (Qs Qs' : List (NDArr ℝ)) (hQ : m.Accepts Qs) (hQ' : m.Accepts Qs') (e e' : Env) (he : e.Works) (he' : e'.Works) (r r' : Predicted)
    (hr : Predicts sv ops i Qs e (.ok r)) (hr' : Predicts sv ops i Qs' e' (.ok r'))
    (d : ℕ) (hd : d < m.gp.outputDim) (j j' : ℕ) (hj : j < (queryLens Qs).getD d 0) (hj' : j' < (queryLens Qs').getD d 0)
    (hx : m.SeenAlike (queryPoint m.gp.inputDim Qs d j) (queryPoint m.gp.inputDim Qs' d j')) :
    (r.2.getD d []).getD j 0 = (r'.2.getD d []).getD j' 0 := by
  obtain ⟨k, f1, f2, f3, f4, f5, -, f7⟩ := h.facts hs
  refine C94_variance_constant sv m _ k Qs Qs' (f4 Qs hQ) (f4 Qs' hQ') e e' he he' hm r r' ?_ ?_ d (by rw [← f3]; exact hd) j j' hj hj' hx
  · exact predicts_unique hr (f7 Qs e he)
  · exact predicts_unique hr' (f7 Qs' e' he')

/-- C94 for programs: in the other modes the variances return to those of the prior, far from the observations. (With linear solves that are exact.) -/
theorem C94_program_reverts (sv : Solvers) (hs : sv.Fit) (hx : sv.Exact) (ops : List Op) (i : ℕ) (a : LLGPArgs) (m : LLGP) (h : Held sv ops i a m)
    (hn : ∀ ad ∈ m.fk.activeDims.map Prod.fst, ad.Nodup) (hp : ∀ k ∈ m.fk.kernels, k.aperiodic) (hm : m.prediction ≠ .precompute) (d : ℕ) (hd : d < m.gp.outputDim)
    (ε : ℝ) (hε : 0 < ε) :
    ∃ R, ∀ (Qs : List (NDArr ℝ)) (e : Env) (r : Predicted), m.Accepts Qs → e.Works → Predicts sv ops i Qs e (.ok r) →
      ∀ j < (queryLens Qs).getD d 0, (∀ q < m.fk.Q, ∀ s < m.n, R ≤ distOn (m.fk.kdims q) (queryPoint m.gp.inputDim Qs d j) (rowPoint m.gp.Xs s)) →
        |(r.2.getD d []).getD j 0 - (∑ q ∈ Finset.range m.fk.Q, m.fk.B q d d * (m.fk.kernels.getD q (.identity none)).doc 0 + m.fk.noise.getD d 0) * a.scaleOf d ^ 2| < ε := by
  obtain ⟨k, f1, f2, f3, f4, f5, f6, f7⟩ := h.facts hs
  obtain ⟨R, H⟩ := C94_variance_reverts sv hs m _ f5 k f6 f2 hp hm (fun _ => exact_of_current hs hx f5 f6 f2 hn _) d (by rw [← f3]; exact hd) ε hε
  refine ⟨R, fun Qs e r hQ he hr j hj hfar => ?_⟩
  have := H Qs e r (by rw [← f3]; exact hQ.1) hQ.2 he (predicts_unique hr (f7 Qs e he)) j hj hfar
  obtain ⟨fk, m0, hd0, hi0, e0, -⟩ := id f1
  rwa [((MadeFrom.scale f1).2.1 d (by rw [← (documented_fields hd0 hi0).2.1, ← e0]; exact hd)).1] at this

end Verif
