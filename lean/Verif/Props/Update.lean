import Verif.Proofs.Update
import Verif.Props.ProperScore
import Verif.Props.Repeated
import Mathlib.Probability.Distributions.Gaussian.Real

/-! C117: what one more observation changes. -/

namespace Verif

open Matrix

/-- the means that a model without normalisation predicts -/
theorem plain_mean {sv : Solvers} (hs : sv.Fit) (hx : sv.Exact) {ops : List Op} {i : ℕ} {a : LLGPArgs} {m : LLGP} (h : Held sv ops i a m) (hn : ∀ ad ∈ m.fk.activeDims.map Prod.fst, ad.Nodup)
    (hno : a.normalize = false) {Qs : List (NDArr ℝ)} (hQ : m.Accepts Qs) {e : Env} (he : e.Works) {r : Predicted} (hr : Predicts sv ops i Qs e (.ok r)) :
    ∀ d < m.gp.outputDim, ∀ j < (queryLens Qs).getD d 0,
      (r.1.getD d []).getD j 0 = m.fk.skiMean m.axesOf m.fk.extraOf m.gp.Xs m.gp.Ys d (queryPoint m.gp.inputDim Qs d j) := by
  obtain ⟨k, f1, f2, f3, f4, f5, -, f7⟩ := h.facts hs
  have hp := predicts_unique hr (f7 Qs e he)
  rcases predict_same hx ⟨f5, f5, rfl, rfl, rfl, rfl⟩ (f4 Qs hQ) (f4 Qs hQ) f2 hn he he with ⟨x, x1, -⟩ | ⟨r', -, v, r1, -, r3, -⟩
  · rw [hp] at x1
    cases x1
  · rw [hp] at r1
    cases r1
    intro d hd j hj
    rw [f3] at hd
    obtain ⟨n1, -⟩ := (MadeFrom.scale f1).2.1 d (by rw [← made_D f1 f5]; exact hd)
    rw [(r3.entry d hd j hj).1, n1]
    unfold LLGPArgs.scaleOf LLGPArgs.centreOf
    rw [hno]
    simp

theorem skiMean_congr {m : LLGP} {P : ℕ} (h : m.OK P) {x x' : ℕ → ℝ} (hx : ∀ c < P, x c = x' c) (d : ℕ) :
    m.fk.skiMean m.axesOf m.fk.extraOf m.gp.Xs m.gp.Ys d x = m.fk.skiMean m.axesOf m.fk.extraOf m.gp.Xs m.gp.Ys d x' := by
  have : m.fk.skiCross m.axesOf m.fk.extraOf m.gp.Xs d x = m.fk.skiCross m.axesOf m.fk.extraOf m.gp.Xs d x' := funext fun s => skiCov_eq h hx (fun _ _ => rfl) _ _ _
  unfold FK.skiMean
  rw [this]

theorem skiLeft_congr {m : LLGP} {P : ℕ} (h : m.OK P) {x x' : ℕ → ℝ} (hx : ∀ c < P, x c = x' c) (d d' : ℕ) (z : ℕ → ℝ) :
    m.fk.skiLeft m.axesOf m.fk.extraOf m.gp.Xs d x d' z = m.fk.skiLeft m.axesOf m.fk.extraOf m.gp.Xs d x' d' z := by
  have : m.fk.skiCross m.axesOf m.fk.extraOf m.gp.Xs d x = m.fk.skiCross m.axesOf m.fk.extraOf m.gp.Xs d x' := funext fun s => skiCov_eq h hx (fun _ _ => rfl) _ _ _
  unfold FK.skiLeft
  rw [this, skiCov_eq h hx (fun _ _ => rfl) _ _ _]

theorem condVar_congr {m : LLGP} {P : ℕ} (h : m.OK P) {x x' : ℕ → ℝ} (hx : ∀ c < P, x c = x' c) (d : ℕ) : m.fk.condVar m.gp.Xs d x = m.fk.condVar m.gp.Xs d x' := by
  have : m.fk.crossCov m.gp.Xs d x = m.fk.crossCov m.gp.Xs d x' := funext fun s => cov_congr h.ready hx (fun _ _ => rfl)
  unfold FK.condVar FK.priorVar
  rw [this, cov_congr h.ready hx hx]

theorem covLeft_congr {m : LLGP} {P : ℕ} (h : m.OK P) {x x' : ℕ → ℝ} (hx : ∀ c < P, x c = x' c) (d d' : ℕ) (z : ℕ → ℝ) : m.fk.covLeft m.gp.Xs d x d' z = m.fk.covLeft m.gp.Xs d x' d' z := by
  have : m.fk.crossCov m.gp.Xs d x = m.fk.crossCov m.gp.Xs d x' := funext fun s => cov_congr h.ready hx (fun _ _ => rfl)
  unfold FK.covLeft
  rw [this, cov_congr h.ready hx (fun _ _ => rfl)]

/-- two models one of which has one more observation -/
theorem held_adds {sv : Solvers} (hs : sv.Fit) {ops ops' : List Op} {i i' : ℕ} {a a' : LLGPArgs} {m m' : LLGP} (h : Held sv ops i a m) (h' : Held sv ops' i' a' m') (hfk : m'.fk = m.fk)
    {d₀ : ℕ} {x₀ : ℕ → ℝ} {y₀ : ℝ} (hv : a.Adds m.gp.inputDim d₀ x₀ y₀ a') :
    m'.gp.inputDim = m.gp.inputDim ∧ m'.gp.outputDim = m.gp.outputDim ∧ d₀ < m.gp.outputDim ∧ m.OK m.gp.inputDim ∧ m'.OK m.gp.inputDim ∧ m.fk.Sound ∧ m'.axesOf = m.axesOf ∧
      a'.normalize = false ∧ ∃ ι s, NewRow m.gp.inputDim m m' d₀ x₀ y₀ ι s := by
  obtain ⟨k, f1, f2, f3, f4, f5, -, f7⟩ := h.facts hs
  obtain ⟨k', g1, -, g3, g4, g5, -, g7⟩ := h'.facts hs
  have hP := same_inputDim f5 g5 hfk
  rw [hP] at g1 g5
  exact ⟨hP, by rw [f3, g3, hfk], by rw [f3, made_D f1 f5]; exact hv.output, f5, g5, f2, made_same_axes f1 g1 f5 g5 (by rw [hfk]) fun c hc L H n hr => adds_range hv hc hr,
    hv.options.1.trans hv.plain, adds_rows hv f1 g1 f5 g5⟩

/-- C117: of two models with the same parameters where one has one more observation, every predicted mean of the larger one is that of the smaller one plus a gain times the difference
of the new value from its prediction. The gain is what is left of the covariance with the new observation over what is left of its variance plus the noise. This holds whatever the
programs did before and in every prediction mode in which both predict. -/
theorem C117_means (sv : Solvers) (hs : sv.Fit) (hx : sv.Exact) (ops ops' : List Op) (i i' : ℕ) (a a' : LLGPArgs) (m m' : LLGP) (h : Held sv ops i a m) (h' : Held sv ops' i' a' m')
    (hn : ∀ ad ∈ m.fk.activeDims.map Prod.fst, ad.Nodup) (hfk : m'.fk = m.fk) (d₀ : ℕ) (x₀ : ℕ → ℝ) (y₀ : ℝ) (hv : a.Adds m.gp.inputDim d₀ x₀ y₀ a') (Qs : List (NDArr ℝ))
    (hQ : m.Accepts Qs) (e e' : Env) (he : e.Works) (he' : e'.Works) (r r' : Predicted) (hr : Predicts sv ops i Qs e (.ok r)) (hr' : Predicts sv ops' i' Qs e' (.ok r')) (j₀ : ℕ)
    (hj₀ : j₀ < (queryLens Qs).getD d₀ 0) (hq : ∀ c < m.gp.inputDim, queryPoint m.gp.inputDim Qs d₀ j₀ c = x₀ c) :
    0 ≤ m.fk.skiLeft m.axesOf m.fk.extraOf m.gp.Xs d₀ x₀ d₀ x₀ ∧ 0 < m.fk.noise.getD d₀ 0 ∧ ∀ d < m.gp.outputDim, ∀ j < (queryLens Qs).getD d 0,
      (r'.1.getD d []).getD j 0 = (r.1.getD d []).getD j 0 +
        m.fk.skiLeft m.axesOf m.fk.extraOf m.gp.Xs d (queryPoint m.gp.inputDim Qs d j) d₀ x₀ / (m.fk.skiLeft m.axesOf m.fk.extraOf m.gp.Xs d₀ x₀ d₀ x₀ + m.fk.noise.getD d₀ 0) *
          (y₀ - (r.1.getD d₀ []).getD j₀ 0) := by
  obtain ⟨hP, hD, hd₀, f5, g5, f2, hax, hno', ι, s, R⟩ := held_adds hs h h' hfk hv
  have hDD : m.gp.outputDim = m.fk.D := by
    obtain ⟨-, -, -, f3, -⟩ := h.facts hs
    exact f3
  have hQ' : m'.Accepts Qs := by unfold LLGP.Accepts; rw [hP, hD]; exact hQ
  have M := plain_mean hs hx h hn hv.plain hQ he hr
  have M' := plain_mean hs hx h' (by rw [hfk]; exact hn) hno' hQ' he' hr'
  have hd₀' : d₀ < m.fk.D := by rw [← hDD]; exact hd₀
  refine ⟨skiLeft_nonneg f5 f2 hn hd₀' x₀, f2.noise d₀ hd₀', fun d hd j hj => ?_⟩
  rw [M' d (by rw [hD]; exact hd) j hj, M d hd j hj, M d₀ hd₀ j₀ hj₀, hP, (R.mean f5 g5 hfk hax f2 hn d _).2.1, skiMean_congr f5 hq]

/-- C117: where the new observation was made, the new prediction is between the old one and the observed value: some part of the way, less than all of it. -/
theorem C117_at_point (sv : Solvers) (hs : sv.Fit) (hx : sv.Exact) (ops ops' : List Op) (i i' : ℕ) (a a' : LLGPArgs) (m m' : LLGP) (h : Held sv ops i a m) (h' : Held sv ops' i' a' m')
    (hn : ∀ ad ∈ m.fk.activeDims.map Prod.fst, ad.Nodup) (hfk : m'.fk = m.fk) (d₀ : ℕ) (x₀ : ℕ → ℝ) (y₀ : ℝ) (hv : a.Adds m.gp.inputDim d₀ x₀ y₀ a') (Qs : List (NDArr ℝ))
    (hQ : m.Accepts Qs) (e e' : Env) (he : e.Works) (he' : e'.Works) (r r' : Predicted) (hr : Predicts sv ops i Qs e (.ok r)) (hr' : Predicts sv ops' i' Qs e' (.ok r')) (j₀ : ℕ)
    (hj₀ : j₀ < (queryLens Qs).getD d₀ 0) (hq : ∀ c < m.gp.inputDim, queryPoint m.gp.inputDim Qs d₀ j₀ c = x₀ c) :
    ∃ w : ℝ, 0 ≤ w ∧ w < 1 ∧ (r'.1.getD d₀ []).getD j₀ 0 = (1 - w) * (r.1.getD d₀ []).getD j₀ 0 + w * y₀ := by
  obtain ⟨-, -, hd₀, f5, -⟩ := held_adds hs h h' hfk hv
  obtain ⟨v0, n0, H⟩ := C117_means sv hs hx ops ops' i i' a a' m m' h h' hn hfk d₀ x₀ y₀ hv Qs hQ e e' he he' r r' hr hr' j₀ hj₀ hq
  have := H d₀ hd₀ j₀ hj₀
  rw [skiLeft_congr f5 hq] at this
  have hp := add_pos_of_nonneg_of_pos v0 n0
  refine ⟨_, div_nonneg v0 hp.le, (div_lt_one hp).2 (by linarith), ?_⟩
  rw [this]
  ring

/-- C117: an observation that is exactly what was predicted changes no predicted mean, of no output. -/
theorem C117_unsurprised (sv : Solvers) (hs : sv.Fit) (hx : sv.Exact) (ops ops' : List Op) (i i' : ℕ) (a a' : LLGPArgs) (m m' : LLGP) (h : Held sv ops i a m) (h' : Held sv ops' i' a' m')
    (hn : ∀ ad ∈ m.fk.activeDims.map Prod.fst, ad.Nodup) (hfk : m'.fk = m.fk) (d₀ : ℕ) (x₀ : ℕ → ℝ) (y₀ : ℝ) (hv : a.Adds m.gp.inputDim d₀ x₀ y₀ a') (Qs : List (NDArr ℝ))
    (hQ : m.Accepts Qs) (e e' : Env) (he : e.Works) (he' : e'.Works) (r r' : Predicted) (hr : Predicts sv ops i Qs e (.ok r)) (hr' : Predicts sv ops' i' Qs e' (.ok r')) (j₀ : ℕ)
    (hj₀ : j₀ < (queryLens Qs).getD d₀ 0) (hq : ∀ c < m.gp.inputDim, queryPoint m.gp.inputDim Qs d₀ j₀ c = x₀ c) (hy : y₀ = (r.1.getD d₀ []).getD j₀ 0) :
    ∀ d < m.gp.outputDim, ∀ j < (queryLens Qs).getD d 0, (r'.1.getD d []).getD j 0 = (r.1.getD d []).getD j 0 := by
  intro d hd j hj
  rw [(C117_means sv hs hx ops ops' i i' a a' m m' h h' hn hfk d₀ x₀ y₀ hv Qs hQ e e' he he' r r' hr hr' j₀ hj₀ hq).2.2 d hd j hj, hy, sub_self, mul_zero, add_zero]

/-- C117: in `'exact'` mode, a new observation reduces every variance by the square of what is left of the covariance with it over its predicted variance. Where it was made, a
variance `s` becomes `2 ν - ν² / s`, with the noise `ν`. And `log_det_K()` grows by the logarithm of the variance that was predicted for it. No solver matters. -/
theorem C117_exact (sv : Solvers) (hs : sv.Fit) (ops ops' : List Op) (i i' : ℕ) (a a' : LLGPArgs) (m m' : LLGP) (h : Held sv ops i a m) (h' : Held sv ops' i' a' m')
    (hfk : m'.fk = m.fk) (hmode : a.prediction = "exact") (d₀ : ℕ) (x₀ : ℕ → ℝ) (y₀ : ℝ) (hv : a.Adds m.gp.inputDim d₀ x₀ y₀ a') (Qs : List (NDArr ℝ)) (hQ : m.Accepts Qs)
    (e e' : Env) (he : e.Works) (he' : e'.Works) (j₀ : ℕ) (hj₀ : j₀ < (queryLens Qs).getD d₀ 0) (hq : ∀ c < m.gp.inputDim, queryPoint m.gp.inputDim Qs d₀ j₀ c = x₀ c) :
    ∃ r r' v, Predicts sv ops i Qs e (.ok r) ∧ Predicts sv ops' i' Qs e' (.ok r') ∧
      (∀ d < m.gp.outputDim, ∀ j < (queryLens Qs).getD d 0, (r'.2.getD d []).getD j 0 =
        (r.2.getD d []).getD j 0 - m.fk.covLeft m.gp.Xs d (queryPoint m.gp.inputDim Qs d j) d₀ x₀ ^ 2 / (r.2.getD d₀ []).getD j₀ 0) ∧
      (r'.2.getD d₀ []).getD j₀ 0 = 2 * m.fk.noise.getD d₀ 0 - m.fk.noise.getD d₀ 0 ^ 2 / (r.2.getD d₀ []).getD j₀ 0 ∧
      Tells sv ops i .logDet e (.extended (some v)) ∧ Tells sv ops' i' .logDet e' (.extended (some (v + Real.log ((r.2.getD d₀ []).getD j₀ 0)))) := by
  obtain ⟨hP, hD, hd₀, f5, g5, f2, hax, hno', ι, s, R⟩ := held_adds hs h h' hfk hv
  obtain ⟨k, f1, -, f3, f4, -, -, f7⟩ := h.facts hs
  obtain ⟨k', g1, g2, g3, g4, -, -, g7⟩ := h'.facts hs
  have hQ' : m'.Accepts Qs := by unfold LLGP.Accepts; rw [hP, hD]; exact hQ
  obtain ⟨r, r1, r2⟩ := C45_exact sv m _ k Qs (f4 Qs hQ) e (held_exact hs h hmode) f2
  obtain ⟨r', r1', r2'⟩ := C45_exact sv m' _ k' Qs (g4 Qs hQ') e' (held_exact hs h' (hv.options.2.2.2.2.trans hmode)) g2
  have F := f7 Qs e he
  have G := g7 Qs e' he'
  rw [r1] at F
  rw [r1'] at G
  have sc : ∀ d < m.fk.D, (normOf m.gp d).1 = 1 := fun d hd => by
    obtain ⟨n1, -⟩ := (MadeFrom.scale f1).2.1 d (by rw [← made_D f1 f5]; exact hd)
    rw [n1]
    unfold LLGPArgs.scaleOf
    rw [hv.plain]
    simp
  have sc' : ∀ d < m'.fk.D, (normOf m'.gp d).1 = 1 := fun d hd => by
    obtain ⟨n1, -⟩ := (MadeFrom.scale g1).2.1 d (by rw [← made_D g1 (hP ▸ g5)]; exact hd)
    rw [n1]
    unfold LLGPArgs.scaleOf
    rw [hno']
    simp
  have V : ∀ d < m.gp.outputDim, ∀ j < (queryLens Qs).getD d 0, (r.2.getD d []).getD j 0 = m.fk.condVar m.gp.Xs d (queryPoint m.gp.inputDim Qs d j) := fun d hd j hj => by
    rw [f3] at hd
    rw [(r2 d hd j hj).1, sc d hd]
    simp
  have V' : ∀ d < m.gp.outputDim, ∀ j < (queryLens Qs).getD d 0, (r'.2.getD d []).getD j 0 = m'.fk.condVar m'.gp.Xs d (queryPoint m.gp.inputDim Qs d j) := fun d hd j hj => by
    rw [← hD, g3] at hd
    rw [(r2' d hd j hj).1, sc' d hd, hP]
    simp
  have V0 : (r.2.getD d₀ []).getD j₀ 0 = m.fk.condVar m.gp.Xs d₀ x₀ := by rw [V d₀ hd₀ j₀ hj₀, condVar_congr f5 hq]
  have main : ∀ d < m.gp.outputDim, ∀ j < (queryLens Qs).getD d 0, (r'.2.getD d []).getD j 0 =
        (r.2.getD d []).getD j 0 - m.fk.covLeft m.gp.Xs d (queryPoint m.gp.inputDim Qs d j) d₀ x₀ ^ 2 / (r.2.getD d₀ []).getD j₀ 0 := fun d hd j hj => by
    rw [V' d hd j hj, V d hd j hj, V0]
    exact (R.var f5 g5 hfk f2 d _).2.1
  obtain ⟨p1, -, p3⟩ := R.var f5 g5 hfk f2 d₀ x₀
  refine ⟨r, r', _, F, G, main, ?_, (C104_answers sv hs ops i a m h e he).2.1, ?_⟩
  · rw [main d₀ hd₀ j₀ hj₀, V0, covLeft_congr f5 hq]
    have hc : m.fk.covLeft m.gp.Xs d₀ x₀ d₀ x₀ = m.fk.condVar m.gp.Xs d₀ x₀ - m.fk.noise.getD d₀ 0 := by
      unfold FK.covLeft FK.condVar FK.priorVar
      ring
    rw [hc]
    field_simp
    ring
  · have := (C104_answers sv hs ops' i' a' m' h' e' he').2.1
    rw [p3, Real.log_mul (covMat_posDef f5.ready.wf f5.data.inputs.len f2.kernels f2.kappa f2.noise).det_pos.ne' p1.ne', ← V0] at this
    exact this

/-- C117: `normal_quadratic()` grows by the squared difference of the new value from its prediction, over what is left of its variance plus the noise; so an observation that was
predicted leaves it as it is. -/
theorem C117_quadratic (sv : Solvers) (hs : sv.Fit) (hx : sv.Exact) (ops ops' : List Op) (i i' : ℕ) (a a' : LLGPArgs) (m m' : LLGP) (h : Held sv ops i a m) (h' : Held sv ops' i' a' m')
    (hn : ∀ ad ∈ m.fk.activeDims.map Prod.fst, ad.Nodup) (hfk : m'.fk = m.fk) (d₀ : ℕ) (x₀ : ℕ → ℝ) (y₀ : ℝ) (hv : a.Adds m.gp.inputDim d₀ x₀ y₀ a') (Qs : List (NDArr ℝ))
    (hQ : m.Accepts Qs) (e e' : Env) (he : e.Works) (he' : e'.Works) (r : Predicted) (hr : Predicts sv ops i Qs e (.ok r)) (j₀ : ℕ) (hj₀ : j₀ < (queryLens Qs).getD d₀ 0)
    (hq : ∀ c < m.gp.inputDim, queryPoint m.gp.inputDim Qs d₀ j₀ c = x₀ c) :
    ∃ v, Tells sv ops i .normalQuadratic e (.number v) ∧ Tells sv ops' i' .normalQuadratic e' (.number (v +
      (y₀ - (r.1.getD d₀ []).getD j₀ 0) ^ 2 / (m.fk.skiLeft m.axesOf m.fk.extraOf m.gp.Xs d₀ x₀ d₀ x₀ + m.fk.noise.getD d₀ 0))) := by
  obtain ⟨hP, hD, hd₀, f5, g5, f2, hax, hno', ι, s, R⟩ := held_adds hs h h' hfk hv
  have T := ((C104_answers sv hs ops i a m h e he).2.2 hx hn).1
  have T' := ((C104_answers sv hs ops' i' a' m' h' e' he').2.2 hx (by rw [hfk]; exact hn)).1
  refine ⟨_, T, ?_⟩
  rw [plain_mean hs hx h hn hv.plain hQ he hr d₀ hd₀ j₀ hj₀, skiMean_congr f5 hq]
  have := (R.mean f5 g5 hfk hax f2 hn d₀ x₀).2.2
  exact this ▸ T'

/-- `log_likelihood()` from the other answers -/
theorem likelihood_of_answers {sv : Solvers} (hs : sv.Fit) {ops : List Op} {i : ℕ} {a : LLGPArgs} {m : LLGP} (h : Held sv ops i a m) {e : Env} (he : e.Works) {v q : ℝ}
    (hv : Tells sv ops i .logDet e (.extended (some v))) (hq : Tells sv ops i .normalQuadratic e (.number q)) :
    Tells sv ops i .logLikelihood e (.extended (some (-(1 / 2) * (v + q + m.n * Real.log (2 * Real.pi))))) := by
  obtain ⟨k, f1, f2, f3, f4, f5, f6, f7⟩ := h.facts hs
  obtain ⟨l, hl, cl⟩ := (exactLMC_contents f5.ready f5.data).1 (sound_posDef f5 f2)
  change m.dense = .ok l at hl
  obtain ⟨q1, q2⟩ := C40_log_likelihood sv hs m _ f5 k f6 _ hl
  have e1 := tells_unique hv ((C104_answers sv hs ops i a m h e he).2.1)
  have e2 := tells_unique hq (tells_of hs h .normalQuadratic he (x := .number _) (by
    show m.normalQuadratic.map Answer.number = _
    rw [q1]
    rfl))
  simp only [Answer.extended.injEq, Option.some.injEq, Answer.number.injEq] at e1 e2
  rw [e1, e2]
  refine tells_of hs h _ he ?_
  show (do let l ← m.dense; m.logLikelihoodOf l).map Answer.extended = _
  rw [hl, ok_bind, q2]
  rfl

theorem OneMore.card {n n' : ℕ} {ι : Fin n → Fin n'} {s : Fin n'} (h : OneMore ι s) : (n' : ℝ) = n + 1 := by
  have := h.sum fun _ => 1
  simpa using this

/-- C117: hence `log_likelihood()` changes, in `'exact'` mode, by minus half of the logarithm of the variance that was predicted for the new observation, of its squared
difference from the prediction over what is left of its (interpolated) variance plus the noise, and of `log 2π`. Where the two variances agree, this is the
logarithm of the density that had been predicted for the new value. -/
theorem C117_log_likelihood (sv : Solvers) (hs : sv.Fit) (hx : sv.Exact) (ops ops' : List Op) (i i' : ℕ) (a a' : LLGPArgs) (m m' : LLGP) (h : Held sv ops i a m)
    (h' : Held sv ops' i' a' m') (hn : ∀ ad ∈ m.fk.activeDims.map Prod.fst, ad.Nodup) (hfk : m'.fk = m.fk) (hmode : a.prediction = "exact") (d₀ : ℕ) (x₀ : ℕ → ℝ) (y₀ : ℝ)
    (hv : a.Adds m.gp.inputDim d₀ x₀ y₀ a') (Qs : List (NDArr ℝ)) (hQ : m.Accepts Qs) (e e' : Env) (he : e.Works) (he' : e'.Works) (j₀ : ℕ)
    (hj₀ : j₀ < (queryLens Qs).getD d₀ 0) (hq : ∀ c < m.gp.inputDim, queryPoint m.gp.inputDim Qs d₀ j₀ c = x₀ c) :
    ∃ r z s, Predicts sv ops i Qs e (.ok r) ∧ Tells sv ops i .logLikelihood e (.extended (some z)) ∧
      s = m.fk.skiLeft m.axesOf m.fk.extraOf m.gp.Xs d₀ x₀ d₀ x₀ + m.fk.noise.getD d₀ 0 ∧
      Tells sv ops' i' .logLikelihood e' (.extended (some (z - (Real.log ((r.2.getD d₀ []).getD j₀ 0) + (y₀ - (r.1.getD d₀ []).getD j₀ 0) ^ 2 / s + Real.log (2 * Real.pi)) / 2))) ∧
      ((r.2.getD d₀ []).getD j₀ 0 = s →
        Tells sv ops' i' .logLikelihood e' (.extended (some (z + Real.log (ProbabilityTheory.gaussianPDFReal ((r.1.getD d₀ []).getD j₀ 0) ((r.2.getD d₀ []).getD j₀ 0).toNNReal y₀))))) := by
  obtain ⟨hP, hD, hd₀, f5, g5, f2, hax, hno', ι, s, R⟩ := held_adds hs h h' hfk hv
  obtain ⟨r, r', v, r1, r2, -, -, r4, r5⟩ := C117_exact sv hs ops ops' i i' a a' m m' h h' hfk hmode d₀ x₀ y₀ hv Qs hQ e e' he he' j₀ hj₀ hq
  obtain ⟨q, q1, q2⟩ := C117_quadratic sv hs hx ops ops' i i' a a' m m' h h' hn hfk d₀ x₀ y₀ hv Qs hQ e e' he he' r r1 j₀ hj₀ hq
  have hn1 : (m'.n : ℝ) = m.n + 1 := R.rows.card
  have L := likelihood_of_answers hs h he r4 q1
  have L' := likelihood_of_answers hs h' he' r5 q2
  rw [hn1] at L'
  set t := m.fk.skiLeft m.axesOf m.fk.extraOf m.gp.Xs d₀ x₀ d₀ x₀ + m.fk.noise.getD d₀ 0 with ht
  have main : Tells sv ops' i' .logLikelihood e' (.extended (some (-(1 / 2) * (v + q + m.n * Real.log (2 * Real.pi)) -
      (Real.log ((r.2.getD d₀ []).getD j₀ 0) + (y₀ - (r.1.getD d₀ []).getD j₀ 0) ^ 2 / t + Real.log (2 * Real.pi)) / 2))) := by
    convert L' using 3
    ring
  refine ⟨r, _, t, r1, L, rfl, main, fun hst => ?_⟩
  convert main using 4
  have hpos : 0 < t := add_pos_of_nonneg_of_pos (C117_means sv hs hx ops ops' i i' a a' m m' h h' hn hfk d₀ x₀ y₀ hv Qs hQ e e' he he' r r' r1 r2 j₀ hj₀ hq).1
    (C117_means sv hs hx ops ops' i i' a a' m m' h h' hn hfk d₀ x₀ y₀ hv Qs hQ e e' he he' r r' r1 r2 j₀ hj₀ hq).2.1
  rw [hst, ProbabilityTheory.gaussianPDFReal, Real.coe_toNNReal _ hpos.le, Real.log_mul (by positivity) (Real.exp_pos _).ne', Real.log_exp, Real.log_inv, Real.log_sqrt (by positivity),
    Real.log_mul (by positivity) hpos.ne']
  field_simp
  ring

/-- one output was observed at (0, 0) and (1, 1), another at (0, 1) and (1, 0); then the first is observed at (1, 0) also, with value 4 -/
example : ∃ (a a' : LLGPArgs) (r r' : Predicted) (ν w v : ℝ), 0 < ν ∧ 0 ≤ w ∧ w < 1 ∧ a.Ys = [⟨[2], [1, 3]⟩, ⟨[2], [5, 7]⟩] ∧ a'.Ys = [⟨[3], [1, 3, 4]⟩, ⟨[2], [5, 7]⟩] ∧
    Predicts exactSolvers [.new a quiet] 0 [⟨[1, 2], [1, 0]⟩, ⟨[2, 2], [0, 1, 1, 1]⟩] quiet (.ok r) ∧
    Predicts exactSolvers [.new a' quiet] 0 [⟨[1, 2], [1, 0]⟩, ⟨[2, 2], [0, 1, 1, 1]⟩] quiet (.ok r') ∧
    (r'.1.getD 0 []).getD 0 0 = (1 - w) * (r.1.getD 0 []).getD 0 0 + w * 4 ∧ (r'.2.getD 0 []).getD 0 0 = 2 * ν - ν ^ 2 / (r.2.getD 0 []).getD 0 0 ∧
    Tells exactSolvers [.new a quiet] 0 .logDet quiet (.extended (some v)) ∧
    Tells exactSolvers [.new a' quiet] 0 .logDet quiet (.extended (some (v + Real.log ((r.2.getD 0 []).getD 0 0)))) := by
  obtain ⟨fk, ⟨h1, h2, h3, h4, -⟩, h⟩ := exists_documented_grid
  have hd1 := h .exact false (some 5) (by simp)
  have hd : LLGPArgs.Documented ⟨[⟨[2, 2], [0, 0, 1, 1]⟩, ⟨[2, 2], [0, 1, 1, 0]⟩], [⟨[2], [1, 3]⟩, ⟨[2], [5, 7]⟩], false, .none, .none, gridChoice (some 5), false, "exact", 15, 1e-4, some fk⟩ 2 fk :=
    ⟨hd1.data, hd1.arraysX, hd1.arraysY, hd1.filled, rfl, hd1.fresh, hd1.wf, hd1.some, hd1.outputs, hd1.valid, hd1.dims, hd1.mode, hd1.lo, hd1.hi, hd1.m, hd1.sizes, hd1.spread⟩
  have hd' := documented_with_data hd (Xs := [⟨[3, 2], [0, 0, 1, 1, 1, 0]⟩, ⟨[2, 2], [0, 1, 1, 0]⟩]) (Ys := [⟨[3], [1, 3, 4]⟩, ⟨[2], [5, 7]⟩])
    ⟨by simp, rfl, fun d hd => by
        have : d < 2 := hd
        interval_cases d
        · exact ⟨3, rfl, .inr rfl⟩
        · exact ⟨2, rfl, .inr rfl⟩, fun Y hY => .inr (by
        simp only [List.mem_cons, List.not_mem_nil, or_false] at hY
        rcases hY with rfl | rfl
        · have hv : varOf [1, 3, 4] = 14 / 9 := by
            simp [varOf, meanOf, Finset.sum_range_succ]
            norm_num
          simp [sdOf, hv]
        · have hv : varOf [5, 7] = 1 := by
            simp [varOf, meanOf, Finset.sum_range_succ]
            norm_num
          simp [sdOf, hv])⟩
    (fun X hX => by
      simp only [List.mem_cons, List.not_mem_nil, or_false] at hX
      rcases hX with rfl | rfl <;> rfl)
    (fun Y hY => by
      simp only [List.mem_cons, List.not_mem_nil, or_false] at hY
      rcases hY with rfl | rfl <;> exact ⟨rfl, by simp⟩) rfl
    (fun c hc => ⟨⟨3, 2, [0, 0, 1, 1, 1, 0]⟩, by simp [padded], 0, by norm_num, ⟨3, 2, [0, 0, 1, 1, 1, 0]⟩, by simp [padded], 1, by norm_num, by
      interval_cases c <;> norm_num [Arr2.get]⟩)
  obtain ⟨m₀, -, i2, -, i4, i5, -, i7, -, i6⟩ := model_of_documented hd (mode := .exact) (metrics := false) rfl rfl h1 h2 h3 h4 rfl
  obtain ⟨m, hm, f⟩ := held_new exactSolvers_fit (by norm_num) hd (by norm_num) rfl i6 i4
  obtain ⟨m', hm', f'⟩ := held_new exactSolvers_fit (by norm_num) hd' (by norm_num) rfl i6 i4
  obtain ⟨κ, x1, x2, x3, x4, x5, -⟩ := hm.facts exactSolvers_fit
  have hP : m.gp.inputDim = 2 := same_inputDim i2 x5 f
  have hD : m.gp.outputDim = 2 := by rw [x3, f, i5]
  have hnd : ∀ ad ∈ m.fk.activeDims.map Prod.fst, ad.Nodup := by
    rw [f, i7]
    intro ad had
    simp only [List.map_cons, List.map_nil, List.mem_cons, List.not_mem_nil, or_false] at had
    rw [had]
    decide
  have hQ : m.Accepts [⟨[1, 2], [1, 0]⟩, ⟨[2, 2], [0, 1, 1, 1]⟩] := ⟨by
      rw [hP, hD]
      refine ⟨rfl, fun X hX => ?_⟩
      simp only [List.mem_cons, List.not_mem_nil, or_false] at hX
      rcases hX with rfl | rfl
      · exact ⟨1, .inr rfl⟩
      · exact ⟨2, .inr rfl⟩, fun X hX => by
      simp only [List.mem_cons, List.not_mem_nil, or_false] at hX
      rcases hX with rfl | rfl <;> rfl⟩
  have hv : LLGPArgs.Adds m.gp.inputDim 0 (fun c => if c = 0 then 1 else 0) 4
      ⟨[⟨[2, 2], [0, 0, 1, 1]⟩, ⟨[2, 2], [0, 1, 1, 0]⟩], [⟨[2], [1, 3]⟩, ⟨[2], [5, 7]⟩], false, .none, .none, gridChoice (some 5), false, "exact", 15, 1e-4, some fk⟩
      ⟨[⟨[3, 2], [0, 0, 1, 1, 1, 0]⟩, ⟨[2, 2], [0, 1, 1, 0]⟩], [⟨[3], [1, 3, 4]⟩, ⟨[2], [5, 7]⟩], false, .none, .none, gridChoice (some 5), false, "exact", 15, 1e-4, some fk⟩ := by
    rw [hP]
    refine ⟨rfl, ⟨rfl, rfl, rfl, rfl, rfl⟩, fun c hc => ?_, by simp, rfl, fun d hd => ?_, fun d hd j hj => ?_, ⟨rfl, fun c hc => ?_⟩, fun c hc => ⟨⟨0, .inl ⟨0, by simp, 0, by simp [queryLens], ?_⟩, ?_⟩,
      ⟨1, .inl ⟨0, by simp, 1, by simp [queryLens], ?_⟩, ?_⟩⟩⟩
    · interval_cases c <;> simp [gridChoice, GridOpt.at]
    · have : d < 2 := hd
      interval_cases d <;> simp [queryLens]
    · have : d < 2 := hd
      interval_cases d
      · have hj : j < 2 := hj
        interval_cases j <;> refine ⟨by simp [LLGPArgs.value], fun c hc => ?_⟩ <;> interval_cases c <;> simp [queryPoint]
      · exact ⟨rfl, fun c hc => rfl⟩
    · interval_cases c <;> simp [queryPoint, queryLens]
    · interval_cases c <;> simp [queryPoint]
    · interval_cases c <;> simp
    · interval_cases c <;> simp [queryPoint]
    · interval_cases c <;> simp
  have hq : ∀ c < m.gp.inputDim, queryPoint m.gp.inputDim [⟨[1, 2], [1, 0]⟩, ⟨[2, 2], [0, 1, 1, 1]⟩] 0 0 c = if c = 0 then 1 else 0 := fun c hc => by
    rw [hP] at hc ⊢
    interval_cases c <;> simp [queryPoint]
  obtain ⟨r, r', v, r1, r2, -, r3, r4, r5⟩ := C117_exact exactSolvers exactSolvers_fit _ _ 0 0 _ _ m m' hm hm' (f'.trans f.symm) rfl 0 _ 4 hv _ hQ quiet quiet quiet_calm.1 quiet_calm.1 0
    (by simp [queryLens]) hq
  obtain ⟨w, w1, w2, w3⟩ := C117_at_point exactSolvers exactSolvers_fit (fun _ _ _ tol h _ => exactSolvers_exact h tol) _ _ 0 0 _ _ m m' hm hm' hnd (f'.trans f.symm) 0 _ 4 hv _ hQ quiet quiet
    quiet_calm.1 quiet_calm.1 r r' r1 r2 0 (by simp [queryLens]) hq
  exact ⟨_, _, r, r', _, w, v, x2.noise 0 (by rw [f, i5]; norm_num), w1, w2, rfl, rfl, r1, r2, w3, r3, r4, r5⟩

end Verif
