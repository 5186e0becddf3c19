import Verif.Proofs.Amplitude
import Verif.Props.ProperScore

/-! C118: all variances multiplied by one factor. -/

namespace Verif

open Matrix

theorem scaledFunction_of {c : ℝ} (h0 : 0 < c) {P P' : ℕ} {m m' : LLGP} {a a' : LLGPArgs} (ha : m.MadeFrom P a) (ha' : m'.MadeFrom P' a')
    (ok : m.OK P) (ok' : m'.OK P') (hp : a.SameProblem a') (hm : m'.prediction = m.prediction)
    (hc : ScaledCovariance c m.fk m'.fk) (hs : m.fk.Unspoiled) (hs' : m'.fk.Unspoiled) : ScaledFunction c P m m' := by
  obtain ⟨fk, m0, hd, hi, g1, g2, g3⟩ := ha
  obtain ⟨fk', m0', hd', hi', g1', g2', g3'⟩ := ha'
  obtain ⟨p1, p2, p3, p4, p5, p6, -⟩ := hp
  have hgp : m'.gp = m.gp := by
    obtain ⟨-, -, -, -, -, e⟩ := init_fields hi
    obtain ⟨-, -, -, -, -, e'⟩ := init_fields hi'
    rw [p1, p2, p3, e] at e'
    rw [g1, g1']
    exact (Except.ok.inj e').symm
  have hP : P' = P := by rw [← ok.inputDim, ← ok'.inputDim, hgp]
  refine ⟨h0, ok, hP ▸ ok', hc, hs, hs', hm, hgp, fun ad had => ?_⟩
  obtain ⟨-, -, -, -, q⟩ := documented_fields hd hi
  obtain ⟨-, -, -, -, q'⟩ := documented_fields hd' hi'
  have had' : ad ∈ m'.fk.activeDims.map Prod.fst := by
    rw [key_iff ok'.ready ok'.groups, hc.dims, ← key_iff ok.ready ok.groups]
    exact had
  rw [g3] at had
  rw [g3'] at had'
  rw [p4, p5, p6, ← g1', hgp] at q'
  rw [← g1] at q
  obtain ⟨g, x1, x2⟩ := generateGrids_at q had
  obtain ⟨g', y1, y2⟩ := generateGrids_at q' had'
  rw [x1] at y1
  cases y1
  unfold LLGP.axesOf
  rw [g2, g2', x2, y2]

theorem held_scaled {sv : Solvers} (hs : sv.Fit) {ops ops' : List Op} {i i' : ℕ} {a a' : LLGPArgs} {m m' : LLGP} (h : Held sv ops i a m) (h' : Held sv ops' i' a' m')
    (hp : a.SameProblem a') {c : ℝ} (h0 : 0 < c) (hc : ScaledCovariance c m.fk m'.fk) (hu : m.fk.Unspoiled) (hu' : m'.fk.Unspoiled) : ScaledFunction c m.gp.inputDim m m' := by
  obtain ⟨k, f1, f2, f3, f4, f5, f6, f7⟩ := h.facts hs
  obtain ⟨k', g1, g2, g3, g4, g5, g6, g7⟩ := h'.facts hs
  exact scaledFunction_of h0 f1 g1 f5 g5 hp (held_prediction hs h h' hp.2.2.2.2.2.2) hc hu hu'

/-- C118, predictions: of two models of the same data, with the same grids and prediction mode, let one have `c` times the covariance function and the noise of the other. If
one answers a prediction so does the other, in every prediction mode. The means are the same, the variances are multiplied by `c`, and so are the distances of the
quantiles from the mean by `√c`. (With linear solves that are exact; kernels do not read a dimension twice.) -/
theorem C118_predictions (sv : Solvers) (hs : sv.Fit) (hx : sv.Exact) (ops ops' : List Op) (i i' : ℕ) (a a' : LLGPArgs) (m m' : LLGP) (h : Held sv ops i a m)
    (h' : Held sv ops' i' a' m') (hp : a.SameProblem a') (c : ℝ) (h0 : 0 < c) (hc : ScaledCovariance c m.fk m'.fk) (hu : m.fk.Unspoiled) (hu' : m'.fk.Unspoiled)
    (hn : ∀ ad ∈ m.fk.activeDims.map Prod.fst, ad.Nodup) (Qs : List (NDArr ℝ)) (hQ : m.Accepts Qs) (e e' : Env) (he : e.Works) (he' : e'.Works) (r : Predicted)
    (hr : Predicts sv ops i Qs e (.ok r)) :
    (∃ r', Predicts sv ops' i' Qs e' (.ok r') ∧ ∀ d < m.gp.outputDim, ∀ j < (queryLens Qs).getD d 0,
      (r'.1.getD d []).getD j 0 = (r.1.getD d []).getD j 0 ∧ (r'.2.getD d []).getD j 0 = c * (r.2.getD d []).getD j 0) ∧
    ∀ qs, ∃ Z Z' : List (Arr2 ℝ), Tells sv ops i (.quantiles Qs qs) e (.quantiles Z) ∧ Tells sv ops' i' (.quantiles Qs qs) e' (.quantiles Z') ∧
      ∀ d < m.gp.outputDim, ∀ j < (queryLens Qs).getD d 0, ∀ z < qs.length,
        (Z'.getD d ⟨0, 0, []⟩).get j z - (r.1.getD d []).getD j 0 = Real.sqrt c * ((Z.getD d ⟨0, 0, []⟩).get j z - (r.1.getD d []).getD j 0) := by
  obtain ⟨k, f1, f2, f3, f4, f5, f6, f7⟩ := h.facts hs
  obtain ⟨k', g1, g2, g3, g4, g5, g6, g7⟩ := h'.facts hs
  have R := held_scaled hs h h' hp h0 hc hu hu'
  have hp' := predicts_unique hr (f7 Qs e he)
  obtain ⟨r', w1, w2⟩ := R.predictions hs hx f6 g6 f2 g2 hn he he' (by rw [← f3]; exact hQ.1) hQ.2 hp'
  rw [f3]
  refine ⟨⟨r', w1 ▸ g7 Qs e' he', w2⟩, fun qs => ?_⟩
  have hQ' : m'.Accepts Qs := by
    unfold LLGP.Accepts
    rw [R.gp]
    exact hQ
  obtain ⟨Z, z1, z2⟩ := quantiles_of_predict (f4 Qs hQ) hp' qs
  obtain ⟨Z', y1, y2⟩ := quantiles_of_predict (g4 Qs hQ') w1 qs
  refine ⟨Z, Z', ?_, ?_, fun d hd j hj z hz => ?_⟩
  · show results sv _ = _
    rw [(C48_answers sv ops (validFrom_works ops [] h.valid) i m h.model (by rw [f6.kernel]; simp) _ e he).1]
    show _ ++ [(m.gp.predictQuantiles (m.rawPredict sv e) Qs qs).map Answer.quantiles] = _
    rw [z1]
    rfl
  · show results sv _ = _
    rw [(C48_answers sv ops' (validFrom_works ops' [] h'.valid) i' m' h'.model (by rw [g6.kernel]; simp) _ e' he').1]
    show _ ++ [(m'.gp.predictQuantiles (m'.rawPredict sv e') Qs qs).map Answer.quantiles] = _
    rw [y1]
    rfl
  · obtain ⟨v1, v2⟩ := w2 d hd j hj
    rw [z2 d hd j hj z hz, y2 d (by rw [hc.outputs]; exact hd) j hj z hz, v1, v2, Real.sqrt_mul h0.le]
    ring

/-- C118, the other answers: every entry of `K()` is multiplied by `c`, `log_det_K()` grows by `n log c` for `n` observations, `normal_quadratic()` is divided by `c`, and
`log_likelihood()` changes by minus half of the sum of these two changes. -/
theorem C118_numbers (sv : Solvers) (hs : sv.Fit) (hx : sv.Exact) (ops ops' : List Op) (i i' : ℕ) (a a' : LLGPArgs) (m m' : LLGP) (h : Held sv ops i a m)
    (h' : Held sv ops' i' a' m') (hp : a.SameProblem a') (c : ℝ) (h0 : 0 < c) (hc : ScaledCovariance c m.fk m'.fk) (hu : m.fk.Unspoiled) (hu' : m'.fk.Unspoiled)
    (hn : ∀ ad ∈ m.fk.activeDims.map Prod.fst, ad.Nodup) (e e' : Env) (he : e.Works) (he' : e'.Works) :
    ∃ (K K' : Arr2 ℝ) (x y z : ℝ), Tells sv ops i .covariance e (.matrix K) ∧ Tells sv ops' i' .covariance e' (.matrix K') ∧
      (∀ r < (queryLens a.Xs).sum, ∀ s < (queryLens a.Xs).sum, K'.get r s = c * K.get r s) ∧
      Tells sv ops i .logDet e (.extended (some x)) ∧ Tells sv ops' i' .logDet e' (.extended (some (x + (queryLens a.Xs).sum * Real.log c))) ∧
      Tells sv ops i .normalQuadratic e (.number y) ∧ Tells sv ops' i' .normalQuadratic e' (.number (y / c)) ∧
      Tells sv ops i .logLikelihood e (.extended (some z)) ∧
      Tells sv ops' i' .logLikelihood e' (.extended (some (z - ((queryLens a.Xs).sum * Real.log c + (y / c - y)) / 2))) := by
  obtain ⟨k, f1, f2, f3, f4, f5, f6, f7⟩ := h.facts hs
  obtain ⟨k', g1, g2, g3, g4, g5, g6, g7⟩ := h'.facts hs
  have R := held_scaled hs h h' hp h0 hc hu hu'
  have hrows : (queryLens a.Xs).sum = m.n := by
    unfold LLGP.n
    rw [(MadeFrom.scale f1).1, padded_lens]
  have ans : ∀ q, results sv (ops ++ [.ask i q e]) = results sv ops ++ [m.answer sv e q] := fun q =>
    (C48_answers sv ops (validFrom_works ops [] h.valid) i m h.model (by rw [f6.kernel]; simp) q e he).1
  have ans' : ∀ q, results sv (ops' ++ [.ask i' q e']) = results sv ops' ++ [m'.answer sv e' q] := fun q =>
    (C48_answers sv ops' (validFrom_works ops' [] h'.valid) i' m' h'.model (by rw [g6.kernel]; simp) q e' he').1
  obtain ⟨L, l1, l2⟩ := (exactLMC_contents R.ok.ready R.ok.data).1 (sound_posDef R.ok f2)
  obtain ⟨L', l1', l2'⟩ := (exactLMC_contents R.ok'.ready R.ok'.data).1 (sound_posDef R.ok' g2)
  change m.dense = .ok L at l1
  change m'.dense = .ok L' at l1'
  obtain ⟨q1, q2⟩ := C40_log_likelihood sv hs m _ R.ok k f6 _ l1
  obtain ⟨q1', q2'⟩ := C40_log_likelihood sv hs m' _ R.ok' k' g6 _ l1'
  have hdet := R.det f2
  have hq := R.quadratic hs hx f6 g6 f2 g2 hn
  have hn1 : m'.n = m.n := by unfold LLGP.n; rw [R.gp]
  rw [hq, hdet, hn1] at q2'
  rw [hq] at q1'
  rw [hrows]
  refine ⟨L.K, L'.K, Real.log (m.fk.covMat m.gp.Xs).det, toVec m.n m.y ⬝ᵥ toVec m.n k.approx.alpha,
    -(1 / 2) * (Real.log (m.fk.covMat m.gp.Xs).det + toVec m.n m.y ⬝ᵥ toVec m.n k.approx.alpha + m.n * Real.log (2 * Real.pi)), ?_, ?_, fun r hr s hs' => ?_, ?_, ?_, ?_, ?_, ?_, ?_⟩
  · unfold Tells
    rw [ans]
    show _ ++ [m.dense.map fun l => Answer.matrix l.K] = _
    rw [l1]
    rfl
  · unfold Tells
    rw [ans']
    show _ ++ [m'.dense.map fun l => Answer.matrix l.K] = _
    rw [l1']
    rfl
  · have e1 : L'.K.get r s = m'.fk.fullCov m.gp.Xs r s := by
      rw [l2'.K, R.gp]
      exact Arr2.of_get hr hs'
    have e2 : L.K.get r s = m.fk.fullCov m.gp.Xs r s := by
      rw [l2.K]
      exact Arr2.of_get hr hs'
    rw [e1, e2]
    exact R.fullCov hr hs'
  · unfold Tells
    rw [ans]
    show _ ++ [m.dense.map fun l => Answer.extended (logDetOf l)] = _
    rw [l1]
    show _ ++ [Except.ok (Answer.extended (logDetOf L))] = _
    rw [logDet_ok R.ok l1]
  · unfold Tells
    rw [ans']
    show _ ++ [m'.dense.map fun l => Answer.extended (logDetOf l)] = _
    rw [l1']
    show _ ++ [Except.ok (Answer.extended (logDetOf L'))] = _
    rw [logDet_ok R.ok' l1', hdet]
  · unfold Tells
    rw [ans]
    show _ ++ [m.normalQuadratic.map Answer.number] = _
    rw [q1]
    rfl
  · unfold Tells
    rw [ans']
    show _ ++ [m'.normalQuadratic.map Answer.number] = _
    rw [q1']
    rfl
  · unfold Tells
    rw [ans]
    show _ ++ [(do let l ← m.dense; m.logLikelihoodOf l).map Answer.extended] = _
    rw [l1, ok_bind, q2]
    rfl
  · unfold Tells
    rw [ans']
    show _ ++ [(do let l ← m'.dense; m'.logLikelihoodOf l).map Answer.extended] = _
    rw [l1', ok_bind, q2']
    show _ ++ [Except.ok (Answer.extended _)] = _
    congr 5
    ring

/-- the best factor for the variances, `y / n`, and how much it improves `n log c + y / c` -/
theorem best_factor {n y c : ℝ} (hn : 0 < n) (hy : 0 < y) (hc : 0 < c) :
    n * Real.log (y / n) + n ≤ n * Real.log c + y / c ∧ (n * Real.log c + y / c = n * Real.log (y / n) + n → c = y / n) := by
  have ht : 0 < y / (n * c) := by positivity
  have e : n * Real.log c + y / c - (n * Real.log (y / n) + n) = n * (y / (n * c) - 1 - Real.log (y / (n * c))) := by
    rw [Real.log_div hy.ne' hn.ne', Real.log_div hy.ne' (mul_pos hn hc).ne', Real.log_mul hn.ne' hc.ne']
    field_simp
    ring
  have hl := Real.log_le_sub_one_of_pos ht
  refine ⟨by nlinarith, fun h => ?_⟩
  by_contra hne
  have h1 : y / (n * c) ≠ 1 := fun h1 => hne (by
    rw [div_eq_one_iff_eq (mul_pos hn hc).ne'] at h1
    rw [h1]
    field_simp)
  have := Real.log_lt_sub_one_of_pos ht h1
  nlinarith

/-- C118, the best factor: among all models with multiples of the same covariance function and noise, the log likelihood is greatest for the factor `y / n`, where `y` is
`normal_quadratic()` of the model at hand and `n` the number of observations. The log likelihood there is known without computing anything else. -/
theorem C118_best (sv : Solvers) (hs : sv.Fit) (hx : sv.Exact) (ops ops' : List Op) (i i' : ℕ) (a a' : LLGPArgs) (m m' : LLGP) (h : Held sv ops i a m)
    (h' : Held sv ops' i' a' m') (hp : a.SameProblem a') (c : ℝ) (h0 : 0 < c) (hc : ScaledCovariance c m.fk m'.fk) (hu : m.fk.Unspoiled) (hu' : m'.fk.Unspoiled)
    (hn : ∀ ad ∈ m.fk.activeDims.map Prod.fst, ad.Nodup) (e e' : Env) (he : e.Works) (he' : e'.Works) (y z z' n : ℝ) (hny : n = (queryLens a.Xs).sum)
    (hy : Tells sv ops i .normalQuadratic e (.number y)) (hy0 : 0 < y) (hz : Tells sv ops i .logLikelihood e (.extended (some z)))
    (hz' : Tells sv ops' i' .logLikelihood e' (.extended (some z'))) :
    z' ≤ z - (n * Real.log (y / n) + n - y) / 2 ∧ (z' = z - (n * Real.log (y / n) + n - y) / 2 ↔ c = y / n) := by
  obtain ⟨K, K', x, y₁, z₁, -, -, -, -, -, t1, -, t2, t3⟩ := C118_numbers sv hs hx ops ops' i i' a a' m m' h h' hp c h0 hc hu hu' hn e e' he he'
  cases tells_unique hy t1
  cases tells_unique hz t2
  cases tells_unique hz' t3
  obtain ⟨k, f1, f2, f3, f4, f5, f6, f7⟩ := h.facts hs
  have hn0 : 0 < n := by
    rw [hny]
    refine Nat.cast_pos.2 (Nat.pos_of_ne_zero fun h00 => hy0.ne' ?_)
    have hrows : m.n = 0 := by
      unfold LLGP.n
      rw [(MadeFrom.scale f1).1, padded_lens]
      exact h00
    have t := ((C104_answers sv hs ops i a m h e he).2.2 hx hn).1
    cases tells_unique hy t
    have : IsEmpty (Fin (m.gp.Xs.map Arr2.rows).sum) := ⟨fun s => Nat.not_lt_zero _ (hrows ▸ s.2 : (s : ℕ) < 0)⟩
    exact Finset.sum_eq_zero fun s _ => isEmptyElim (α := Fin (m.gp.Xs.map Arr2.rows).sum) s
  rw [← hny]
  obtain ⟨b1, b2⟩ := best_factor hn0 hy0 h0
  refine ⟨by linarith, fun hh => b2 (by linarith), fun hh => ?_⟩
  rw [hh]
  have : y / (y / n) = n := by field_simp
  rw [this]
  ring

/-- C118: when this happens: the coregionalization vectors are multiplied by `√c`, the diagonals and the noise by `c`, and nothing else changes. -/
theorem C118_parameters (c : ℝ) (h0 : 0 < c) (fk fk' : FK) (h : ScaledParameters c fk fk') (hu : fk.Unspoiled) : ScaledCovariance c fk fk' ∧ fk'.Unspoiled := by
  obtain ⟨s1, s0, s3, s4, s5, s6, s7, s8⟩ := h.shape
  have hQ : fk'.Q = fk.Q := by unfold FK.Q; rw [h.kernels]
  have hk : ∀ q, fk'.kdims q = fk.kdims q := fun q => by unfold FK.kdims; rw [h.kernels]
  refine ⟨⟨s1, fun ad => ?_, fun ad a ha b hb r _ => ?_, h.noise⟩, fun g hg => ?_⟩
  · rw [hQ]
    simp only [hk]
  · unfold FK.onDims
    rw [hQ, Finset.mul_sum]
    simp only [hk]
    refine Finset.sum_congr rfl fun q hq => ?_
    have hq' : q < fk.Q := Finset.mem_range.1 (Finset.mem_filter.1 hq).1
    rw [h.kernels, ← mul_assoc]
    congr 1
    unfold FK.B
    rw [s8 q, mul_add, Finset.mul_sum, mul_ite, mul_zero, h.diags q hq' a]
    congr 1
    refine Finset.sum_congr rfl fun s _ => ?_
    rw [h.vecs q hq' s a, h.vecs q hq' s b]
    have := Real.mul_self_sqrt h0.le
    linear_combination (fk.coregVecs.getD q ⟨0, 0, []⟩).get s a * (fk.coregVecs.getD q ⟨0, 0, []⟩).get s b * this
  · rw [s5] at hg
    have hch : chooseKType fk' g.1 = chooseKType fk g.1 := by
      unfold chooseKType FK.totalRank FK.assertP
      rw [s1, hQ, s3, s4, s5, s6, s7, s0]
      simp only [s8]
    have := hu g hg
    unfold Spoiled FK.IsIndep FK.IsSlfm at this ⊢
    rw [hch, s3, s4]
    exact this

theorem amplify_vec (fk : FK) (c : ℝ) (q : ℕ) : (fk.amplify c).coregVecs.getD q ⟨0, 0, []⟩ =
    ⟨(fk.coregVecs.getD q ⟨0, 0, []⟩).rows, (fk.coregVecs.getD q ⟨0, 0, []⟩).cols, (fk.coregVecs.getD q ⟨0, 0, []⟩).data.map (Real.sqrt c * ·)⟩ :=
  List.getD_map fk.coregVecs (d := ⟨0, 0, []⟩) (f := fun A : Arr2 ℝ => (⟨A.rows, A.cols, A.data.map (Real.sqrt c * ·)⟩ : Arr2 ℝ))

theorem amplify_get (fk : FK) (c : ℝ) (q r a : ℕ) : ((fk.amplify c).coregVecs.getD q ⟨0, 0, []⟩).get r a = Real.sqrt c * (fk.coregVecs.getD q ⟨0, 0, []⟩).get r a := by
  rw [amplify_vec]
  unfold Arr2.get
  have := List.getD_map (f := (Real.sqrt c * ·)) (l := (fk.coregVecs.getD q ⟨0, 0, []⟩).data) (n := r * (fk.coregVecs.getD q ⟨0, 0, []⟩).cols + a) (d := 0)
  rw [mul_zero] at this
  exact this

theorem amplify_diag (fk : FK) (c : ℝ) (q : ℕ) : (fk.amplify c).coregDiags.getD q [] = (fk.coregDiags.getD q []).map (c * ·) :=
  List.getD_map fk.coregDiags (d := []) (f := fun l : List ℝ => l.map (c * ·))

theorem amplify_kappa (fk : FK) (c : ℝ) (q a : ℕ) : ((fk.amplify c).coregDiags.getD q []).getD a 0 = c * (fk.coregDiags.getD q []).getD a 0 := by
  rw [amplify_diag]
  have := List.getD_map (f := (c * ·)) (l := fk.coregDiags.getD q []) (n := a) (d := 0)
  rw [mul_zero] at this
  exact this

theorem amplify_noise (fk : FK) (c : ℝ) (a : ℕ) : (fk.amplify c).noise.getD a 0 = c * fk.noise.getD a 0 := by
  have := List.getD_map (f := (c * ·)) (l := fk.noise) (n := a) (d := 0)
  rw [mul_zero] at this
  exact this

theorem amplify_scaled (fk : FK) (c : ℝ) : ScaledParameters c fk (fk.amplify c) :=
  ⟨⟨rfl, rfl, rfl, rfl, rfl, rfl, rfl, fun q => by rw [amplify_vec]⟩, rfl, fun q _ r a => amplify_get fk c q r a, fun q _ a => amplify_kappa fk c q a, fun a _ => amplify_noise fk c a⟩

theorem amplify_retuned {fk : FK} {P : ℕ} (h : fk.Ready P) (c : ℝ) : fk.Retuned (fk.amplify c) := by
  have hw := h.wf
  refine ⟨⟨hw.Dpos, (List.length_map _).trans hw.vecs, (List.length_map _).trans hw.diags, (List.length_map _).trans hw.noise, hw.counts, fun q hq => ?_, fun q hq => ?_, fun q h1 h2 i => ?_,
    fun q h1 h2 => ?_, fun q h1 i j => ?_⟩, rfl, rfl, rfl, rfl, rfl, rfl, rfl, rfl, rfl, fun _ _ => rfl, h.valid⟩
  · rw [amplify_vec]
    obtain ⟨v1, v2, v3⟩ := hw.vec q hq
    exact ⟨(List.length_map _).trans v1, v2, v3⟩
  · rw [amplify_diag, List.length_map]
    exact hw.diag q hq
  · rw [amplify_kappa, hw.slfm q h1 h2, mul_zero]
  · rw [amplify_vec]
    exact hw.slfmRank q h1 h2
  · rw [amplify_get, hw.indep q h1, mul_zero]

theorem amplify_sound {fk : FK} (h : fk.Sound) {c : ℝ} (hc : 0 < c) : (fk.amplify c).Sound :=
  ⟨h.kernels, h.plain, fun q hq a ha => by rw [amplify_kappa]; exact mul_nonneg hc.le (h.kappa q hq a ha), fun a ha => by rw [amplify_noise]; exact mul_pos hc (h.noise a ha)⟩

/-- C118, for assignments to the parameters of a model: multiplying the coregionalization vectors by `√c` and the diagonals and the noise by `c` is always allowed. It changes
no predicted mean, multiplies every predicted variance by `c`, and changes the log likelihood by a known amount, which is greatest for `c = y / n` with `normal_quadratic()`
`y` and the number of observations `n`. -/
theorem C118_assign (sv : Solvers) (hs : sv.Fit) (hx : sv.Exact) (ops : List Op) (i : ℕ) (a : LLGPArgs) (m : LLGP) (h : Held sv ops i a m) (c : ℝ) (h0 : 0 < c)
    (hu : m.fk.Unspoiled) (ew : Env) (hew : ew.Calm) (hn : ∀ ad ∈ m.fk.activeDims.map Prod.fst, ad.Nodup) (e e' : Env) (he : e.Works) (he' : e'.Works) :
    (∃ m', Held sv (ops ++ [.set i (m.fk.amplify c) ew]) i a m' ∧ m'.fk = m.fk.amplify c) ∧
    (∀ Qs, m.Accepts Qs → ∀ r, Predicts sv ops i Qs e (.ok r) → ∃ r', Predicts sv (ops ++ [.set i (m.fk.amplify c) ew]) i Qs e' (.ok r') ∧
      ∀ d < m.gp.outputDim, ∀ j < (queryLens Qs).getD d 0,
        (r'.1.getD d []).getD j 0 = (r.1.getD d []).getD j 0 ∧ (r'.2.getD d []).getD j 0 = c * (r.2.getD d []).getD j 0) ∧
    ∃ y z, Tells sv ops i .normalQuadratic e (.number y) ∧ Tells sv ops i .logLikelihood e (.extended (some z)) ∧
      Tells sv (ops ++ [.set i (m.fk.amplify c) ew]) i .logLikelihood e' (.extended (some (z - ((queryLens a.Xs).sum * Real.log c + (y / c - y)) / 2))) := by
  obtain ⟨k, f1, f2, f3, f4, f5, f6, f7⟩ := h.facts hs
  obtain ⟨m', hm', hf⟩ := held_set hs h (amplify_retuned f5.ready c) (amplify_sound f2 h0) hew
  obtain ⟨c1, c2⟩ := C118_parameters c h0 m.fk _ (amplify_scaled m.fk c) hu
  refine ⟨⟨m', hm', hf⟩, fun Qs hQ r hp => ?_, ?_⟩
  · exact (C118_predictions sv hs hx ops _ i i a a m m' h hm' ⟨rfl, rfl, rfl, rfl, rfl, rfl, rfl⟩ c h0 (hf ▸ c1) hu (hf ▸ c2) hn Qs hQ e e' he he' r hp).1
  · obtain ⟨-, -, -, y, z, -, -, -, -, -, t1, -, t2, t3⟩ :=
      C118_numbers sv hs hx ops _ i i a a m m' h hm' ⟨rfl, rfl, rfl, rfl, rfl, rfl, rfl⟩ c h0 (hf ▸ c1) hu (hf ▸ c2) hn e e' he he'
    exact ⟨y, z, t1, t2, t3⟩

/-- a model with an RBF and a scaled Matern kernel, in every prediction mode: four times the variances -/
example (mode : PredMode) : ∃ (a : LLGPArgs) (m : LLGP), a.prediction = mode.name ∧ Held exactSolvers [.new a quiet] 0 a m ∧ m.fk.Q = 2 ∧
    ∀ Qs, m.Accepts Qs → ∀ r, Predicts exactSolvers [.new a quiet] 0 Qs quiet (.ok r) → ∃ r' : Predicted,
      Predicts exactSolvers ([.new a quiet] ++ [.set 0 (m.fk.amplify 4) quiet]) 0 Qs quiet (.ok r') ∧ ∀ d < m.gp.outputDim, ∀ j < (queryLens Qs).getD d 0,
        (r'.1.getD d []).getD j 0 = (r.1.getD d []).getD j 0 ∧ (r'.2.getD d []).getD j 0 = 4 * (r.2.getD d []).getD j 0 := by
  obtain ⟨fk, ⟨h1, h2, h3, h4, h5, -⟩, h⟩ := exists_documented_grid
  have hd := h mode false none (by simp)
  obtain ⟨m₀, -, i2, -, i4, i5, -, i7, -, i6⟩ := model_of_documented hd (mode := mode) (metrics := false) rfl rfl h1 h2 h3 h4 rfl
  obtain ⟨fk'', g1, g2⟩ := setInputDim_fresh fk 2 hd.fresh
  rw [i6] at g1
  cases g1
  obtain ⟨m, hm, f⟩ := held_new exactSolvers_fit (by norm_num) hd (by norm_num) rfl i6 i4
  have hact : m.fk.activeDims.map Prod.fst = [[0, 1]] := by
    rw [f, i7]
    rfl
  have hu : m.fk.Unspoiled := fun g hg => by
    rw [f, i7, List.mem_singleton] at hg
    rw [hg, f]
    rintro ⟨-, hh⟩
    have hl : m₀.fk.numLmcTotal = 1 := by rw [g2.same]; exact h5
    rcases hh with hh | hh
    · have := hh 0 (by simp)
      unfold FK.IsIndep at this
      omega
    · have := (hh 0 (by simp)).1
      omega
  have hQ : m.fk.Q = 2 := by
    rw [f]
    refine g2.klen.trans ?_
    rw [h1]
    rfl
  exact ⟨_, m, rfl, hm, hQ, (C118_assign exactSolvers exactSolvers_fit (fun _ _ _ tol h _ => exactSolvers_exact h tol) _ 0 _ m hm 4 (by norm_num) hu quiet quiet_calm
    (by rw [hact]; simp) quiet quiet quiet_calm.1 quiet_calm.1).2.1⟩

end Verif
