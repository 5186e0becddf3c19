import Verif.Proofs.Continuity
import Verif.Spec.Documented

/-! C114: small changes of the parameters change the answers little. -/

namespace Verif

open Matrix Filter Topology

variable {ι : Type} {l : Filter ι}

theorem nearFunction_of {P : ℕ} {P' : ι → ℕ} {m : LLGP} {m' : ι → LLGP} {a : LLGPArgs} {a' : ι → LLGPArgs} (ha : m.MadeFrom P a) (ha' : ∀ t, (m' t).MadeFrom (P' t) (a' t))
    (ok : m.OK P) (ok' : ∀ t, (m' t).OK (P' t)) (hp : ∀ t, a.SameProblem (a' t)) (hm : ∀ t, (m' t).prediction = m.prediction)
    (hc : CovarianceTends l (fun t => (m' t).fk) m.fk) (hs : ∀ t, SpoiledAlike m.fk (m' t).fk) : NearFunction l P m m' := by
  obtain ⟨fk, m0, hd, hi, g1, g2, g3⟩ := ha
  have hgp : ∀ t, (m' t).gp = m.gp := fun t => by
    obtain ⟨fk', m0', hd', hi', g1', g2', g3'⟩ := ha' t
    obtain ⟨p1, p2, p3, -⟩ := hp t
    obtain ⟨-, -, -, -, -, e⟩ := init_fields hi
    obtain ⟨-, -, -, -, -, e'⟩ := init_fields hi'
    rw [p1, p2, p3, e] at e'
    rw [g1, g1']
    exact (Except.ok.inj e').symm
  have hP : ∀ t, P' t = P := fun t => by rw [← ok.inputDim, ← (ok' t).inputDim, hgp t]
  refine ⟨ok, fun t => hP t ▸ ok' t, hc, hs, hm, hgp, fun t ad had => ?_⟩
  obtain ⟨fk', m0', hd', hi', g1', g2', g3'⟩ := ha' t
  obtain ⟨-, -, -, p4, p5, p6, -⟩ := hp t
  obtain ⟨-, -, -, -, q⟩ := documented_fields hd hi
  obtain ⟨-, -, -, -, q'⟩ := documented_fields hd' hi'
  have had' : ad ∈ (m' t).fk.activeDims.map Prod.fst := by
    rw [key_iff (ok' t).ready (ok' t).groups, hc.dims, ← key_iff ok.ready ok.groups]
    exact had
  rw [g3] at had
  rw [g3'] at had'
  rw [p4, p5, p6, ← g1', hgp] at q'
  rw [← g1] at q
  obtain ⟨g, x1, x2⟩ := generateGrids_at q had
  obtain ⟨g', y1, y2⟩ := generateGrids_at q' had'
  rw [x1] at y1
  cases y1
  unfold LLGP.axesOf
  rw [g2, g2', x2, y2]

theorem quantiles_of_predict {sv : Solvers} {m : LLGP} {P : ℕ} {k : LLKernel} {Qs : List (NDArr ℝ)} (h : Asked sv m P k Qs) {e : Env} {r : Predicted}
    (hr : m.gp.predict (m.rawPredict sv e) Qs = .ok r) (qs : List ℝ) :
    ∃ Q : List (Arr2 ℝ), m.gp.predictQuantiles (m.rawPredict sv e) Qs qs = .ok Q ∧ ∀ d < m.fk.D, ∀ i < (queryLens Qs).getD d 0, ∀ j < qs.length,
      (Q.getD d ⟨0, 0, []⟩).get i j = (r.1.getD d []).getD i 0 + Real.sqrt ((r.2.getD d []).getD i 0) * normPpf (qs.getD j 0 / 100) := by
  obtain ⟨hi, ex, h1, -⟩ := predict_back h hr
  obtain ⟨p, p1, p2, -⟩ := raw_ok h.fit h.ok h.current h.inputs hi e (ex := vmk (queryLens Qs).sum ex) h1 (by rw [vmk_length, padded_lens])
  rw [padded_lens] at p2
  have hQ : QueriesOK m.gp.outputDim m.gp.inputDim Qs := by rw [h.ok.outputDim, h.ok.inputDim]; exact h.queries
  obtain ⟨⟨r', h1, h2⟩, Q, h3, -, h5⟩ := predict_values m.gp h.ok.gp (m.rawPredict sv e) Qs hQ p (by rw [h.ok.inputDim]; exact p1) p2 qs
  rw [hr] at h1
  cases h1
  refine ⟨Q, h3, fun d hd i hi j hj => ?_⟩
  rw [← h.ok.outputDim] at hd
  rw [(h5 d hd).2.2.2 i hi j hj, (h2.entry d hd i hi).1, (h2.entry d hd i hi).2, Real.sqrt_mul' _ (sq_nonneg _), Real.sqrt_sq (normOf_nonneg h.ok.gp hd)]
  ring

/-- C114, predictions: let programs that use their models as documented hold models of the same data, with the same grids and prediction mode, whose covariance functions tend
to that of a model held by another. If that model answers a prediction so do the others, and every mean and variance they predict tends to its. The same holds for the
quantiles. (In every prediction mode; with linear solves that are exact; kernels do not read a dimension twice.) -/
theorem C114_predictions (sv : Solvers) (hs : sv.Fit) (hx : sv.Exact) (ops : List Op) (ops' : ι → List Op) (i : ℕ) (i' : ι → ℕ) (a : LLGPArgs) (a' : ι → LLGPArgs)
    (m : LLGP) (m' : ι → LLGP) (h : Held sv ops i a m) (h' : ∀ t, Held sv (ops' t) (i' t) (a' t) (m' t)) (hp : ∀ t, a.SameProblem (a' t))
    (hc : CovarianceTends l (fun t => (m' t).fk) m.fk) (hsp : ∀ t, SpoiledAlike m.fk (m' t).fk) (hn : ∀ ad ∈ m.fk.activeDims.map Prod.fst, ad.Nodup)
    (Qs : List (NDArr ℝ)) (hQ : m.Accepts Qs) (e : Env) (e' : ι → Env) (he : e.Works) (he' : ∀ t, (e' t).Works) (r : Predicted) (hr : Predicts sv ops i Qs e (.ok r)) :
    (∃ r' : ι → Predicted, (∀ t, Predicts sv (ops' t) (i' t) Qs (e' t) (.ok (r' t))) ∧ PredictionsTend l m.gp.outputDim (queryLens Qs) r' r) ∧
    ∀ qs, ∃ (Z : List (Arr2 ℝ)) (Z' : ι → List (Arr2 ℝ)), Tells sv ops i (.quantiles Qs qs) e (.quantiles Z) ∧
      (∀ t, Tells sv (ops' t) (i' t) (.quantiles Qs qs) (e' t) (.quantiles (Z' t))) ∧
      ∀ d < m.gp.outputDim, ∀ j < (queryLens Qs).getD d 0, ∀ z < qs.length,
        Tendsto (fun t => ((Z' t).getD d ⟨0, 0, []⟩).get j z) l (𝓝 ((Z.getD d ⟨0, 0, []⟩).get j z)) := by
  obtain ⟨k, f1, f2, f3, f4, f5, f6, f7⟩ := h.facts hs
  choose k' g1 g2 g3 g4 g5 g6 g7 using fun t => (h' t).facts hs
  have R := nearFunction_of f1 g1 f5 g5 hp (fun t => held_prediction hs h (h' t) (hp t).2.2.2.2.2.2) hc hsp
  have hp' := predicts_unique hr (f7 Qs e he)
  obtain ⟨r', w1, w2⟩ := R.predictions hs hx f6 g6 f2 g2 hn he he' (by rw [← f3]; exact hQ.1) hQ.2 hp'
  rw [f3]
  refine ⟨⟨r', fun t => w1 t ▸ g7 t Qs (e' t) (he' t), w2⟩, fun qs => ?_⟩
  have hQ' : ∀ t, (m' t).Accepts Qs := fun t => by
    unfold LLGP.Accepts
    rw [R.gp t]
    exact hQ
  obtain ⟨Z, z1, z2⟩ := quantiles_of_predict (f4 Qs hQ) hp' qs
  choose Z' y1 y2 using fun t => quantiles_of_predict (g4 t Qs (hQ' t)) (w1 t) qs
  refine ⟨Z, Z', ?_, fun t => ?_, fun d hd j hj z hz => ?_⟩
  · show results sv _ = _
    rw [(C48_answers sv ops (validFrom_works ops [] h.valid) i m h.model (by rw [f6.kernel]; simp) _ e he).1]
    show _ ++ [(m.gp.predictQuantiles (m.rawPredict sv e) Qs qs).map Answer.quantiles] = _
    rw [z1]
    rfl
  · show results sv _ = _
    rw [(C48_answers sv (ops' t) (validFrom_works (ops' t) [] (h' t).valid) (i' t) (m' t) (h' t).model (by rw [(g6 t).kernel]; simp) _ (e' t) (he' t)).1]
    show _ ++ [((m' t).gp.predictQuantiles ((m' t).rawPredict sv (e' t)) Qs qs).map Answer.quantiles] = _
    rw [y1 t]
    rfl
  · rw [z2 d hd j hj z hz]
    simp only [fun t => y2 t d (by rw [hc.outputs]; exact hd) j hj z hz]
    obtain ⟨v1, v2⟩ := w2 d hd j hj
    exact v1.add (((Real.continuous_sqrt.tendsto _).comp v2).mul_const _)

/-- C114, the other answers: under the same conditions the log likelihood, the log determinant, the quadratic form and every entry of the covariance matrix tend to those of
the limit model. -/
theorem C114_numbers (sv : Solvers) (hs : sv.Fit) (hx : sv.Exact) (ops : List Op) (ops' : ι → List Op) (i : ℕ) (i' : ι → ℕ) (a : LLGPArgs) (a' : ι → LLGPArgs)
    (m : LLGP) (m' : ι → LLGP) (h : Held sv ops i a m) (h' : ∀ t, Held sv (ops' t) (i' t) (a' t) (m' t)) (hp : ∀ t, a.SameProblem (a' t))
    (hc : CovarianceTends l (fun t => (m' t).fk) m.fk) (hsp : ∀ t, SpoiledAlike m.fk (m' t).fk) (hn : ∀ ad ∈ m.fk.activeDims.map Prod.fst, ad.Nodup)
    (e : Env) (e' : ι → Env) (he : e.Works) (he' : ∀ t, (e' t).Works) :
    (∃ (z : ℝ) (z' : ι → ℝ), Tells sv ops i .logLikelihood e (.extended (some z)) ∧ (∀ t, Tells sv (ops' t) (i' t) .logLikelihood (e' t) (.extended (some (z' t)))) ∧ Tendsto z' l (𝓝 z)) ∧
    (∃ (x : ℝ) (x' : ι → ℝ), Tells sv ops i .logDet e (.extended (some x)) ∧ (∀ t, Tells sv (ops' t) (i' t) .logDet (e' t) (.extended (some (x' t)))) ∧ Tendsto x' l (𝓝 x)) ∧
    (∃ (y : ℝ) (y' : ι → ℝ), Tells sv ops i .normalQuadratic e (.number y) ∧ (∀ t, Tells sv (ops' t) (i' t) .normalQuadratic (e' t) (.number (y' t))) ∧ Tendsto y' l (𝓝 y)) ∧
    ∃ (K : Arr2 ℝ) (K' : ι → Arr2 ℝ), Tells sv ops i .covariance e (.matrix K) ∧ (∀ t, Tells sv (ops' t) (i' t) .covariance (e' t) (.matrix (K' t))) ∧
      ∀ r < (queryLens a.Xs).sum, ∀ s < (queryLens a.Xs).sum, Tendsto (fun t => (K' t).get r s) l (𝓝 (K.get r s)) := by
  obtain ⟨k, f1, f2, f3, f4, f5, f6, f7⟩ := h.facts hs
  choose k' g1 g2 g3 g4 g5 g6 g7 using fun t => (h' t).facts hs
  have R := nearFunction_of f1 g1 f5 g5 hp (fun t => held_prediction hs h (h' t) (hp t).2.2.2.2.2.2) hc hsp
  obtain ⟨L, L', x, y, z, x', y', z', l1, l2, l3, ⟨x1, x2, x3⟩, ⟨y1, y2, y3⟩, z1, z2, z3⟩ := R.numbers hs hx f6 g6 f2 g2 hn
  have ans : ∀ q, results sv (ops ++ [.ask i q e]) = results sv ops ++ [m.answer sv e q] := fun q =>
    (C48_answers sv ops (validFrom_works ops [] h.valid) i m h.model (by rw [f6.kernel]; simp) q e he).1
  have ans' : ∀ t q, results sv (ops' t ++ [.ask (i' t) q (e' t)]) = results sv (ops' t) ++ [(m' t).answer sv (e' t) q] := fun t q =>
    (C48_answers sv (ops' t) (validFrom_works (ops' t) [] (h' t).valid) (i' t) (m' t) (h' t).model (by rw [(g6 t).kernel]; simp) q (e' t) (he' t)).1
  have hrows : (m.gp.Xs.map Arr2.rows).sum = (queryLens a.Xs).sum := by rw [(MadeFrom.scale f1).1, padded_lens]
  refine ⟨⟨z, z', ?_, fun t => ?_, z3⟩, ⟨x, x', ?_, fun t => ?_, x3⟩, ⟨y, y', ?_, fun t => ?_, y3⟩, L.K, fun t => (L' t).K, ?_, fun t => ?_, fun r hr s hs' => ?_⟩
  · unfold Tells
    rw [ans]
    show _ ++ [(do let l ← m.dense; m.logLikelihoodOf l).map Answer.extended] = _
    rw [l1, ok_bind, z1]
    rfl
  · unfold Tells
    rw [ans']
    show _ ++ [(do let l ← (m' t).dense; (m' t).logLikelihoodOf l).map Answer.extended] = _
    rw [l2 t, ok_bind, z2 t]
    rfl
  · unfold Tells
    rw [ans]
    show _ ++ [m.dense.map fun l => Answer.extended (logDetOf l)] = _
    rw [l1, ← x1]
    rfl
  · unfold Tells
    rw [ans']
    show _ ++ [(m' t).dense.map fun l => Answer.extended (logDetOf l)] = _
    rw [l2 t, ← x2 t]
    rfl
  · unfold Tells
    rw [ans]
    show _ ++ [m.normalQuadratic.map Answer.number] = _
    rw [y1]
    rfl
  · unfold Tells
    rw [ans']
    show _ ++ [(m' t).normalQuadratic.map Answer.number] = _
    rw [y2 t]
    rfl
  · unfold Tells
    rw [ans]
    show _ ++ [m.dense.map fun l => Answer.matrix l.K] = _
    rw [l1]
    rfl
  · unfold Tells
    rw [ans']
    show _ ++ [(m' t).dense.map fun l => Answer.matrix l.K] = _
    rw [l2 t]
    rfl
  · exact l3 r (by unfold LLGP.n; rw [hrows]; exact hr) s (by unfold LLGP.n; rw [hrows]; exact hs')

theorem KernTends.doc {k : ι → Kern} {k₀ : Kern} (h : KernTends l k k₀) (r : ℝ) : Tendsto (fun t => (k t).doc r) l (𝓝 (k₀.doc r)) := by
  induction h with
  | rbf ad h => exact (Real.continuous_exp.tendsto _).comp ((h.neg.mul_const _).div_const _)
  | matern32 ad h =>
    exact (((h.const_mul r).mul_const (Real.sqrt 3)).const_add 1).mul ((Real.continuous_exp.tendsto _).comp ((h.mul_const r).mul_const (Real.sqrt 3)).neg)
  | stdPeriodic ad h hT h0 =>
    exact (Real.continuous_exp.tendsto _).comp ((h.neg.div_const 2).mul (((Real.continuous_sin.tendsto _).comp (tendsto_const_nhds.div hT h0)).pow 2))
  | identity ad => exact tendsto_const_nhds
  | scaled ad hk h ih => exact h.mul ih

theorem KernTends.dims {k : ι → Kern} {k₀ : Kern} (h : KernTends l k k₀) (t : ι) : (k t).activeDims = k₀.activeDims := by
  cases h <;> rfl

theorem KernTends.const : ∀ {k : Kern}, k.Valid → KernTends l (fun _ => k) k
  | .rbf g ad, _ => .rbf ad tendsto_const_nhds
  | .matern32 g ad, _ => .matern32 ad tendsto_const_nhds
  | .stdPeriodic g T ad, h => .stdPeriodic ad tendsto_const_nhds tendsto_const_nhds ((Real.exp_pos _).trans h.2).ne'
  | .identity ad, _ => .identity ad
  | .scaled k s ad, h => .scaled ad (KernTends.const h.1) tendsto_const_nhds

/-- C114: when the covariance functions tend: if the kernels have the same types and dimensions and all the numbers (length scales, periods, scales, entries of the
coregionalization vectors and diagonals, noise) tend. -/
theorem C114_parameters (u : ι → FK) (fk : FK) (h : ParametersTend l u fk) (hg : fk.GroupsOK) : CovarianceTends l u fk ∧ ∀ t, SpoiledAlike fk (u t) := by
  have hk : ∀ t, ∀ q < fk.Q, (u t).kdims q = fk.kdims q := fun t q hq => by
    unfold FK.kdims
    rw [(h.kernels q hq).dims t]
  refine ⟨⟨fun t => (h.shape t).1, fun t ad => ?_, fun ad a ha b hb r _ => ?_, h.noise⟩, fun t g hgm g' hgm' he => ?_⟩
  · rw [(h.shape t).2.1]
    exact ⟨fun ⟨q, hq, e⟩ => ⟨q, hq, by rw [← hk t q hq]; exact e⟩, fun ⟨q, hq, e⟩ => ⟨q, hq, by rw [hk t q hq]; exact e⟩⟩
  · have e : ∀ t, (u t).onDims ad a b r = ∑ q ∈ (Finset.range fk.Q).filter (fun q => fk.kdims q = ad), (u t).B q a b * ((u t).kernels.getD q (.identity none)).doc r := fun t => by
      unfold FK.onDims
      rw [(h.shape t).2.1]
      refine Finset.sum_congr (Finset.filter_congr fun q hq => ?_) fun _ _ => rfl
      rw [hk t q (Finset.mem_range.1 hq)]
    simp only [e]
    unfold FK.onDims
    refine tendsto_finsetSum _ fun q hq => ?_
    have hq' : q < fk.Q := Finset.mem_range.1 (Finset.mem_filter.1 hq).1
    refine Tendsto.mul ?_ ((h.kernels q hq').doc r)
    unfold FK.B
    simp only [fun t => (h.shape t).2.2.2.2.2.2.2.2 q]
    refine (tendsto_finsetSum _ fun s _ => (h.vecs q hq' s a).mul (h.vecs q hq' s b)).add ?_
    by_cases hab : a = b
    · simp only [if_pos hab]
      exact h.diags q hq' a
    · simp only [if_neg hab]
      exact tendsto_const_nhds
  · obtain ⟨s1, s2, s0, s3, s4, s5, s6, s7, s8⟩ := h.shape t
    rw [s5] at hgm'
    have hgg : g' = g := List.inj_on_of_nodup_map hg.nodup hgm' hgm he
    have hch : chooseKType (u t) g.1 = chooseKType fk g.1 := by
      unfold chooseKType FK.totalRank FK.assertP
      rw [s1, s2, s3, s4, s5, s6, s7, s0]
      simp only [s8]
    rw [hgg]
    unfold Spoiled FK.IsIndep FK.IsSlfm
    rw [hch, s3, s4]

theorem history_length (u : Bool) (sv : Solvers) : ∀ (ops : List Op) (w : World), (history u sv ops w).1.length = ops.length
  | [], _ => rfl
  | _ :: ops, _ => congrArg (· + 1) (history_length u sv ops _)

theorem held_set {sv : Solvers} (hs : sv.Fit) {ops : List Op} {i : ℕ} {a : LLGPArgs} {m : LLGP} (h : Held sv ops i a m) {fk : FK} (hr : m.fk.Retuned fk) (hso : fk.Sound) {e : Env}
    (he : e.Calm) : ∃ m', Held sv (ops ++ [.set i fk e]) i a m' ∧ m'.fk = fk := by
  obtain ⟨fks, H, hv⟩ := valid_extend hs ops [] World.start (healthy_start sv) h.valid
  have hm : (history true sv ops World.start).2.heap i = some m := h.model
  obtain ⟨P, k, q2, q4, q5, -⟩ := H.at hm
  have hi : i < fks.length := by
    by_contra hh
    rw [H.fresh i (by rw [H.next]; omega)] at hm
    cases hm
  obtain ⟨m₁, P₁, k₁, r1, r2, r3, -⟩ := H.model i fks[i] (List.getElem?_eq_getElem hi)
  rw [hm] at r1
  cases r1
  obtain ⟨m', k', c, h1, h2, h3, -⟩ := set_completes hs q2 hr q4 he (fun _ => sound_posDef (q2.retuned hr) hso) true hm
  refine ⟨m', ⟨hv _ ⟨m.fk, by rw [List.getElem?_eq_getElem hi, r3], hr, hso, he, trivial⟩, ?_, ?_⟩, h3⟩
  · unfold modelsAfter
    rw [history_append]
    show (execOp true sv (.set i fk e) (history true sv ops World.start).2).2.heap i = _
    rw [h1]
    exact put_heap _ _ _
  · obtain ⟨g, hg⟩ := h.args
    refine ⟨some fk, ?_⟩
    have ht : trace sv (ops ++ [.set i fk e]) = trace sv ops ++ [(.set i fk e, .ok .unit)] := by
      show (ops ++ [Op.set i fk e]).zip (results sv (ops ++ [Op.set i fk e])) = _
      rw [results_one, h1, List.zip_append (show ops.length = (results sv ops).length from (history_length true sv ops World.start).symm)]
      rfl
    rw [ht, setUp_append, hg]
    show (if i = i then (some (a, g)).map fun af => (af.1, some fk) else _) = _
    rw [if_pos rfl]
    rfl

/-- C114, for assignments to the parameters of a model: if the numbers assigned tend to the present ones, the predictions after the assignment tend to the present ones, in
every prediction mode, and so does the log likelihood. -/
theorem C114_assign (sv : Solvers) (hs : sv.Fit) (hx : sv.Exact) (ops : List Op) (i : ℕ) (a : LLGPArgs) (m : LLGP) (h : Held sv ops i a m) (u : ι → FK)
    (hr : ∀ t, m.fk.Retuned (u t)) (hso : ∀ t, (u t).Sound) (hu : ParametersTend l u m.fk) (ew : ι → Env) (hew : ∀ t, (ew t).Calm)
    (hn : ∀ ad ∈ m.fk.activeDims.map Prod.fst, ad.Nodup) (e : Env) (e' : ι → Env) (he : e.Works) (he' : ∀ t, (e' t).Works) :
    (∀ Qs, m.Accepts Qs → ∀ r, Predicts sv ops i Qs e (.ok r) → ∃ r' : ι → Predicted, (∀ t, Predicts sv (ops ++ [.set i (u t) (ew t)]) i Qs (e' t) (.ok (r' t))) ∧
      PredictionsTend l m.gp.outputDim (queryLens Qs) r' r) ∧
    ∃ (z : ℝ) (z' : ι → ℝ), Tells sv ops i .logLikelihood e (.extended (some z)) ∧
      (∀ t, Tells sv (ops ++ [.set i (u t) (ew t)]) i .logLikelihood (e' t) (.extended (some (z' t)))) ∧ Tendsto z' l (𝓝 z) := by
  choose m' hm' hf using fun t => held_set hs h (hr t) (hso t) (hew t)
  obtain ⟨k, -, -, -, -, f5, -⟩ := h.facts hs
  obtain ⟨c1, c2⟩ := C114_parameters u m.fk hu f5.groups
  have c1' : CovarianceTends l (fun t => (m' t).fk) m.fk := by simp only [hf]; exact c1
  have c2' : ∀ t, SpoiledAlike m.fk (m' t).fk := fun t => by rw [hf t]; exact c2 t
  refine ⟨fun Qs hQ r hp => ?_, ?_⟩
  · exact (C114_predictions sv hs hx ops _ i (fun _ => i) a (fun _ => a) m m' h hm' (fun _ => ⟨rfl, rfl, rfl, rfl, rfl, rfl, rfl⟩) c1' c2' hn Qs hQ e e' he he' r hp).1
  · exact (C114_numbers sv hs hx ops _ i (fun _ => i) a (fun _ => a) m m' h hm' (fun _ => ⟨rfl, rfl, rfl, rfl, rfl, rfl, rfl⟩) c1' c2' hn e e' he he').1

/-- a model with an RBF and a scaled Matern kernel: when the length scale of the first and the noise are assigned values that tend to the present ones, all predictions tend to
the present ones -/
example (mode : PredMode) : ∃ (a : LLGPArgs) (m : LLGP) (u : ℕ → FK), a.prediction = mode.name ∧ Held exactSolvers [.new a quiet] 0 a m ∧
    (∀ t, ((u t).kernels.getD 0 (.identity none)).params = [1 + 1 / ((t : ℝ) + 1)] ∧ (u t).noise = m.fk.noise.map (· + 1 / ((t : ℝ) + 1))) ∧
    ∀ Qs, m.Accepts Qs → ∀ r, Predicts exactSolvers [.new a quiet] 0 Qs quiet (.ok r) → ∃ r' : ℕ → Predicted,
      (∀ t, Predicts exactSolvers ([.new a quiet] ++ [.set 0 (u t) quiet]) 0 Qs quiet (.ok (r' t))) ∧ PredictionsTend atTop m.gp.outputDim (queryLens Qs) r' r := by
  obtain ⟨fk, ⟨h1, h2, h3, h4, -⟩, h⟩ := exists_documented_grid
  have hd := h mode false none (by simp)
  obtain ⟨m0, fk', i1, i2, i3, i4, i5⟩ := llgpInit_documented hd (by norm_num)
  obtain ⟨fk'', g1, g2⟩ := setInputDim_fresh fk 2 hd.fresh
  rw [i3] at g1
  cases g1
  have hQ : fk.Q = 2 := by unfold FK.Q; rw [h1]; rfl
  have hQ' : fk'.Q = 2 := g2.klen.trans hQ
  have k0 : fk'.kernels.getD 0 (.identity none) = .rbf 1 (some [0, 1]) := by
    rw [g2.kern 0 (by rw [h1]; simp), h1]
    rfl
  have k1 : fk'.kernels.getD 1 (.identity none) = .scaled (.matern32 1 none) 1 (some [0, 1]) := by
    rw [g2.kern 1 (by rw [h1]; simp), h1]
    rfl
  have hready : fk'.Ready 2 := i4 ▸ i2.ready
  have hgroups : fk'.GroupsOK := i4 ▸ i2.groups
  have hker : ∀ q < fk'.Q, q = 0 ∨ q = 1 := fun q hq => by omega
  have hnoise : ∀ d < fk'.D, 0 < fk'.noise.getD d 0 := by rw [g2.same]; exact h3
  have hkap : ∀ q < fk'.Q, ∀ d < fk'.D, 0 ≤ (fk'.coregDiags.getD q []).getD d 0 := by
    rw [hQ', ← hQ, g2.same]
    exact h2
  have hsound : ∀ (f : FK), f.Ready 2 → f.Q = 2 → f.coregDiags = fk'.coregDiags → f.D = fk'.D → (∀ d < f.D, 0 < f.noise.getD d 0) →
      (∃ g, f.kernels.getD 0 (.identity none) = .rbf g (some [0, 1])) → f.kernels.getD 1 (.identity none) = .scaled (.matern32 1 none) 1 (some [0, 1]) → f.Sound := by
    rintro f r1 r2 r3 r4 r5 ⟨g, r6⟩ r7
    refine ⟨fun q hq => C36_kernels_psd f 2 r1 q hq (.inl ?_), fun k hk => ?_, fun q hq d hd => ?_, r5⟩
    · rw [r2] at hq
      interval_cases q
      · rw [r6]; trivial
      · rw [r7]; trivial
    · obtain ⟨q, hq, rfl⟩ := mem_getD hk (.identity none)
      have hq : q < 2 := by rw [← r2]; exact hq
      interval_cases q
      · rw [r6]; trivial
      · rw [r7]; trivial
    · rw [r3]
      exact hkap q (by rw [hQ', ← r2]; exact hq) d (by rw [← r4]; exact hd)
  obtain ⟨m, hm, e⟩ := held_new exactSolvers_fit (by norm_num) hd (by norm_num) rfl i3 (hsound fk' hready hQ' rfl rfl hnoise ⟨1, k0⟩ k1)
  set ε : ℕ → ℝ := fun t => 1 / ((t : ℝ) + 1) with hε
  have hpos : ∀ t, 0 < ε t := fun t => by rw [hε]; positivity
  have hlim : Tendsto ε atTop (𝓝 0) := tendsto_one_div_add_atTop_nhds_zero_nat
  have hlen : fk'.kernels.length = 2 := hQ'
  set u : ℕ → FK := fun t => { fk' with kernels := fk'.kernels.set 0 (.rbf (1 + ε t) (some [0, 1])), noise := fk'.noise.map (· + ε t) } with hu
  have u0 : ∀ t, (u t).kernels.getD 0 (.identity none) = .rbf (1 + ε t) (some [0, 1]) := fun t => by
    show (fk'.kernels.set 0 _).getD 0 _ = _
    rw [List.getD_eq_getElem _ _ (by rw [List.length_set, hlen]; norm_num), List.getElem_set_self]
  have u1 : ∀ t, (u t).kernels.getD 1 (.identity none) = fk'.kernels.getD 1 (.identity none) := fun t => by
    show (fk'.kernels.set 0 _).getD 1 _ = _
    rw [List.getD_eq_getElem _ _ (by rw [List.length_set, hlen]; norm_num), List.getElem_set_ne (by norm_num), List.getD_eq_getElem _ _ (by rw [hlen]; norm_num)]
  have uQ : ∀ t, (u t).kernels.length = fk'.kernels.length := fun t => List.length_set
  have un : ∀ t, ∀ d < fk'.D, (u t).noise.getD d 0 = fk'.noise.getD d 0 + ε t := fun t d hd => by
    show (fk'.noise.map (· + ε t)).getD d 0 = _
    rw [map_getD_lt (by rw [hready.wf.noise]; exact hd)]
  have hw := hready.wf
  have hret : ∀ t, fk'.Retuned (u t) := fun t => by
    refine ⟨⟨hw.Dpos, hw.vecs.trans (uQ t).symm, hw.diags.trans (uQ t).symm, by show (fk'.noise.map _).length = _; rw [List.length_map]; exact hw.noise,
      (uQ t) ▸ hw.counts, by rw [uQ t]; exact hw.vec, by rw [uQ t]; exact hw.diag, hw.slfm, hw.slfmRank, hw.indep⟩, rfl, rfl, rfl, rfl, rfl, rfl, rfl, rfl, uQ t, fun q hq => ?_, fun k hk => ?_⟩
    · rcases hker q hq with rfl | rfl
      · rw [u0, k0]; rfl
      · rw [u1]
    · obtain ⟨q, hq, rfl⟩ := mem_getD hk (.identity none)
      rw [uQ t] at hq
      rcases hker q hq with rfl | rfl
      · rw [u0]
        show 0 < 1 + ε t
        linarith [hpos t]
      · rw [u1]
        exact hready.valid _ (getD_mem_of_lt hq _)
  have hso : ∀ t, (u t).Sound := fun t => hsound (u t) (ready_retuned hready (hret t)) ((uQ t).trans hQ') rfl rfl
    (fun d hd => by rw [un t d hd]; linarith [hnoise d hd, hpos t]) ⟨_, u0 t⟩ ((u1 t).trans k1)
  have htend : ParametersTend atTop u fk' := by
    refine ⟨fun t => ⟨rfl, uQ t, rfl, rfl, rfl, rfl, rfl, rfl, fun _ => rfl⟩, fun q hq => ?_, fun _ _ _ _ => tendsto_const_nhds, fun _ _ _ => tendsto_const_nhds, fun d hd => ?_⟩
    · rcases hker q hq with rfl | rfl
      · simp only [u0, k0]
        refine .rbf _ ?_
        simpa using hlim.const_add 1
      · simp only [u1]
        exact .const (hready.valid _ (getD_mem_of_lt hq _))
    · simp only [fun t => un t d hd]
      simpa using hlim.const_add (fk'.noise.getD d 0)
  refine ⟨_, m, u, rfl, hm, fun t => ⟨by rw [u0]; rfl, by rw [e]⟩, ?_⟩
  refine (C114_assign exactSolvers exactSolvers_fit (fun K n A tol hK _ => exactSolvers_exact hK tol) _ 0 _ m hm u (by rw [e]; exact hret) hso (by rw [e]; exact htend) (fun _ => quiet)
    (fun _ => quiet_calm) ?_ quiet (fun _ => quiet) quiet_calm.1 fun _ => quiet_calm.1).1
  rw [e]
  intro ad had
  obtain ⟨q, hq, rfl⟩ := (key_iff hready hgroups ad).1 had
  unfold FK.kdims
  rcases hker q hq with rfl | rfl
  · rw [k0]; simp [Kern.activeDims]
  · rw [k1]; simp [Kern.activeDims]

end Verif
