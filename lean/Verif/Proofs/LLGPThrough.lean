import Verif.Proofs.LLGPExplained

/-! Predictions through the public methods. -/

namespace Verif

open Matrix

/-- the queries of a public method, as `_raw_predict` gets them -/
theorem Asked.inputs {sv : Solvers} {m : LLGP} {P : ℕ} {k : LLKernel} {Qs : List (NDArr ℝ)} (h : Asked sv m P k Qs) : InputsOK m.fk.D P (padded P Qs) :=
  padded_inputs h.queries h.arrays

/-- a prediction from its explained variances -/
theorem predict_from {sv : Solvers} {m : LLGP} {P : ℕ} {k : LLKernel} {Qs : List (NDArr ℝ)} (h : Asked sv m P k Qs) (hi : ∀ k ∈ m.fk.kernels, k.noIdentity)
    (e : Env) {ex : ℕ → ℝ} (hex : m.explained sv e (padded P Qs) (m.queryWs (padded P Qs)) = .ok (vmk (queryLens Qs).sum ex)) :
    ∃ r, m.gp.predict (m.rawPredict sv e) Qs = .ok r ∧ PredictionFits r (queryLens Qs) ∧ PredictedAs r m.fk.D (queryLens Qs)
      (fun d i => m.meanWith k.approx.alpha d (queryPoint P Qs d i) * (normOf m.gp d).1 + (normOf m.gp d).2)
      (fun d i => max 0 (m.fk.priorVar d (queryPoint P Qs d i) - ex (offset (queryLens Qs) d + i)) * (normOf m.gp d).1 ^ 2) := by
  obtain ⟨p, p1, p2, p3⟩ := raw_ok h.fit h.ok h.current h.inputs hi e (ex := vmk (queryLens Qs).sum ex) hex (by rw [vmk_length, padded_lens])
  rw [padded_lens] at p2 p3
  have hQ : QueriesOK m.gp.outputDim m.gp.inputDim Qs := by rw [h.ok.outputDim, h.ok.inputDim]; exact h.queries
  have hraw : m.rawPredict sv e (padded m.gp.inputDim Qs) = .ok p := by rw [h.ok.inputDim]; exact p1
  obtain ⟨⟨r, r1, r2⟩, -⟩ := predict_values m.gp h.ok.gp (m.rawPredict sv e) Qs hQ p hraw p2 []
  obtain ⟨r', r1', r3⟩ := predict_fits m.gp h.ok.gp (m.rawPredict sv e) Qs hQ p hraw p2
  rw [r1] at r1'
  cases r1'
  rw [h.ok.outputDim] at r2
  refine ⟨r, r1, r3, r2.len, r2.mlen, fun d hd i hi => ?_⟩
  obtain ⟨e1, e2⟩ := r2.entry d hd i hi
  obtain ⟨e3, e4⟩ := p3.entry d hd i hi
  have hdQ : d < Qs.length := by rw [h.queries.1]; exact hd
  have hlen : d < (queryLens Qs).length := by unfold queryLens; rw [List.length_map]; exact hdQ
  rw [e1, e2, e3, e4, pointOf_padded hdQ, vmk_getD_lt ((ownerOf_offset hlen hi).2.1)]
  exact ⟨rfl, rfl⟩

/-- what is known when `predict` returned -/
theorem predict_back {sv : Solvers} {m : LLGP} {P : ℕ} {k : LLKernel} {Qs : List (NDArr ℝ)} (h : Asked sv m P k Qs) {e : Env} {r : Predicted}
    (hr : m.gp.predict (m.rawPredict sv e) Qs = .ok r) :
    (∀ k ∈ m.fk.kernels, k.noIdentity) ∧ ∃ ex : ℕ → ℝ, m.explained sv e (padded P Qs) (m.queryWs (padded P Qs)) = .ok (vmk (queryLens Qs).sum ex) ∧
      PredictedAs r m.fk.D (queryLens Qs)
      (fun d i => m.meanWith k.approx.alpha d (queryPoint P Qs d i) * (normOf m.gp d).1 + (normOf m.gp d).2)
      (fun d i => max 0 (m.fk.priorVar d (queryPoint P Qs d i) - ex (offset (queryLens Qs) d + i)) * (normOf m.gp d).1 ^ 2) := by
  obtain ⟨p, hp⟩ := predict_raw h.queries h.ok.inputDim hr
  obtain ⟨hi, ex, h1, h2, -⟩ := raw_values h.fit h.ok h.current h.inputs hp
  rw [padded_lens] at h2
  have e1 : ex = vmk (queryLens Qs).sum fun i => ex.getD i 0 := by rw [← h2, vmk_self]
  have h1' : m.explained sv e (padded P Qs) (m.queryWs (padded P Qs)) = .ok (vmk (queryLens Qs).sum fun i => ex.getD i 0) := by rw [← e1]; exact h1
  obtain ⟨r', r1, -, r3⟩ := predict_from h hi e h1'
  rw [hr] at r1
  cases r1
  exact ⟨hi, _, h1', r3⟩

/-- errors of `_raw_predict` go through -/
theorem predict_error {sv : Solvers} {m : LLGP} {P : ℕ} {k : LLKernel} {Qs : List (NDArr ℝ)} (h : Asked sv m P k Qs) {e : Env} {x : PyErr}
    (hr : m.rawPredict sv e (padded P Qs) = .error x) : m.gp.predict (m.rawPredict sv e) Qs = .error x := by
  unfold MultiGP.predict
  rw [h.ok.inputDim, show padDims P Qs = .ok (padded P Qs) from padDims_dataset h.queries.2, ok_bind]
  unfold MultiGP.predictWith
  rw [if_neg (not_not.2 (by rw [h.inputs.len, h.ok.outputDim])), if_neg (not_not.2 fun X hX => by rw [h.inputs.cols X hX, h.ok.inputDim]), hr]
  rfl

theorem predict_identity {sv : Solvers} {m : LLGP} {P : ℕ} {k : LLKernel} {Qs : List (NDArr ℝ)} (h : Asked sv m P k Qs) (e : Env)
    (hi : ¬ ∀ k ∈ m.fk.kernels, k.noIdentity) : m.gp.predict (m.rawPredict sv e) Qs = .error .attributeError := by
  refine predict_error h ?_
  obtain ⟨ga, g1, g2⟩ := predictMean_ok h.fit h.ok h.current h.inputs
  unfold LLGP.rawPredict
  rw [g1, ok_bind, nativeVariance_identity h.ok.ready hi]
  rfl

theorem predict_explained_error {sv : Solvers} {m : LLGP} {P : ℕ} {k : LLKernel} {Qs : List (NDArr ℝ)} (h : Asked sv m P k Qs) (e : Env)
    (hi : ∀ k ∈ m.fk.kernels, k.noIdentity) {x : PyErr} (hex : m.explained sv e (padded P Qs) (m.queryWs (padded P Qs)) = .error x) :
    m.gp.predict (m.rawPredict sv e) Qs = .error x := by
  refine predict_error h ?_
  obtain ⟨ga, g1, g2⟩ := predictMean_ok h.fit h.ok h.current h.inputs
  unfold LLGP.rawPredict
  rw [g1, ok_bind, nativeVariance_ok h.ok.ready hi 0, ok_bind, g2, ok_bind]
  simp only
  unfold LLGP.queryWs at hex
  rw [hex]
  rfl

/-- row `offset + i` of the queries is point `i` of output `d` -/
theorem query_row {D P : ℕ} {Qs : List (NDArr ℝ)} (hQ : QueriesOK D P Qs) {d i : ℕ} (hd : d < D) (hi : i < (queryLens Qs).getD d 0) :
    ownerOf ((padded P Qs).map Arr2.rows) (offset (queryLens Qs) d + i) = d ∧ offset (queryLens Qs) d + i < (queryLens Qs).sum ∧
      rowPoint (padded P Qs) (offset (queryLens Qs) d + i) = queryPoint P Qs d i := by
  have hdQ : d < Qs.length := by rw [hQ.1]; exact hd
  obtain ⟨h1, h2, h3⟩ := rowPoint_offset (padded P Qs) (d := d) (i := i) (by unfold padded; rw [List.length_map]; exact hdQ) (by rw [padded_lens]; exact hi)
  rw [pointOf_padded hdQ] at h3
  rw [padded_lens] at h1 h2 h3
  rw [padded_lens]
  exact ⟨h1, h2, h3⟩

/-- with an exact solve the mean is the conditional mean -/
theorem meanWith_exact {sv : Solvers} {m : LLGP} {P : ℕ} (h : m.OK P) {k : LLKernel} (hc : m.Current sv k)
    (hx : ExactSolves sv k.approx.K m.n (m.fk.skiFull m.axesOf m.fk.extraOf m.gp.Xs) m.tol) (d : ℕ) (x : ℕ → ℝ) :
    m.meanWith k.approx.alpha d x = m.fk.skiMean m.axesOf m.fk.extraOf m.gp.Xs m.gp.Ys d x := by
  obtain ⟨a, lg, h1, h2, h3⟩ := hx m.y (y_length h)
  obtain ⟨lg', h4⟩ := hc.solved
  rw [h1] at h4
  cases h4
  unfold LLGP.meanWith FK.skiMean
  rw [Finset.sum_range]
  unfold dotProduct
  refine Finset.sum_congr rfl fun s _ => ?_
  exact congrArg (m.fk.skiCross m.axesOf m.fk.extraOf m.gp.Xs d x s * ·) (congrFun h3 s)

/-- at a point of the grid the SKI covariances with the observations are those of the grid point -/
theorem skiCross_gridpoint {m : LLGP} {P : ℕ} (h : m.OK P) {g : List ℕ × List ℕ} (hg : m.fk.activeDims = [g]) {p : ℕ} (hp : p < gridSize (m.axesOf g.1)) {x : ℕ → ℝ}
    (hx : ∀ c < g.1.length, x (g.1.getD c 0) = (gridPoint (m.axesOf g.1) p).getD c 0) (d : ℕ) :
    m.fk.skiCross m.axesOf m.fk.extraOf m.gp.Xs d x = m.fk.gridToData (m.axesOf g.1) m.fk.extraOf g m.gp.Xs d p := by
  obtain ⟨gg, d1, d2, d3, d4⟩ := h.mem_grids (g := g) (by rw [hg]; simp)
  have hw : ∀ q < gridSize (m.axesOf g.1), gridWeight (m.axesOf g.1) (coords g.1 x) q = if q = p then 1 else 0 := fun q hq =>
    gridWeight_gridpoint _ (by rw [d4]; exact fun a ha => ⟨d3.size a ha, d3.spacing a ha⟩) hp (fun c hc => hx c (by rw [d4, d3.axes] at hc; exact hc)) hq
  funext s
  unfold FK.skiCross FK.skiCov FK.gridToData
  rw [hg]
  simp only [List.map_cons, List.map_nil, List.sum_cons, List.sum_nil, add_zero]
  rw [Finset.sum_eq_single_of_mem p (Finset.mem_range.2 hp)]
  · refine Finset.sum_congr rfl fun q _ => ?_
    rw [hw p hp, if_pos rfl, one_mul]
  · intro q hq hne
    refine Finset.sum_eq_zero fun q' _ => ?_
    rw [hw q (Finset.mem_range.1 hq), if_neg hne, zero_mul, zero_mul]

/-- no group has the extra diagonal of C33 -/
theorem extraOf_documented {fk : FK} (h : ∀ g ∈ fk.activeDims, ¬ Spoiled fk g) (axes : List ℕ → List (List ℝ)) (a b : ℕ) (x z : ℕ → ℝ) :
    fk.skiCov axes fk.extraOf a b x z = fk.skiCov axes noExtra a b x z := by
  unfold FK.skiCov
  refine congrArg List.sum (List.map_congr_left fun g hg => ?_)
  have : fk.extraOf g = noExtra g := by unfold FK.extraOf noExtra; rw [if_neg (h g hg)]
  rw [this]

end Verif
