import Verif.Proofs.Beyond
import Verif.Props.Smooth

/-!
C94: predictions outside the grids and far from the data.
-/

namespace Verif
open Matrix

/-- C94, means: two points that lie past the same ends of the grids (and have the same other coordinates) get the same predicted mean: outside the grids the
mean is constant in the coordinates that left them, whatever the model and its solver. In particular it does not return to the mean of the prior. -/
theorem C94_mean_constant (sv : Solvers) (m : LLGP) (P : ℕ) (k : LLKernel) (Qs Qs' : List (NDArr ℝ)) (h : Asked sv m P k Qs) (h' : Asked sv m P k Qs') (e e' : Env)
    (r r' : Predicted) (hr : m.gp.predict (m.rawPredict sv e) Qs = .ok r) (hr' : m.gp.predict (m.rawPredict sv e') Qs' = .ok r') (d : ℕ) (hd : d < m.fk.D)
    (i i' : ℕ) (hi : i < (queryLens Qs).getD d 0) (hi' : i' < (queryLens Qs').getD d 0) (hx : m.SeenAlike (queryPoint P Qs d i) (queryPoint P Qs' d i')) :
    (r.1.getD d []).getD i 0 = (r'.1.getD d []).getD i' 0 := by
  obtain ⟨-, ex, -, h2⟩ := predict_back h hr
  obtain ⟨-, ex', -, h2'⟩ := predict_back h' hr'
  rw [(h2.entry d hd i hi).1, (h2'.entry d hd i' hi').1, mean_seen h.ok hx]

/-- C94, variances of the mode `precompute`: they too are constant outside the grids. -/
theorem C94_variance_constant (sv : Solvers) (m : LLGP) (P : ℕ) (k : LLKernel) (Qs Qs' : List (NDArr ℝ)) (h : Asked sv m P k Qs) (h' : Asked sv m P k Qs') (e e' : Env)
    (he : e.Works) (he' : e'.Works) (hm : m.prediction = .precompute)
    (r r' : Predicted) (hr : m.gp.predict (m.rawPredict sv e) Qs = .ok r) (hr' : m.gp.predict (m.rawPredict sv e') Qs' = .ok r') (d : ℕ) (hd : d < m.fk.D)
    (i i' : ℕ) (hi : i < (queryLens Qs).getD d 0) (hi' : i' < (queryLens Qs').getD d 0) (hx : m.SeenAlike (queryPoint P Qs d i) (queryPoint P Qs' d i')) :
    (r.2.getD d []).getD i 0 = (r'.2.getD d []).getD i' 0 := by
  obtain ⟨-, ex, h1, h2⟩ := predict_back h hr
  obtain ⟨-, ex', h1', h2'⟩ := predict_back h' hr'
  obtain ⟨g, hg, hg1⟩ : ∃ g, m.fk.activeDims = [g] ∧ g.1 = List.range P := by
    have := ((C43_returns sv m P k Qs h e he).2.1 ⟨r, hr⟩).2
    unfold LLGP.CanPredict at this
    rwa [hm] at this
  obtain ⟨sol, hsol⟩ := exists_solvesTo h.fit (current_facts h.fit h.ok h.current).1 1e-4
  rw [explained_pre h.fit h.ok hm h.current hsol (Xs := padded P Qs) hg hg1 (he _), padded_lens] at h1
  rw [explained_pre h.fit h.ok hm h.current hsol (Xs := padded P Qs') hg hg1 (he' _), padded_lens] at h1'
  have take : ∀ {n r : ℕ} {f g : ℕ → ℝ}, r < n → (Except.ok (vmk n f) : Except PyErr (List ℝ)) = .ok (vmk n g) → g r = f r := by
    intro n r f g hr he
    have := congrArg (fun l : List ℝ => l.getD r 0) (Except.ok.inj he)
    simp only [vmk_getD_lt hr] at this
    exact this.symm
  obtain ⟨q1, q2, q3⟩ := query_row h.queries hd hi
  obtain ⟨q1', q2', q3'⟩ := query_row h'.queries hd hi'
  rw [(h2.entry d hd i hi).2, (h2'.entry d hd i' hi').2, take q2 h1, take q2' h1']
  unfold FK.priorVar
  rw [cov_self, cov_self]
  congr 3
  refine Finset.sum_congr rfl fun j _ => ?_
  congr 1
  unfold interpOf interpEntry
  beta_reduce
  rw [q1, q3, q1', q3', weights_seen h.ok hx (by rw [hg]; simp)]

/-- C94, variances of the other modes: far from all observations (in the dimensions of every kernel) the predicted variance is that of the prior,
`(∑_q B_q[d, d] k_q(0) + noise_d)` in the units of the outputs, as nearly as one wants. (Kernels that decay, and for `on-the-fly` an exact solver.) -/
theorem C94_variance_reverts (sv : Solvers) (hs : sv.Fit) (m : LLGP) (P : ℕ) (h : m.OK P) (k : LLKernel) (hc : m.Current sv k) (hso : m.fk.Sound)
    (hp : ∀ k ∈ m.fk.kernels, k.aperiodic) (hm : m.prediction ≠ .precompute)
    (hx : m.prediction = .onTheFly → ExactSolves sv k.approx.K m.n (m.fk.skiFull m.axesOf m.fk.extraOf m.gp.Xs) 1e-4) (d : ℕ) (hd : d < m.fk.D) (ε : ℝ) (hε : 0 < ε) :
    ∃ R, ∀ (Qs : List (NDArr ℝ)) (e : Env) (r : Predicted), QueriesOK m.fk.D P Qs → (∀ Q ∈ Qs, Q.WF) → e.Works → m.gp.predict (m.rawPredict sv e) Qs = .ok r →
      ∀ i < (queryLens Qs).getD d 0, (∀ q < m.fk.Q, ∀ s < m.n, R ≤ distOn (m.fk.kdims q) (queryPoint P Qs d i) (rowPoint m.gp.Xs s)) →
        |(r.2.getD d []).getD i 0 - (∑ q ∈ Finset.range m.fk.Q, m.fk.B q d d * (m.fk.kernels.getD q (.identity none)).doc 0 + m.fk.noise.getD d 0) * (normOf m.gp d).1 ^ 2| < ε := by
  set p := ∑ q ∈ Finset.range m.fk.Q, m.fk.B q d d * (m.fk.kernels.getD q (.identity none)).doc 0 + m.fk.noise.getD d 0 with hpdef
  have hprior : ∀ x, m.fk.priorVar d x = p := fun x => by unfold FK.priorVar; rw [cov_self]
  have hp0 : 0 ≤ p := by rw [← hprior 0]; exact priorVar_nonneg h.ready hso hd 0
  -- in both modes the explained variance is a quadratic form of the covariances with the observations
  obtain ⟨A, hA⟩ : ∃ A : Matrix (Fin (m.gp.Xs.map Arr2.rows).sum) (Fin (m.gp.Xs.map Arr2.rows).sum) ℝ, ∀ (Qs : List (NDArr ℝ)) (e : Env) (r : Predicted), QueriesOK m.fk.D P Qs →
      (∀ Q ∈ Qs, Q.WF) → e.Works → m.gp.predict (m.rawPredict sv e) Qs = .ok r → ∀ i < (queryLens Qs).getD d 0, (r.2.getD d []).getD i 0 =
        max 0 (p - m.fk.crossCov m.gp.Xs d (queryPoint P Qs d i) ⬝ᵥ A *ᵥ m.fk.crossCov m.gp.Xs d (queryPoint P Qs d i)) * (normOf m.gp d).1 ^ 2 := by
    cases hmode : m.prediction with
    | precompute => exact absurd hmode hm
    | exact =>
      refine ⟨(m.fk.covMat m.gp.Xs)⁻¹, fun Qs e r hQ hW he hr i hi => ?_⟩
      rw [(C45_any sv m P k Qs ⟨hs, h, hc, hQ, hW⟩ e hmode r hr d hd i hi).2]
      unfold FK.condVar
      rw [hprior]
    | onTheFly =>
      refine ⟨(m.fk.skiMat m.axesOf m.fk.extraOf m.gp.Xs)⁻¹, fun Qs e r hQ hW he hr i hi => ?_⟩
      have ha : Asked sv m P k Qs := ⟨hs, h, hc, hQ, hW⟩
      have hn : 0 < (queryLens Qs).sum := by
        have := ((C43_returns sv m P k Qs ha e he).2.1 ⟨r, hr⟩).2
        unfold LLGP.CanPredict at this
        rwa [hmode] at this
      obtain ⟨r', hr', h'⟩ := C46_on_the_fly sv m P k Qs ha e he hmode (hx hmode) hso.plain hn
      rw [hr] at hr'
      cases hr'
      rw [h' d hd i hi, hprior]
  obtain ⟨δ, hδ, h1⟩ := clamped_near A p ((normOf m.gp d).1 ^ 2) hε
  obtain ⟨R, hR⟩ := crossCov_vanishes h.ready hso.plain hp m.gp.Xs d hδ
  refine ⟨R, fun Qs e r hQ hW he hr i hi hfar => ?_⟩
  have := h1 _ (hR (queryPoint P Qs d i) hfar)
  rw [max_eq_right hp0] at this
  rwa [hA Qs e r hQ hW he hr i hi]

/-! ### a model -/

/-- past some number every point is beyond every axis -/
theorem exists_past (m : LLGP) : ∃ M : ℝ, ∀ g ∈ m.fk.activeDims, ∀ k < (m.axesOf g.1).length, ∀ s ≥ M, Above ((m.axesOf g.1).getD k []) s := by
  have key : ∀ l : List (List ℝ), ∃ M : ℝ, ∀ a ∈ l, ∀ s ≥ M, Above a s := by
    intro l
    induction l with
    | nil => exact ⟨0, by simp⟩
    | cons a l ih =>
      obtain ⟨M, hM⟩ := ih
      refine ⟨max M (a.getD (a.length - 1) 0 + axisStep a), fun b hb s hs => ?_⟩
      rcases List.mem_cons.1 hb with rfl | hb
      · exact (le_max_right _ _).trans hs
      · exact hM b hb s ((le_max_left _ _).trans hs)
  obtain ⟨M, hM⟩ := key (m.fk.activeDims.flatMap fun g => m.axesOf g.1)
  refine ⟨M, fun g hg k hk s hs => hM _ (List.mem_flatMap.2 ⟨g, hg, ?_⟩) s hs⟩
  rw [List.getD_eq_getElem _ _ hk]
  exact List.getElem_mem hk

/-- a model that answers every question about one point, with kernels that decay -/
theorem exists_decaying (mode : PredMode) : ∃ (m : LLGP) (k : LLKernel), (∀ x, Asked exactSolvers m 2 k (onePoint x)) ∧ m.prediction = mode ∧ m.fk.Sound ∧
    (∀ k ∈ m.fk.kernels, k.aperiodic) ∧ (∀ tol, ExactSolves exactSolvers k.approx.K m.n (m.fk.skiFull m.axesOf m.fk.extraOf m.gp.Xs) tol) ∧
    (∀ x, m.CanPredict 2 (onePoint x)) ∧ m.fk.D = 2 ∧ m.fk.activeDims = [([0, 1], [0, 1])] := by
  obtain ⟨a, fk, hd, hmode, hmet, hk, hκ, hn, hD, -, htr⟩ := exists_documented mode false
  obtain ⟨m, -, h2, h3, h4, h5, -, h7, -, h9⟩ := model_of_documented hd hmode hmet hk hκ hn hD htr
  obtain ⟨k, hc, hok⟩ := exists_current exactSolvers_fit h2
  obtain ⟨fk', g1, g2⟩ := setInputDim_fresh fk 2 hd.fresh
  rw [h9] at g1
  have g1 := Except.ok.inj g1
  refine ⟨{ m with kernel := some k }, k, fun x => ?_, h3, h4, fun q hq => ?_, fun tol => exactSolvers_exact (current_facts exactSolvers_fit hok hc).1 tol, fun x => ?_, h5, h7⟩
  · refine ⟨exactSolvers_fit, hok, hc, ⟨by rw [show LLGP.fk { m with kernel := some k } = m.fk from rfl, h5]; rfl, ?_⟩, ?_⟩
    · intro X hX
      simp only [onePoint, List.mem_cons, List.not_mem_nil, or_false] at hX
      rcases hX with rfl | rfl
      · exact ⟨0, .inr rfl⟩
      · exact ⟨1, .inr rfl⟩
    · intro X hX
      simp only [onePoint, List.mem_cons, List.not_mem_nil, or_false] at hX
      rcases hX with rfl | rfl <;> rfl
  · have hq : q ∈ m.fk.kernels := hq
    obtain ⟨j, hj, rfl⟩ := mem_getD hq (.identity none)
    rw [g1] at hj ⊢
    rw [g2.klen, hk] at hj
    have hj : j < 2 := hj
    rw [g2.kern j (by rw [hk]; exact hj), hk]
    interval_cases j <;> trivial
  · unfold LLGP.CanPredict
    cases mode with
    | onTheFly => rw [show LLGP.prediction { m with kernel := some k } = .onTheFly from h3]; simp [queryLens, onePoint]
    | precompute =>
      rw [show LLGP.prediction { m with kernel := some k } = .precompute from h3]
      exact ⟨_, h7, rfl⟩
    | exact =>
      rw [show LLGP.prediction { m with kernel := some k } = .exact from h3]
      exact covMat_posDef hok.ready.wf hok.data.inputs.len h4.kernels h4.kappa h4.noise

/-- a model whose predicted mean is the same at all points `(s, s)` with large `s`, in any mode, while the variance approaches that of the prior there -/
example (mode : PredMode) (e : Env) (he : e.Works) : ∃ (m : LLGP) (r : ℝ → Predicted) (M μ v : ℝ), m.prediction = mode ∧
    (∀ s, m.gp.predict (m.rawPredict exactSolvers e) (onePoint fun _ => s) = .ok (r s)) ∧ (∀ s ≥ M, ((r s).1.getD 1 []).getD 0 0 = μ) ∧
    (mode ≠ .precompute → Filter.Tendsto (fun s => ((r s).2.getD 1 []).getD 0 0) Filter.atTop (nhds v)) ∧
    (mode = .precompute → ∀ s ≥ M, ∀ s' ≥ M, ((r s).2.getD 1 []).getD 0 0 = ((r s').2.getD 1 []).getD 0 0) := by
  obtain ⟨m, k, hA, h2, h3, hap, hx, hcan, hD, hact⟩ := exists_decaying mode
  have hr : ∀ s, ∃ r, m.gp.predict (m.rawPredict exactSolvers e) (onePoint fun _ => s) = .ok r := fun s =>
    (C43_returns _ m 2 k _ (hA fun _ => s) e he).2.2 ⟨h3.plain, hcan fun _ => s⟩
  choose r hr using hr
  obtain ⟨M, hM⟩ := exists_past m
  have hd : 1 < m.fk.D := by rw [hD]; norm_num
  have hlen : ∀ s : ℝ, 0 < (queryLens (onePoint fun _ => s)).getD 1 0 := fun s => by simp [queryLens, onePoint]
  have hpt : ∀ s : ℝ, ∀ c < 2, queryPoint 2 (onePoint fun _ => s) 1 0 c = s := by
    intro s c hc
    interval_cases c <;> simp [queryPoint, onePoint]
  have hseen : ∀ s ≥ M, ∀ s' ≥ M, m.SeenAlike (queryPoint 2 (onePoint fun _ => s) 1 0) (queryPoint 2 (onePoint fun _ => s') 1 0) := by
    intro s hs s' hs' g hg k hk
    have hok := (hA fun _ => s).ok
    have hc : g.1.getD k 0 < 2 := by
      obtain ⟨gg, -, -, d3, d4⟩ := hok.mem_grids hg
      rw [d4, d3.axes] at hk
      refine hok.ready.bound g.1 (List.mem_map_of_mem hg) _ ?_
      rw [List.getD_eq_getElem _ _ hk]
      exact List.getElem_mem hk
    refine .inr (.inr ?_)
    rw [hpt s _ hc, hpt s' _ hc]
    exact ⟨hM g hg k hk s hs, hM g hg k hk s' hs'⟩
  have hok := (hA fun _ => 0).ok
  refine ⟨m, r, M, ((r M).1.getD 1 []).getD 0 0,
    (∑ q ∈ Finset.range m.fk.Q, m.fk.B q 1 1 * (m.fk.kernels.getD q (.identity none)).doc 0 + m.fk.noise.getD 1 0) * (normOf m.gp 1).1 ^ 2, h2, hr, fun s hs => ?_, fun hm => ?_, fun hm s hs s' hs' => ?_⟩
  · exact C94_mean_constant exactSolvers m 2 k _ _ (hA _) (hA _) e e _ _ (hr s) (hr M) 1 hd 0 0 (hlen s) (hlen M) (hseen s hs M le_rfl)
  · rw [Metric.tendsto_atTop]
    intro ε hε
    obtain ⟨R, hR⟩ := C94_variance_reverts exactSolvers exactSolvers_fit m 2 hok k (hA fun _ => 0).current h3 hap (by rw [h2]; exact hm) (fun _ => hx _) 1 hd ε hε
    obtain ⟨B, hB⟩ : ∃ B : ℝ, ∀ j ∈ Finset.range m.n, rowPoint m.gp.Xs j 0 ≤ B :=
      ⟨∑ j ∈ Finset.range m.n, |rowPoint m.gp.Xs j 0|, fun j hj => (le_abs_self _).trans
        (Finset.single_le_sum (f := fun j => |rowPoint m.gp.Xs j 0|) (fun _ _ => abs_nonneg _) hj)⟩
    refine ⟨B + max R 0, fun s hs => ?_⟩
    rw [Real.dist_eq]
    refine hR _ e _ (hA _).queries (hA _).arrays he (hr s) 0 (hlen s) fun q hq j hj => ?_
    have hk : m.fk.kdims q = [0, 1] := by
      obtain ⟨ad, a1, a2⟩ := hok.ready.dims _ (kernel_mem hq)
      rw [hact] at a2
      have a2 : ad = [0, 1] := by simpa using a2
      unfold FK.kdims
      rw [a1, a2]
      rfl
    rw [hk]
    unfold distOn
    simp only [List.map_cons, List.map_nil, List.sum_cons, List.sum_nil, add_zero]
    rw [hpt s 0 (by norm_num)]
    refine Real.le_sqrt_of_sq_le ?_ |>.trans' (le_max_left R 0)
    have h1 : max R 0 ≤ s - rowPoint m.gp.Xs j 0 := by
      have := hB j (Finset.mem_range.2 hj)
      linarith
    have h2 : (max R 0) ^ 2 ≤ (s - rowPoint m.gp.Xs j 0) ^ 2 := pow_le_pow_left₀ (le_max_right _ _) h1 2
    have h3 := sq_nonneg (queryPoint 2 (onePoint fun _ => s) 1 0 1 - rowPoint m.gp.Xs j 1)
    linarith
  · exact C94_variance_constant exactSolvers m 2 k _ _ (hA _) (hA _) e e he he (by rw [h2]; exact hm) _ _ (hr s) (hr s') 1 hd 0 0 (hlen s) (hlen s') (hseen s hs s' hs')

end Verif
