import Verif.Proofs.LLGPThrough

/-! C43 to C46: predictions of an up-to-date model. (C43 in every state, and how an answer depends on the history, are in `Props/LLGPState.lean`.) -/

namespace Verif

open Matrix

/-! ### C43 -/

/-- what the methods of prediction need: `'precompute'` that all kernels read all dimensions, `'on-the-fly'` that there is some query point, and
`'exact'` that the covariance is positive definite -/
def LLGP.CanPredict (m : LLGP) (P : ℕ) (Qs : List (NDArr ℝ)) : Prop :=
  match m.prediction with
  | .onTheFly => 0 < (queryLens Qs).sum
  | .precompute => ∃ g, m.fk.activeDims = [g] ∧ g.1 = List.range P
  | .exact => (m.fk.covMat m.gp.Xs).PosDef

/-- C43: `predict` returns exactly one mean and one non-negative variance per query point, for all query lists (with empty ones), normalised or
not, in each prediction mode. It returns whenever no kernel is `Identity` and the method's own requirement is met. -/
theorem C43_returns (sv : Solvers) (m : LLGP) (P : ℕ) (k : LLKernel) (Qs : List (NDArr ℝ)) (h : Asked sv m P k Qs) (e : Env) (he : e.Works) :
    (∀ r, m.gp.predict (m.rawPredict sv e) Qs = .ok r → PredictionFits r (queryLens Qs)) ∧
    ((∃ r, m.gp.predict (m.rawPredict sv e) Qs = .ok r) ↔ (∀ k ∈ m.fk.kernels, k.noIdentity) ∧ m.CanPredict P Qs) := by
  have hfit : ∀ r, m.gp.predict (m.rawPredict sv e) Qs = .ok r → PredictionFits r (queryLens Qs) := by
    intro r hr
    obtain ⟨hi, ex, h1, -⟩ := predict_back h hr
    obtain ⟨r', r1, r2, -⟩ := predict_from h hi e h1
    rw [hr] at r1
    cases r1
    exact r2
  refine ⟨hfit, fun ⟨r, hr⟩ => ?_, fun ⟨hi, hm⟩ => ?_⟩
  · obtain ⟨hi, ex, h1, -⟩ := predict_back h hr
    refine ⟨hi, ?_⟩
    unfold LLGP.CanPredict
    cases hm : m.prediction with
    | onTheFly =>
      by_contra hn
      rw [explained_fly_none h.ok hm h.current h.inputs (he 0) (by rw [padded_lens]; simpa using hn)] at h1
      cases h1
    | precompute =>
      obtain ⟨f1, f2⟩ := explained_pre_fails (sv := sv) h.ok hm e (padded P Qs) (m.queryWs (padded P Qs))
      by_contra hn
      by_cases hl : m.fk.activeDims.length = 1
      · obtain ⟨g, hg⟩ := List.length_eq_one_iff.1 hl
        rw [f2 g hg fun hg1 => hn ⟨g, hg, hg1⟩] at h1
        cases h1
      · rw [f1 hl] at h1
        cases h1
    | exact =>
      by_contra hn
      rw [(explained_exact h.ok hm h.inputs sv e _).2 hn] at h1
      cases h1
  · unfold LLGP.CanPredict at hm
    cases hmode : m.prediction with
    | onTheFly =>
      rw [hmode] at hm
      have hK := (current_facts h.fit h.ok h.current).1
      obtain ⟨sol, hsol⟩ := exists_solvesTo h.fit hK 1e-4
      have := explained_fly h.fit h.ok hmode h.current hsol h.inputs (he _) (by rw [padded_lens]; exact hm) (m.queryWs (padded P Qs))
      rw [padded_lens] at this
      obtain ⟨r, hr, -⟩ := predict_from h hi e this
      exact ⟨r, hr⟩
    | precompute =>
      rw [hmode] at hm
      obtain ⟨g, hg, hg1⟩ := hm
      have hK := (current_facts h.fit h.ok h.current).1
      obtain ⟨sol, hsol⟩ := exists_solvesTo h.fit hK 1e-4
      have := explained_pre h.fit h.ok hmode h.current hsol (Xs := padded P Qs) hg hg1 (he _)
      rw [padded_lens] at this
      obtain ⟨r, hr, -⟩ := predict_from h hi e this
      exact ⟨r, hr⟩
    | exact =>
      rw [hmode] at hm
      have := (explained_exact h.ok hmode h.inputs sv e (m.queryWs (padded P Qs))).1 hm
      rw [padded_lens] at this
      obtain ⟨r, hr, -⟩ := predict_from h hi e this
      exact ⟨r, hr⟩

/-- C43: what is raised otherwise. -/
theorem C43_raises (sv : Solvers) (m : LLGP) (P : ℕ) (k : LLKernel) (Qs : List (NDArr ℝ)) (h : Asked sv m P k Qs) (e : Env) (he : e.Works) :
    ((¬ ∀ k ∈ m.fk.kernels, k.noIdentity) → m.gp.predict (m.rawPredict sv e) Qs = .error .attributeError) ∧
    ((∀ k ∈ m.fk.kernels, k.noIdentity) →
      (m.prediction = .onTheFly → (queryLens Qs).sum = 0 → m.gp.predict (m.rawPredict sv e) Qs = .error .valueError) ∧
      (m.prediction = .precompute → m.fk.activeDims.length ≠ 1 → m.gp.predict (m.rawPredict sv e) Qs = .error .valueError) ∧
      (m.prediction = .precompute → (∃ g, m.fk.activeDims = [g] ∧ g.1 ≠ List.range P) → m.gp.predict (m.rawPredict sv e) Qs = .error .keyError) ∧
      (m.prediction = .exact → ¬ (m.fk.covMat m.gp.Xs).PosDef → m.gp.predict (m.rawPredict sv e) Qs = .error .linAlgError)) := by
  refine ⟨predict_identity h e, fun hi => ⟨fun hm hn => ?_, fun hm hn => ?_, fun hm ⟨g, hg, hg1⟩ => ?_, fun hm hn => ?_⟩⟩
  · exact predict_explained_error h e hi (explained_fly_none h.ok hm h.current h.inputs (he 0) (by rw [padded_lens]; exact hn) _)
  · exact predict_explained_error h e hi ((explained_pre_fails h.ok hm e _ _).1 hn)
  · exact predict_explained_error h e hi ((explained_pre_fails h.ok hm e _ _).2 g hg hg1)
  · exact predict_explained_error h e hi ((explained_exact h.ok hm h.inputs sv e _).2 hn)

/-! ### C44 -/

/-- C44: the predicted mean of point `i` of output `d` is `∑_g w_g(x)ᵀ K_g W_gᵀ α` (with `α` the solution found by the linear solve), un-normalised
with the scale and offset of output `d`. -/
theorem C44_mean (sv : Solvers) (m : LLGP) (P : ℕ) (k : LLKernel) (Qs : List (NDArr ℝ)) (h : Asked sv m P k Qs) (e : Env) (r : Predicted)
    (hr : m.gp.predict (m.rawPredict sv e) Qs = .ok r) (d : ℕ) (hd : d < m.fk.D) (i : ℕ) (hi : i < (queryLens Qs).getD d 0) :
    (r.1.getD d []).getD i 0 = (m.fk.skiCross m.axesOf m.fk.extraOf m.gp.Xs d (queryPoint P Qs d i) ⬝ᵥ toVec (m.gp.Xs.map Arr2.rows).sum k.approx.alpha) *
      (normOf m.gp d).1 + (normOf m.gp d).2 := by
  obtain ⟨-, ex, -, h2⟩ := predict_back h hr
  rw [(h2.entry d hd i hi).1]
  congr 2
  unfold LLGP.meanWith
  rw [Finset.sum_range]
  rfl

/-- C44: with an exact linear solve it is the conditional mean under the SKI covariance. -/
theorem C44_exact_solve (sv : Solvers) (m : LLGP) (P : ℕ) (k : LLKernel) (Qs : List (NDArr ℝ)) (h : Asked sv m P k Qs) (e : Env) (r : Predicted)
    (hx : ExactSolves sv k.approx.K m.n (m.fk.skiFull m.axesOf m.fk.extraOf m.gp.Xs) m.tol)
    (hr : m.gp.predict (m.rawPredict sv e) Qs = .ok r) (d : ℕ) (hd : d < m.fk.D) (i : ℕ) (hi : i < (queryLens Qs).getD d 0) :
    (r.1.getD d []).getD i 0 = m.fk.skiMean m.axesOf m.fk.extraOf m.gp.Xs m.gp.Ys d (queryPoint P Qs d i) * (normOf m.gp d).1 + (normOf m.gp d).2 := by
  obtain ⟨-, ex, -, h2⟩ := predict_back h hr
  rw [(h2.entry d hd i hi).1, meanWith_exact h.ok h.current hx]

/-- unless a group has the extra diagonal of C33, the covariances in these statements are the documented ones -/
theorem C44_documented (fk : FK) (h : ∀ g ∈ fk.activeDims, ¬ Spoiled fk g) (axes : List ℕ → List (List ℝ)) (Xs : List (Arr2 ℝ)) (d : ℕ) (x : ℕ → ℝ) :
    fk.skiCross axes fk.extraOf Xs d x = fk.skiCross axes noExtra Xs d x ∧ fk.skiMat axes fk.extraOf Xs = fk.skiMat axes noExtra Xs := by
  constructor
  · funext s
    exact extraOf_documented h _ _ _ _ _
  · unfold FK.skiMat fnMatrix FK.skiFull
    funext r s
    simp only
    rw [extraOf_documented h]

/-! ### C45 -/

/-- C45: in `'exact'` mode with sound parameters `predict` returns, the variance is the conditional variance `k(x, x) + noise - k_*ᵀ K⁻¹ k_*` with
the exact covariance, un-normalised, and this is never below the noise, so that clamping at zero never changes it. -/
theorem C45_exact (sv : Solvers) (m : LLGP) (P : ℕ) (k : LLKernel) (Qs : List (NDArr ℝ)) (h : Asked sv m P k Qs) (e : Env) (hm : m.prediction = .exact)
    (hs : m.fk.Sound) : ∃ r, m.gp.predict (m.rawPredict sv e) Qs = .ok r ∧ ∀ d < m.fk.D, ∀ i < (queryLens Qs).getD d 0,
      (r.2.getD d []).getD i 0 = m.fk.condVar m.gp.Xs d (queryPoint P Qs d i) * (normOf m.gp d).1 ^ 2 ∧
      m.fk.noise.getD d 0 ≤ m.fk.condVar m.gp.Xs d (queryPoint P Qs d i) ∧ 0 < m.fk.noise.getD d 0 := by
  have hpd := covMat_posDef h.ok.ready.wf h.ok.data.inputs.len hs.kernels hs.kappa hs.noise
  have hex := (explained_exact h.ok hm h.inputs sv e (m.queryWs (padded P Qs))).1 hpd
  rw [padded_lens] at hex
  obtain ⟨r, r1, -, r3⟩ := predict_from h hs.plain e hex
  refine ⟨r, r1, fun d hd i hi => ?_⟩
  obtain ⟨q1, -, q3⟩ := query_row h.queries hd hi
  have hge := condVar_ge h.ok.ready.wf h.ok.data.inputs.len hs hd (queryPoint P Qs d i)
  refine ⟨?_, hge, hs.noise d hd⟩
  rw [(r3.entry d hd i hi).2]
  rw [padded_lens] at q1
  rw [q1, q3]
  have : m.fk.priorVar d (queryPoint P Qs d i) - m.fk.crossCov m.gp.Xs d (queryPoint P Qs d i) ⬝ᵥ (m.fk.covMat m.gp.Xs)⁻¹ *ᵥ
      m.fk.crossCov m.gp.Xs d (queryPoint P Qs d i) = m.fk.condVar m.gp.Xs d (queryPoint P Qs d i) := rfl
  rw [this, max_eq_right ((hs.noise d hd).le.trans hge)]

/-- C45: in `'exact'` mode, whatever the parameters, a returned variance is the conditional variance clamped at zero. -/
theorem C45_any (sv : Solvers) (m : LLGP) (P : ℕ) (k : LLKernel) (Qs : List (NDArr ℝ)) (h : Asked sv m P k Qs) (e : Env) (hm : m.prediction = .exact)
    (r : Predicted) (hr : m.gp.predict (m.rawPredict sv e) Qs = .ok r) (d : ℕ) (hd : d < m.fk.D) (i : ℕ) (hi : i < (queryLens Qs).getD d 0) :
    (m.fk.covMat m.gp.Xs).PosDef ∧ (r.2.getD d []).getD i 0 = max 0 (m.fk.condVar m.gp.Xs d (queryPoint P Qs d i)) * (normOf m.gp d).1 ^ 2 := by
  obtain ⟨hn, ex, h1, h2⟩ := predict_back h hr
  have hpd : (m.fk.covMat m.gp.Xs).PosDef := by
    by_contra hp
    rw [(explained_exact h.ok hm h.inputs sv e _).2 hp] at h1
    cases h1
  have hex := (explained_exact h.ok hm h.inputs sv e (m.queryWs (padded P Qs))).1 hpd
  rw [padded_lens] at hex
  obtain ⟨r', r1, -, r3⟩ := predict_from h hn e hex
  rw [hr] at r1
  cases r1
  obtain ⟨q1, -, q3⟩ := query_row h.queries hd hi
  refine ⟨hpd, ?_⟩
  rw [(r3.entry d hd i hi).2]
  rw [padded_lens] at q1
  rw [q1, q3]
  rfl

/-! ### C46 -/

/-- C46: `'on-the-fly'` with exact linear solves: the explained variance is `k_*ᵀ K_SKI⁻¹ k_*` with the exact covariances `k_*` of the query with the
observations and the interpolated covariance of the observations. -/
theorem C46_on_the_fly (sv : Solvers) (m : LLGP) (P : ℕ) (k : LLKernel) (Qs : List (NDArr ℝ)) (h : Asked sv m P k Qs) (e : Env) (he : e.Works)
    (hm : m.prediction = .onTheFly) (hx : ExactSolves sv k.approx.K m.n (m.fk.skiFull m.axesOf m.fk.extraOf m.gp.Xs) 1e-4)
    (hi : ∀ k ∈ m.fk.kernels, k.noIdentity) (hn : 0 < (queryLens Qs).sum) :
    ∃ r, m.gp.predict (m.rawPredict sv e) Qs = .ok r ∧ ∀ d < m.fk.D, ∀ i < (queryLens Qs).getD d 0,
      (r.2.getD d []).getD i 0 = max 0 (m.fk.priorVar d (queryPoint P Qs d i) - m.fk.crossCov m.gp.Xs d (queryPoint P Qs d i) ⬝ᵥ
        (m.fk.skiMat m.axesOf m.fk.extraOf m.gp.Xs)⁻¹ *ᵥ m.fk.crossCov m.gp.Xs d (queryPoint P Qs d i)) * (normOf m.gp d).1 ^ 2 := by
  obtain ⟨sol, s1, s2⟩ := exactSol hx
  have hex := explained_fly h.fit h.ok hm h.current s1 h.inputs (he _) (by rw [padded_lens]; exact hn) (m.queryWs (padded P Qs))
  rw [padded_lens] at hex
  obtain ⟨r, r1, -, r3⟩ := predict_from h hi e hex
  refine ⟨r, r1, fun d hd i hi => ?_⟩
  obtain ⟨q1, -, q3⟩ := query_row h.queries hd hi
  rw [(r3.entry d hd i hi).2]
  rw [padded_lens] at q1
  rw [q1, q3]
  congr 3
  unfold dotProduct
  refine Finset.sum_congr rfl fun s _ => ?_
  congr 1
  have := s2 (vmk m.n fun s => m.fk.cov d (ownerOf (m.gp.Xs.map Arr2.rows) s) (queryPoint P Qs d i) (rowPoint m.gp.Xs s)) (vmk_length _ _)
  rw [toVec_vmk] at this
  exact congrFun this s

/-- C46: `'precompute'` with exact linear solves: the explained variance is `∑_p w_p(x) C_p` where `C_p` is the variance that the observations explain at
point `p` of the grid under the SKI covariance; `p` ranges over the grid points and `w` are the interpolation weights. -/
theorem C46_precompute (sv : Solvers) (m : LLGP) (P : ℕ) (k : LLKernel) (Qs : List (NDArr ℝ)) (h : Asked sv m P k Qs) (e : Env) (he : e.Works)
    (hm : m.prediction = .precompute) (hx : ExactSolves sv k.approx.K m.n (m.fk.skiFull m.axesOf m.fk.extraOf m.gp.Xs) 1e-4)
    (hi : ∀ k ∈ m.fk.kernels, k.noIdentity) (g : List ℕ × List ℕ) (hg : m.fk.activeDims = [g]) (hg1 : g.1 = List.range P) :
    ∃ r, m.gp.predict (m.rawPredict sv e) Qs = .ok r ∧ ∀ d < m.fk.D, ∀ i < (queryLens Qs).getD d 0,
      (r.2.getD d []).getD i 0 = max 0 (m.fk.priorVar d (queryPoint P Qs d i) - ∑ p ∈ Finset.range (gridSize (m.axesOf g.1)),
        gridWeight (m.axesOf g.1) (coords g.1 (queryPoint P Qs d i)) p * m.fk.gridExplained m.axesOf m.fk.extraOf g m.gp.Xs d p) * (normOf m.gp d).1 ^ 2 := by
  obtain ⟨sol, s1, s2⟩ := exactSol hx
  have hex := explained_pre h.fit h.ok hm h.current s1 (Xs := padded P Qs) hg hg1 (he _)
  rw [padded_lens] at hex
  obtain ⟨r, r1, -, r3⟩ := predict_from h hi e hex
  refine ⟨r, r1, fun d hd i hi => ?_⟩
  obtain ⟨q1, q2, q3⟩ := query_row h.queries hd hi
  rw [(r3.entry d hd i hi).2]
  congr 3
  have hgm : g ∈ m.fk.activeDims := by rw [hg]; simp
  simp only [nu_explained h.ok hgm s2]
  unfold LLGP.gridCols
  rw [interp_grid h.inputs.len (by rw [padded_lens]; exact q2), q1, q3]

/-- C46: at a point of the grid this is the same quadratic form `k_*ᵀ K_SKI⁻¹ k_*` with the SKI covariances of the point. -/
theorem C46_grid_point (m : LLGP) (P : ℕ) (h : m.OK P) (g : List ℕ × List ℕ) (hg : m.fk.activeDims = [g]) (p : ℕ) (hp : p < gridSize (m.axesOf g.1))
    (x : ℕ → ℝ) (hx : ∀ c < g.1.length, x (g.1.getD c 0) = (gridPoint (m.axesOf g.1) p).getD c 0) (d : ℕ) :
    ∑ q ∈ Finset.range (gridSize (m.axesOf g.1)), gridWeight (m.axesOf g.1) (coords g.1 x) q * m.fk.gridExplained m.axesOf m.fk.extraOf g m.gp.Xs d q =
      m.fk.skiCross m.axesOf m.fk.extraOf m.gp.Xs d x ⬝ᵥ (m.fk.skiMat m.axesOf m.fk.extraOf m.gp.Xs)⁻¹ *ᵥ m.fk.skiCross m.axesOf m.fk.extraOf m.gp.Xs d x := by
  obtain ⟨gg, d1, d2, d3, d4⟩ := h.mem_grids (g := g) (by rw [hg]; simp)
  have hw : ∀ q < gridSize (m.axesOf g.1), gridWeight (m.axesOf g.1) (coords g.1 x) q = if q = p then 1 else 0 := fun q hq =>
    gridWeight_gridpoint _ (by rw [d4]; exact fun a ha => ⟨d3.size a ha, d3.spacing a ha⟩) hp (fun c hc => hx c (by rw [d4, d3.axes] at hc; exact hc)) hq
  rw [Finset.sum_eq_single_of_mem p (Finset.mem_range.2 hp), hw p hp, if_pos rfl, one_mul, skiCross_gridpoint h hg hp hx]
  · rfl
  · intro q hq hne
    rw [hw q (Finset.mem_range.1 hq), if_neg hne, zero_mul]

/-! ### the hypotheses can be met -/

/-- a model of two outputs with two-dimensional inputs in any mode, updated with an exact solver and asked at three points -/
theorem exists_asked (mode : PredMode) : ∃ (m : LLGP) (k : LLKernel), Asked exactSolvers m 2 k [⟨[1, 2], [0, 0]⟩, ⟨[2, 2], [0, 1, 1, 1]⟩] ∧ m.prediction = mode ∧ m.fk.Sound ∧
    (∀ tol, ExactSolves exactSolvers k.approx.K m.n (m.fk.skiFull m.axesOf m.fk.extraOf m.gp.Xs) tol) ∧ m.CanPredict 2 [⟨[1, 2], [0, 0]⟩, ⟨[2, 2], [0, 1, 1, 1]⟩] := by
  obtain ⟨a, fk, m, -, -, h1, h2, h3, h4, -, h5⟩ := exists_model mode false
  obtain ⟨k, hc, hok⟩ := exists_current exactSolvers_fit h1
  refine ⟨{ m with kernel := some k }, k, ⟨exactSolvers_fit, hok, hc, ⟨by rw [show LLGP.fk { m with kernel := some k } = m.fk from rfl, h4]; rfl, ?_⟩, ?_⟩, h2, h3, fun tol => ?_, ?_⟩
  · intro X hX
    simp only [List.mem_cons, List.not_mem_nil, or_false] at hX
    rcases hX with rfl | rfl
    · exact ⟨1, .inr rfl⟩
    · exact ⟨2, .inr rfl⟩
  · intro X hX
    simp only [List.mem_cons, List.not_mem_nil, or_false] at hX
    rcases hX with rfl | rfl <;> rfl
  · exact exactSolvers_exact (current_facts exactSolvers_fit hok hc).1 tol
  · unfold LLGP.CanPredict
    cases mode with
    | onTheFly => rw [show LLGP.prediction { m with kernel := some k } = .onTheFly from h2]; simp [queryLens]
    | precompute =>
      rw [show LLGP.prediction { m with kernel := some k } = .precompute from h2]
      exact h5
    | exact =>
      rw [show LLGP.prediction { m with kernel := some k } = .exact from h2]
      exact covMat_posDef hok.ready.wf hok.data.inputs.len h3.kernels h3.kappa h3.noise

/-- C43 to C46 apply in each mode, and `predict` returns three predictions -/
example (mode : PredMode) (e : Env) (he : e.Works) : ∃ (m : LLGP) (r : Predicted), m.prediction = mode ∧
    m.gp.predict (m.rawPredict exactSolvers e) [⟨[1, 2], [0, 0]⟩, ⟨[2, 2], [0, 1, 1, 1]⟩] = .ok r ∧ r.1.map List.length = [1, 2] := by
  obtain ⟨m, k, h1, h2, h3, -, h5⟩ := exists_asked mode
  obtain ⟨c1, c2⟩ := C43_returns _ m 2 k _ h1 e he
  obtain ⟨r, hr⟩ := c2.2 ⟨h3.plain, h5⟩
  exact ⟨m, r, h2, hr, (c1 r hr).means⟩

/-- environments without a pool work -/
example : Env.Works ⟨fun _ _ => true, fun _ => .none, false, none⟩ := by
  intro len size schedule h
  cases h

/-- every grid has points, so C46 has grid points to speak of -/
example : ∃ (m : LLGP) (g : List ℕ × List ℕ), m.OK 2 ∧ m.fk.activeDims = [g] ∧ g.1 = List.range 2 ∧ 0 < gridSize (m.axesOf g.1) := by
  obtain ⟨a, fk, m, -, -, h1, h2, h3, h4, -, g, hg, hg1⟩ := exists_model .precompute false
  exact ⟨m, g, h1, hg, hg1, gridSize_pos h1 (by rw [hg]; simp)⟩

/-- C40 applies -/
example : ∃ (m : LLGP) (k : LLKernel) (l : ExactLMC), m.OK 2 ∧ m.Current exactSolvers k ∧ m.dense = .ok l := by
  obtain ⟨m, k, h1, h2, h3, -⟩ := exists_asked .exact
  obtain ⟨l, hl, -⟩ := (exactLMC_contents h1.ok.ready h1.ok.data).1 (covMat_posDef h1.ok.ready.wf h1.ok.data.inputs.len h3.kernels h3.kappa h3.noise)
  exact ⟨m, k, l, h1.ok, h1.current, hl⟩

end Verif
