import Verif.Proofs.VarianceBounds
import Verif.Proofs.SmallModel
import Verif.Props.Observations

/-! C98: the range of predicted variances in the three prediction modes. -/

namespace Verif

open Matrix

/-- at a point of the only grid -/
theorem gridExplained_range {m : LLGP} {P : ℕ} (h : m.OK P) (hs : m.fk.Sound) {g : List ℕ × List ℕ} (hg : m.fk.activeDims = [g]) (hn : g.1.Nodup) {d : ℕ} (hd : d < m.fk.D) {p : ℕ}
    (hp : p < gridSize (m.axesOf g.1)) (x : ℕ → ℝ) : 0 ≤ m.fk.gridExplained m.axesOf m.fk.extraOf g m.gp.Xs d p ∧
      m.fk.gridExplained m.axesOf m.fk.extraOf g m.gp.Xs d p ≤ m.fk.cov d d x x + m.fk.extraOf g := by
  have hn' : ∀ ad ∈ m.fk.activeDims.map Prod.fst, ad.Nodup := by rw [hg]; simpa using hn
  obtain ⟨gg, d1, d2, d3, d4⟩ := h.mem_grids (g := g) (by rw [hg]; simp)
  refine ⟨?_, ?_⟩
  · have := (h.ski_posDef hs hn').inv.posSemidef.dotProduct_mulVec_nonneg (m.fk.gridToData (m.axesOf g.1) m.fk.extraOf g m.gp.Xs d p)
    simp only [star_trivial] at this
    exact this
  · set z := liftPoint g.1 (gridPoint (m.axesOf g.1) p) with hz
    have hzx : ∀ c < g.1.length, z (g.1.getD c 0) = (gridPoint (m.axesOf g.1) p).getD c 0 := fun c hc => by
      rw [hz, liftPoint, List.getD_eq_getElem _ _ hc, hn.idxOf_getElem]
    have hw : ∀ q < gridSize (m.axesOf g.1), gridWeight (m.axesOf g.1) (coords g.1 z) q = if q = p then 1 else 0 := fun q hq =>
      gridWeight_gridpoint _ (by rw [d4]; exact fun a ha => ⟨d3.size a ha, d3.spacing a ha⟩) hp (fun c hc => hzx c (by rw [d4, d3.axes] at hc; exact hc)) hq
    have key := skiExplained_le h hs hn' hd z
    rw [skiCross_gridpoint h hg hp hzx] at key
    refine key.trans (le_of_eq ?_)
    unfold FK.skiCov
    rw [hg]
    simp only [List.map_cons, List.map_nil, List.sum_cons, List.sum_nil, add_zero]
    rw [Finset.sum_eq_single_of_mem p (Finset.mem_range.2 hp), Finset.sum_eq_single_of_mem p (Finset.mem_range.2 hp), hw p hp, if_pos rfl, one_mul, mul_one, if_pos (by simp)]
    · congr 1
      have := sum_groups h.ready h.groups fun ad q => m.fk.B q d d * (m.fk.kernels.getD q (.identity none)).doc 0
      rw [hg] at this
      simp only [List.map_cons, List.map_nil, List.sum_cons, List.sum_nil, add_zero] at this
      have e0 : gridDistance (m.axesOf g.1) p p = 0 := by simp [gridDistance, euclid]
      have e1 : ∀ q, distOn (m.fk.kdims q) x x = 0 := fun q => by simp [distOn]
      unfold FK.gridCov FK.cov
      simp only [e0, e1]
      exact this
    · intro q hq hne
      rw [hw q (Finset.mem_range.1 hq), if_neg hne, mul_zero]
    · intro q hq hne
      refine Finset.sum_eq_zero fun q' _ => ?_
      rw [hw q (Finset.mem_range.1 hq), if_neg hne, zero_mul, zero_mul]

theorem var_scaled {m : LLGP} {P : ℕ} {a : LLGPArgs} (h : m.MadeFrom P a) (ok : m.OK P) {d : ℕ} (hd : d < m.fk.D) : 0 < a.scaleOf d ∧ (normOf m.gp d).1 = a.scaleOf d := by
  obtain ⟨x1, s1, -⟩ := MadeFrom.scale h
  have hl : m.gp.Xs.length = m.fk.D := ok.data.inputs.len
  have hd1 : d < a.Xs.length := by
    have : a.Xs.length = m.gp.Xs.length := by rw [x1]; unfold padded; rw [List.length_map]
    rw [this, hl]; exact hd
  obtain ⟨n1, p1⟩ := s1 d hd1
  exact ⟨p1, by rw [n1]⟩

/-- C98 in `'exact'` mode: after any program that uses its models as documented, every predicted variance, in units of the normalised outputs, is at least the noise of
its output and at most the prior variance. (In the other modes only the bounds below hold.) -/
theorem C98_exact_partial (sv : Solvers) (hs : sv.Fit) (ops : List Op) (i : ℕ) (a : LLGPArgs) (m : LLGP) (h : Held sv ops i a m) (hm : m.prediction = .exact)
    (Qs : List (NDArr ℝ)) (hQ : m.Accepts Qs) (e : Env) (he : e.Works) :
    ∃ r, Predicts sv ops i Qs e (.ok r) ∧ ∀ d < m.gp.outputDim, ∀ j < (queryLens Qs).getD d 0, 0 < a.scaleOf d ∧
      m.fk.noise.getD d 0 ≤ (r.2.getD d []).getD j 0 / a.scaleOf d ^ 2 ∧
      (r.2.getD d []).getD j 0 / a.scaleOf d ^ 2 ≤ m.fk.priorVar d (queryPoint m.gp.inputDim Qs d j) := by
  obtain ⟨k, f1, f2, f3, f4, f5, -, f7⟩ := h.facts hs
  obtain ⟨r, r1, r2⟩ := C45_exact sv m _ k Qs (f4 Qs hQ) e hm f2
  refine ⟨r, r1 ▸ f7 Qs e he, ?_⟩
  rw [f3]
  intro d hd j hj
  obtain ⟨s1, s2⟩ := var_scaled f1 f5 hd
  obtain ⟨v1, v2, -⟩ := r2 d hd j hj
  rw [v1, s2, mul_div_assoc, div_self (pow_pos s1 2).ne', mul_one]
  exact ⟨s1, v2, condVar_le_prior f5.ready f2 f5.data.inputs.len d _⟩

/-- C98 in `'on-the-fly'` mode, the upper bound: with exact linear solves a predicted variance is at most the prior variance. Missing: the lower bound, which is
false (`C98_on_the_fly_violated`): all that is left is that a variance is not negative. -/
theorem C98_on_the_fly_partial (sv : Solvers) (hs : sv.Fit) (hx : sv.Exact) (ops : List Op) (i : ℕ) (a : LLGPArgs) (m : LLGP) (h : Held sv ops i a m)
    (hm : m.prediction = .onTheFly) (hn : ∀ ad ∈ m.fk.activeDims.map Prod.fst, ad.Nodup) (Qs : List (NDArr ℝ)) (hQ : m.Accepts Qs) (hq : 0 < (queryLens Qs).sum) (e : Env)
    (he : e.Works) :
    ∃ r, Predicts sv ops i Qs e (.ok r) ∧ ∀ d < m.gp.outputDim, ∀ j < (queryLens Qs).getD d 0, 0 < a.scaleOf d ∧
      0 ≤ (r.2.getD d []).getD j 0 / a.scaleOf d ^ 2 ∧ (r.2.getD d []).getD j 0 / a.scaleOf d ^ 2 ≤ m.fk.priorVar d (queryPoint m.gp.inputDim Qs d j) := by
  obtain ⟨k, f1, f2, f3, f4, f5, f6, f7⟩ := h.facts hs
  obtain ⟨r, r1, r2⟩ := C46_on_the_fly sv m _ k Qs (f4 Qs hQ) e he hm (exact_of_current hs hx f5 f6 f2 hn _) f2.plain hq
  refine ⟨r, r1 ▸ f7 Qs e he, ?_⟩
  rw [f3]
  intro d hd j hj
  obtain ⟨s1, s2⟩ := var_scaled f1 f5 hd
  rw [r2 d hd j hj, s2, mul_div_assoc, div_self (pow_pos s1 2).ne', mul_one]
  refine ⟨s1, le_max_left _ _, ?_⟩
  set x := queryPoint m.gp.inputDim Qs d j
  have h0 := (f5.ski_posDef f2 hn).inv.posSemidef.dotProduct_mulVec_nonneg (m.fk.crossCov m.gp.Xs d x)
  simp only [star_trivial] at h0
  have h1 := (condVar_ge f5.ready.wf f5.data.inputs.len f2 hd x).trans (condVar_le_prior f5.ready f2 f5.data.inputs.len d x)
  have h2 := f2.noise d hd
  refine max_le (h2.le.trans h1) ?_
  linarith

/-- C98 in `'precompute'` mode, up to the overshoot of cubic interpolation: with exact linear solves a predicted variance misses the range from the noise to the prior
variance by at most an eighth of the variance of the latent function with one-dimensional inputs, and by at most 9/32 of it with two-dimensional inputs. (When the
implementation adds `extraOf` to the diagonal, see C33, by somewhat more.) Missing: the bounds themselves, which are false (`C98_precompute_above`,
`C98_precompute_below`). -/
theorem C98_precompute_partial (sv : Solvers) (hs : sv.Fit) (hx : sv.Exact) (ops : List Op) (i : ℕ) (a : LLGPArgs) (m : LLGP) (h : Held sv ops i a m)
    (hm : m.prediction = .precompute) (g : List ℕ × List ℕ) (hg : m.fk.activeDims = [g]) (hg1 : g.1 = List.range m.gp.inputDim) (Qs : List (NDArr ℝ)) (hQ : m.Accepts Qs)
    (e : Env) (he : e.Works) :
    ∃ r, Predicts sv ops i Qs e (.ok r) ∧ ∀ d < m.gp.outputDim, ∀ j < (queryLens Qs).getD d 0, 0 < a.scaleOf d ∧
      m.fk.noise.getD d 0 - (((5 / 4) ^ m.gp.inputDim - 1) / 2 * (m.fk.cov d d (queryPoint m.gp.inputDim Qs d j) (queryPoint m.gp.inputDim Qs d j) + m.fk.extraOf g) + m.fk.extraOf g) ≤
        (r.2.getD d []).getD j 0 / a.scaleOf d ^ 2 ∧
      (r.2.getD d []).getD j 0 / a.scaleOf d ^ 2 ≤ m.fk.priorVar d (queryPoint m.gp.inputDim Qs d j) +
        ((5 / 4) ^ m.gp.inputDim - 1) / 2 * (m.fk.cov d d (queryPoint m.gp.inputDim Qs d j) (queryPoint m.gp.inputDim Qs d j) + m.fk.extraOf g) := by
  have hnd : g.1.Nodup := by rw [hg1]; exact List.nodup_range
  have hn : ∀ ad ∈ m.fk.activeDims.map Prod.fst, ad.Nodup := by rw [hg]; simpa using hnd
  obtain ⟨k, f1, f2, f3, f4, f5, f6, f7⟩ := h.facts hs
  obtain ⟨r, r1, r2⟩ := C46_precompute sv m _ k Qs (f4 Qs hQ) e he hm (exact_of_current hs hx f5 f6 f2 hn _) f2.plain g hg hg1
  refine ⟨r, r1 ▸ f7 Qs e he, ?_⟩
  rw [f3]
  intro d hd j hj
  obtain ⟨s1, s2⟩ := var_scaled f1 f5 hd
  rw [r2 d hd j hj, s2, mul_div_assoc, div_self (pow_pos s1 2).ne', mul_one]
  refine ⟨s1, ?_⟩
  set x := queryPoint m.gp.inputDim Qs d j
  obtain ⟨gg, d1, d2, d3, d4⟩ := f5.mem_grids (g := g) (by rw [hg]; simp)
  have hpos : ∀ b ∈ m.axesOf g.1, 0 < b.length := by
    rw [d4]
    exact fun b hb => by have := d3.size b hb; omega
  have hlen : (m.axesOf g.1).length = m.gp.inputDim := by rw [d4, d3.axes, hg1, List.length_range]
  have hS := gridWeight_abs (m.axesOf g.1) hpos (coords g.1 x)
  rw [hlen] at hS
  have hr : ∀ p < gridSize (m.axesOf g.1), _ := fun p hp => gridExplained_range f5 f2 hg hnd hd hp x
  have h1 := (condVar_ge f5.ready.wf f5.data.inputs.len f2 hd x).trans (condVar_le_prior f5.ready f2 f5.data.inputs.len d x)
  have h2 := f2.noise d hd
  have hv : 0 ≤ m.fk.cov d d x x := by unfold FK.priorVar at h1; linarith
  have he0 := extraOf_nonneg m.fk g
  obtain ⟨w1, w2⟩ := weighted_bounds (gridWeight_total (m.axesOf g.1) hpos (coords g.1 x)) hS hr (by linarith)
  have hδ : (0 : ℝ) ≤ ((5 / 4) ^ m.gp.inputDim - 1) / 2 := by
    have : (1 : ℝ) ≤ (5 / 4) ^ m.gp.inputDim := one_le_pow₀ (by norm_num)
    linarith
  have hδv := mul_nonneg hδ (add_nonneg hv he0)
  refine ⟨le_max_of_le_right ?_, max_le ?_ ?_⟩
  · unfold FK.priorVar; linarith
  · linarith
  · linarith

/-- C98 in `'precompute'` mode at the points of the grid: with exact linear solves both bounds hold there (unless the implementation adds `extraOf` to the diagonal, see
C33). -/
theorem C98_precompute_grid_partial (sv : Solvers) (hs : sv.Fit) (hx : sv.Exact) (ops : List Op) (i : ℕ) (a : LLGPArgs) (m : LLGP) (h : Held sv ops i a m)
    (hm : m.prediction = .precompute) (g : List ℕ × List ℕ) (hg : m.fk.activeDims = [g]) (hg1 : g.1 = List.range m.gp.inputDim) (hsp : ¬ Spoiled m.fk g) (Qs : List (NDArr ℝ))
    (hQ : m.Accepts Qs) (e : Env) (he : e.Works) :
    ∃ r, Predicts sv ops i Qs e (.ok r) ∧ ∀ d < m.gp.outputDim, ∀ j < (queryLens Qs).getD d 0, ∀ p < gridSize (m.axesOf g.1),
      (∀ c < m.gp.inputDim, queryPoint m.gp.inputDim Qs d j c = (gridPoint (m.axesOf g.1) p).getD c 0) → 0 < a.scaleOf d ∧
      m.fk.noise.getD d 0 ≤ (r.2.getD d []).getD j 0 / a.scaleOf d ^ 2 ∧
      (r.2.getD d []).getD j 0 / a.scaleOf d ^ 2 ≤ m.fk.priorVar d (queryPoint m.gp.inputDim Qs d j) := by
  have hnd : g.1.Nodup := by rw [hg1]; exact List.nodup_range
  have hn : ∀ ad ∈ m.fk.activeDims.map Prod.fst, ad.Nodup := by rw [hg]; simpa using hnd
  obtain ⟨k, f1, f2, f3, f4, f5, f6, f7⟩ := h.facts hs
  obtain ⟨r, r1, r2⟩ := C46_precompute sv m _ k Qs (f4 Qs hQ) e he hm (exact_of_current hs hx f5 f6 f2 hn _) f2.plain g hg hg1
  refine ⟨r, r1 ▸ f7 Qs e he, ?_⟩
  rw [f3]
  intro d hd j hj p hp hxp
  obtain ⟨s1, s2⟩ := var_scaled f1 f5 hd
  rw [r2 d hd j hj, s2, mul_div_assoc, div_self (pow_pos s1 2).ne', mul_one]
  refine ⟨s1, ?_⟩
  set x := queryPoint m.gp.inputDim Qs d j
  obtain ⟨gg, d1, d2, d3, d4⟩ := f5.mem_grids (g := g) (by rw [hg]; simp)
  have hw : ∀ q < gridSize (m.axesOf g.1), gridWeight (m.axesOf g.1) (coords g.1 x) q = if q = p then 1 else 0 := fun q hq =>
    gridWeight_gridpoint _ (by rw [d4]; exact fun a ha => ⟨d3.size a ha, d3.spacing a ha⟩) hp (fun c hc => by
      rw [d4, d3.axes, hg1, List.length_range] at hc
      rw [coords, hg1, List.getD_eq_getElem _ _ (by simpa using hc), List.getElem_range]
      rw [← hg1]
      exact hxp c hc) hq
  rw [Finset.sum_eq_single_of_mem p (Finset.mem_range.2 hp) (fun q hq hne => by rw [hw q (Finset.mem_range.1 hq), if_neg hne, zero_mul]), hw p hp, if_pos rfl, one_mul]
  obtain ⟨w1, w2⟩ := gridExplained_range f5 f2 hg hnd hd hp x
  have e0 : m.fk.extraOf g = 0 := by unfold FK.extraOf; rw [if_neg hsp]
  rw [e0, add_zero] at w2
  have h1 := (condVar_ge f5.ready.wf f5.data.inputs.len f2 hd x).trans (condVar_le_prior f5.ready f2 f5.data.inputs.len d x)
  have h2 := f2.noise d hd
  refine ⟨le_max_of_le_right ?_, max_le ?_ ?_⟩
  · unfold FK.priorVar; linarith
  · linarith
  · linarith

/-! ### the bounds are false -/

theorem small_ask {mode : PredMode} {x1 x2 : ℝ} (h1 : 1.8 ≤ x1) (h2 : x1 < x2) (h3 : x2 ≤ 7.2) : ∃ fk a m,
    fkNew (fun _ _ _ => 1) ⟨some 1, some [], some [], some [.rbf 100 none], none, none⟩ = .ok fk ∧ a = smallArgs mode x1 x2 fk ∧ Held exactSolvers [.new a quiet] 0 a m ∧
    m.prediction = mode ∧ m.fk.activeDims = [([0], [0])] ∧ m.axesOf [0] = [vmk 10 fun i => (i : ℝ)] ∧ m.gp.inputDim = 1 ∧ m.gp.outputDim = 1 ∧ m.fk.noise = [0.1] ∧ m.fk.D = 1 ∧
    m.fk.Sound ∧ SmallFacts m x1 x2 ∧ (∀ y : ℝ, m.Accepts [⟨[1, 1], [y]⟩]) ∧ 0 < a.scaleOf 0 ∧ (normOf m.gp 0).1 = a.scaleOf 0 := by
  obtain ⟨fk, h, m, hm, c1, c2, c3, c4, c5, c6, c7, c8, c9, c10, c11⟩ := small_model mode h1 h2 h3
  obtain ⟨k, f1, f2, f3, f4, f5, f6, f7⟩ := hm.facts exactSolvers_fit
  rw [c11] at f1 f5
  obtain ⟨s1, s2⟩ := var_scaled f1 f5 (d := 0) (by rw [c3]; norm_num)
  refine ⟨fk, _, m, h, rfl, hm, c1, c7, c9, c11, f3.trans c3, c4, c3, c2, small_facts f5 c2 c4 c5 c6 c7 c8 c9 c10, fun y => ?_, s1, s2⟩
  unfold LLGP.Accepts
  rw [c11, f3, c3]
  refine ⟨⟨rfl, fun X hX => ?_⟩, fun X hX => ?_⟩
  · rw [List.mem_singleton] at hX
    rw [hX]
    exact ⟨1, .inr rfl⟩
  · rw [List.mem_singleton] at hX
    rw [hX]
    rfl

/-- C98 is false in `'on-the-fly'` mode, below: a program that makes a model as documented and asks for a prediction at an observed point is told that the variance is
zero, although the noise is not. The observation lies half way between two grid points and the lengthscale is short: interpolation underestimates the variance of the
observation, so that it seems to explain more than there is. -/
theorem C98_on_the_fly_violated : ∃ (fk : FK) (a : LLGPArgs) (m : LLGP) (r : Predicted),
    fkNew (fun _ _ _ => 1) ⟨some 1, some [], some [], some [.rbf 100 none], none, none⟩ = .ok fk ∧ a = smallArgs .onTheFly (5 / 2) (13 / 2) fk ∧
    Held exactSolvers [.new a quiet] 0 a m ∧ m.prediction = .onTheFly ∧ m.Accepts [⟨[1, 1], [5 / 2]⟩] ∧ Predicts exactSolvers [.new a quiet] 0 [⟨[1, 1], [5 / 2]⟩] quiet (.ok r) ∧
    (r.2.getD 0 []).getD 0 0 = 0 ∧ m.fk.noise.getD 0 0 = 0.1 := by
  obtain ⟨fk, a, m, h, ha, hm, c1, c2, c3, c4, c5, c6, c7, c8, sf, hQ, s1, s2⟩ := small_ask (mode := .onTheFly) (x1 := 5 / 2) (x2 := 13 / 2) (by norm_num) (by norm_num) (by norm_num)
  obtain ⟨k, f1, f2, f3, f4, f5, f6, f7⟩ := hm.facts exactSolvers_fit
  obtain ⟨r, r1, r2⟩ := C46_on_the_fly exactSolvers m _ k _ (f4 _ (hQ (5 / 2))) quiet quiet_calm.1 c1
    (exact_of_current exactSolvers_fit (fun K n A tol hK _ => exactSolvers_exact hK tol) f5 f6 f2 (by rw [c2]; simp) _) f2.plain (by simp [queryLens])
  refine ⟨fk, a, m, r, h, ha, hm, c1, hQ _, r1 ▸ f7 _ quiet quiet_calm.1, ?_, by rw [c6]; rfl⟩
  rw [r2 0 (by rw [c7]; norm_num) 0 (by simp [queryLens])]
  refine mul_eq_zero_of_left (max_eq_left ?_) _
  rw [c4, sf.prior]
  set i : Fin (m.gp.Xs.map Arr2.rows).sum := ⟨0, by rw [sf.two]; norm_num⟩ with hi
  have q := quad_one sf.pd (m.fk.crossCov m.gp.Xs 0 (queryPoint 1 [⟨[1, 1], [5 / 2]⟩] 0 0)) i
  have e0 : m.fk.crossCov m.gp.Xs 0 (queryPoint 1 [⟨[1, 1], [5 / 2]⟩] 0 0) i = 1 := by
    rw [sf.cross, hi]
    simp [queryPoint, smallKer_zero]
  have e1 : m.fk.skiMat m.axesOf m.fk.extraOf m.gp.Xs i i ≤ 0.8 := by
    rw [sf.diag, hi]
    simp only [if_true]
    simp only [small_half (s := 5 / 2) (n := 2) (by norm_num) (by norm_num) (by norm_num), Finset.sum_range_succ, Finset.sum_range_zero]
    norm_num [smallKer_zero]
    have b1 := smallKer_le (r := 1) (by norm_num)
    have b2 := smallKer_le (r := -1) (by norm_num)
    have b3 := smallKer_le (r := 2) (by norm_num)
    have b4 := smallKer_le (r := -2) (by norm_num)
    have b5 := smallKer_le (r := 3) (by norm_num)
    have b6 := smallKer_le (r := -3) (by norm_num)
    have p1 := smallKer_pos 1
    have p2 := smallKer_pos (-1)
    have p3 := smallKer_pos 2
    have p4 := smallKer_pos (-2)
    have p5 := smallKer_pos 3
    have p6 := smallKer_pos (-3)
    linarith
  rw [e0] at q
  have hpos : 0 < m.fk.skiMat m.axesOf m.fk.extraOf m.gp.Xs i i := sf.pd.diag_pos
  have q2 : (1.25 : ℝ) ≤ 1 ^ 2 / m.fk.skiMat m.axesOf m.fk.extraOf m.gp.Xs i i := by
    rw [le_div_iff₀ hpos]
    linarith
  linarith

/-- with observations at the grid points `n1` and `n2` almost everything is explained there and almost nothing elsewhere -/
theorem small_explained {m : LLGP} {n1 n2 : ℕ} (sf : SmallFacts m n1 n2) (h1 : 1 ≤ n1) (h2 : n1 ≤ 7) (h3 : 1 ≤ n2) (h4 : n2 ≤ 7) (p : ℕ) (hp : p < 10) :
    0 ≤ m.fk.gridExplained m.axesOf m.fk.extraOf ([0], [0]) m.gp.Xs 0 p ∧ (p = n1 ∨ p = n2 → 10 / 11 ≤ m.fk.gridExplained m.axesOf m.fk.extraOf ([0], [0]) m.gp.Xs 0 p) ∧
    (p ≠ n1 → p ≠ n2 → m.fk.gridExplained m.axesOf m.fk.extraOf ([0], [0]) m.gp.Xs 0 p ≤ 1 / 100) := by
  have hw : ∀ i : Fin (m.gp.Xs.map Arr2.rows).sum, ∃ n, 1 ≤ n ∧ n ≤ 7 ∧ n = (if (i : ℕ) = 0 then n1 else n2) ∧ (if (i : ℕ) = 0 then (n1 : ℝ) else (n2 : ℝ)) = n := fun i => by
    by_cases hi : (i : ℕ) = 0
    · exact ⟨n1, h1, h2, by rw [if_pos hi], by rw [if_pos hi]⟩
    · exact ⟨n2, h3, h4, by rw [if_neg hi], by rw [if_neg hi]⟩
  have hu : ∀ p < 10, ∀ i : Fin (m.gp.Xs.map Arr2.rows).sum, m.fk.gridToData (m.axesOf [0]) m.fk.extraOf ([0], [0]) m.gp.Xs 0 p i =
      smallKer ((p : ℝ) - if (i : ℕ) = 0 then (n1 : ℝ) else (n2 : ℝ)) := fun p hp i => by
    obtain ⟨n, a1, a2, -, a3⟩ := hw i
    rw [sf.data p hp i, a3, Finset.sum_eq_single_of_mem n (Finset.mem_range.2 (by omega)), small_whole rfl a1 a2, if_pos rfl, mul_one]
    intro q _ hq
    rw [small_whole rfl a1 a2, if_neg hq, mul_zero]
  have hd : ∀ i : Fin (m.gp.Xs.map Arr2.rows).sum, m.fk.skiMat m.axesOf m.fk.extraOf m.gp.Xs i i = 1.1 := fun i => by
    obtain ⟨n, a1, a2, -, a3⟩ := hw i
    have hn := Finset.mem_range.2 (show n < 10 by omega)
    rw [sf.diag i, a3, Finset.sum_eq_single_of_mem n hn, Finset.sum_eq_single_of_mem n hn, small_whole rfl a1 a2, if_pos rfl, sub_self, smallKer_zero]
    · norm_num
    · intro q _ hq
      rw [small_whole (p := q) rfl a1 a2, if_neg hq, mul_zero]
    · intro q _ hq
      refine Finset.sum_eq_zero fun q' _ => ?_
      rw [small_whole (p := q) rfl a1 a2, if_neg hq, zero_mul, zero_mul]
  refine ⟨?_, fun h => ?_, fun g1 g2 => ?_⟩
  · have := sf.pd.inv.posSemidef.dotProduct_mulVec_nonneg (m.fk.gridToData (m.axesOf [0]) m.fk.extraOf ([0], [0]) m.gp.Xs 0 p)
    simp only [star_trivial] at this
    exact this
  · have key : ∀ i : Fin (m.gp.Xs.map Arr2.rows).sum, ((p : ℝ) = if (i : ℕ) = 0 then (n1 : ℝ) else (n2 : ℝ)) → 10 / 11 ≤ m.fk.gridExplained m.axesOf m.fk.extraOf ([0], [0]) m.gp.Xs 0 p :=
      fun i hi => by
        have q := quad_one sf.pd (m.fk.gridToData (m.axesOf [0]) m.fk.extraOf ([0], [0]) m.gp.Xs 0 p) i
        rw [hu p hp i, hd i, ← hi, sub_self, smallKer_zero] at q
        have e : (10 / 11 : ℝ) = 1 ^ 2 / 1.1 := by norm_num
        rw [e]
        exact q
    rcases h with h | h
    · exact key ⟨0, by rw [sf.two]; norm_num⟩ (by rw [if_pos rfl, h])
    · exact key ⟨1, by rw [sf.two]; norm_num⟩ (by rw [if_neg (by norm_num), h])
  · obtain ⟨S, hS, e⟩ := sf.split
    have q := quad_all (ν := 0.1) sf.pd hS e (by norm_num) (fun _ => le_rfl) (m.fk.gridToData (m.axesOf [0]) m.fk.extraOf ([0], [0]) m.gp.Xs 0 p)
    refine q.trans ?_
    have hsum : ∑ i, m.fk.gridToData (m.axesOf [0]) m.fk.extraOf ([0], [0]) m.gp.Xs 0 p i ^ 2 ≤ ∑ _i : Fin (m.gp.Xs.map Arr2.rows).sum, (1 / 51 : ℝ) ^ 2 := by
      refine Finset.sum_le_sum fun i _ => ?_
      rw [hu p hp i]
      refine pow_le_pow_left₀ (smallKer_pos _).le (smallKer_le ?_) 2
      obtain ⟨n, -, -, a3, a4⟩ := hw i
      rw [a4]
      have hne : p ≠ n := by rw [a3]; split_ifs <;> assumption
      rcases Nat.lt_or_gt_of_ne hne with h | h
      · have : (p : ℝ) + 1 ≤ n := by exact_mod_cast h
        nlinarith
      · have : (n : ℝ) + 1 ≤ p := by exact_mod_cast h
        nlinarith
    rw [div_le_iff₀ (by norm_num)]
    refine hsum.trans ?_
    rw [Finset.sum_const, Finset.card_univ, Fintype.card_fin, sf.two]
    norm_num

theorem small_precompute {m : LLGP} {a : LLGPArgs} {x1 x2 : ℝ} (hm : Held exactSolvers [.new a quiet] 0 a m) (c1 : m.prediction = .precompute) (c2 : m.fk.activeDims = [([0], [0])])
    (c3 : m.axesOf [0] = [vmk 10 fun i => (i : ℝ)]) (c4 : m.gp.inputDim = 1) (c7 : m.fk.D = 1) (sf : SmallFacts m x1 x2) (hQ : ∀ y : ℝ, m.Accepts [⟨[1, 1], [y]⟩])
    (s1 : 0 < a.scaleOf 0) (s2 : (normOf m.gp 0).1 = a.scaleOf 0) (y : ℝ) : ∃ r, Predicts exactSolvers [.new a quiet] 0 [⟨[1, 1], [y]⟩] quiet (.ok r) ∧
      (r.2.getD 0 []).getD 0 0 / a.scaleOf 0 ^ 2 = max 0 (1.1 - ∑ p ∈ Finset.range 10, gridWeight [vmk 10 fun i => (i : ℝ)] (fun _ => y) p *
        m.fk.gridExplained m.axesOf m.fk.extraOf ([0], [0]) m.gp.Xs 0 p) := by
  obtain ⟨k, f1, f2, f3, f4, f5, f6, f7⟩ := hm.facts exactSolvers_fit
  obtain ⟨r, r1, r2⟩ := C46_precompute exactSolvers m _ k _ (f4 _ (hQ y)) quiet quiet_calm.1 c1
    (exact_of_current exactSolvers_fit (fun K n A tol hK _ => exactSolvers_exact hK tol) f5 f6 f2 (by rw [c2]; simp) _) f2.plain _ c2 (by rw [c4]; rfl)
  refine ⟨r, r1 ▸ f7 _ quiet quiet_calm.1, ?_⟩
  rw [r2 0 (by rw [c7]; norm_num) 0 (by simp [queryLens]), s2, mul_div_assoc, div_self (pow_pos s1 2).ne', mul_one, c3, small_size, c4, sf.prior, small_coords]
  congr 2

/-- C98 is false in `'precompute'` mode, above: a program that makes a model as documented and asks for a prediction between the observations is told a variance that is
larger than the prior variance, as if the observations had increased the uncertainty. The observation at 3 has a negative weight in the interpolation at 4.5. -/
theorem C98_precompute_above : ∃ (fk : FK) (a : LLGPArgs) (m : LLGP) (r : Predicted),
    fkNew (fun _ _ _ => 1) ⟨some 1, some [], some [], some [.rbf 100 none], none, none⟩ = .ok fk ∧ a = smallArgs .precompute 3 7 fk ∧
    Held exactSolvers [.new a quiet] 0 a m ∧ m.prediction = .precompute ∧ m.Accepts [⟨[1, 1], [9 / 2]⟩] ∧ Predicts exactSolvers [.new a quiet] 0 [⟨[1, 1], [9 / 2]⟩] quiet (.ok r) ∧
    m.fk.priorVar 0 (queryPoint 1 [⟨[1, 1], [9 / 2]⟩] 0 0) < (r.2.getD 0 []).getD 0 0 / a.scaleOf 0 ^ 2 := by
  obtain ⟨fk, a, m, h, ha, hm, c1, c2, c3, c4, c5, c6, c7, c8, sf, hQ, s1, s2⟩ := small_ask (mode := .precompute) (x1 := 3) (x2 := 7) (by norm_num) (by norm_num) (by norm_num)
  obtain ⟨r, r1, r2⟩ := small_precompute hm c1 c2 c3 c4 c7 sf hQ s1 s2 (9 / 2)
  refine ⟨fk, a, m, r, h, ha, hm, c1, hQ _, r1, ?_⟩
  rw [r2, sf.prior]
  refine lt_max_of_lt_right ?_
  have sf' : SmallFacts m ((3 : ℕ) : ℝ) ((7 : ℕ) : ℝ) := by exact_mod_cast sf
  have E := small_explained sf' (by norm_num) (by norm_num) (by norm_num) (by norm_num)
  have e3 := (E 3 (by norm_num)).2.1 (.inl rfl)
  have e4 := (E 4 (by norm_num)).2.2 (by norm_num) (by norm_num)
  have e5 := (E 5 (by norm_num)).2.2 (by norm_num) (by norm_num)
  have e6 := (E 6 (by norm_num)).1
  simp only [small_half (s := 9 / 2) (n := 4) (by norm_num) (by norm_num) (by norm_num), Finset.sum_range_succ, Finset.sum_range_zero]
  norm_num
  linarith

/-- C98 is false in `'precompute'` mode, below: half way between two neighbouring observations the variance is smaller than the noise. -/
theorem C98_precompute_below : ∃ (fk : FK) (a : LLGPArgs) (m : LLGP) (r : Predicted),
    fkNew (fun _ _ _ => 1) ⟨some 1, some [], some [], some [.rbf 100 none], none, none⟩ = .ok fk ∧ a = smallArgs .precompute 3 4 fk ∧
    Held exactSolvers [.new a quiet] 0 a m ∧ m.prediction = .precompute ∧ m.Accepts [⟨[1, 1], [7 / 2]⟩] ∧ Predicts exactSolvers [.new a quiet] 0 [⟨[1, 1], [7 / 2]⟩] quiet (.ok r) ∧
    (r.2.getD 0 []).getD 0 0 / a.scaleOf 0 ^ 2 < m.fk.noise.getD 0 0 := by
  obtain ⟨fk, a, m, h, ha, hm, c1, c2, c3, c4, c5, c6, c7, c8, sf, hQ, s1, s2⟩ := small_ask (mode := .precompute) (x1 := 3) (x2 := 4) (by norm_num) (by norm_num) (by norm_num)
  obtain ⟨r, r1, r2⟩ := small_precompute hm c1 c2 c3 c4 c7 sf hQ s1 s2 (7 / 2)
  refine ⟨fk, a, m, r, h, ha, hm, c1, hQ _, r1, ?_⟩
  rw [r2, c6]
  have sf' : SmallFacts m ((3 : ℕ) : ℝ) ((4 : ℕ) : ℝ) := by exact_mod_cast sf
  have E := small_explained sf' (by norm_num) (by norm_num) (by norm_num) (by norm_num)
  have e2 := (E 2 (by norm_num)).2.2 (by norm_num) (by norm_num)
  have e3 := (E 3 (by norm_num)).2.1 (.inl rfl)
  have e4 := (E 4 (by norm_num)).2.1 (.inr rfl)
  have e5 := (E 5 (by norm_num)).2.2 (by norm_num) (by norm_num)
  refine max_lt (by norm_num) ?_
  simp only [small_half (s := 7 / 2) (n := 3) (by norm_num) (by norm_num) (by norm_num), Finset.sum_range_succ, Finset.sum_range_zero]
  norm_num
  linarith

/-- the hypotheses of the theorems above are met, in every mode, by the model of these witnesses, asked at any point -/
example (mode : PredMode) (y : ℝ) : ∃ (a : LLGPArgs) (m : LLGP), Held exactSolvers [.new a quiet] 0 a m ∧ m.prediction = mode ∧ m.Accepts [⟨[1, 1], [y]⟩] ∧
    m.fk.activeDims = [([0], [0])] ∧ [0] = List.range m.gp.inputDim ∧ (∀ ad ∈ m.fk.activeDims.map Prod.fst, ad.Nodup) ∧ ¬ Spoiled m.fk ([0], [0]) := by
  obtain ⟨fk, a, m, h, ha, hm, c1, c2, c3, c4, c5, c6, c7, c8, sf, hQ, s1, s2⟩ := small_ask (mode := mode) (x1 := 3) (x2 := 7) (by norm_num) (by norm_num) (by norm_num)
  exact ⟨a, m, hm, c1, hQ y, c2, by rw [c4]; rfl, by rw [c2]; simp, sf.plain⟩

end Verif
