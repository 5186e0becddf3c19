import Verif.Proofs.MoreVariance
import Verif.Props.Amplitude

/-! C119: more variance a priori never leaves less variance in predictions. -/

namespace Verif

open Matrix

theorem problem_data {P P' : ℕ} {m m' : LLGP} {a a' : LLGPArgs} (ha : m.MadeFrom P a) (ha' : m'.MadeFrom P' a') (hp : a.SameProblem a') : m'.gp = m.gp := by
  obtain ⟨fk, m0, hd, hi, g1, g2, g3⟩ := ha
  obtain ⟨fk', m0', hd', hi', g1', g2', g3'⟩ := ha'
  obtain ⟨p1, p2, p3, p4, p5, p6, -⟩ := hp
  obtain ⟨-, -, -, -, -, e⟩ := init_fields hi
  obtain ⟨-, -, -, -, -, e'⟩ := init_fields hi'
  rw [p1, p2, p3, e] at e'
  rw [g1, g1']
  exact (Except.ok.inj e').symm

theorem problem_axes {P P' : ℕ} {m m' : LLGP} {a a' : LLGPArgs} (ha : m.MadeFrom P a) (ha' : m'.MadeFrom P' a') (hp : a.SameProblem a')
    (hk : m'.fk.activeDims = m.fk.activeDims) : ∀ ad ∈ m.fk.activeDims.map Prod.fst, m'.axesOf ad = m.axesOf ad := by
  have hgp := problem_data ha ha' hp
  obtain ⟨fk, m0, hd, hi, g1, g2, g3⟩ := ha
  obtain ⟨fk', m0', hd', hi', g1', g2', g3'⟩ := ha'
  obtain ⟨p1, p2, p3, p4, p5, p6, -⟩ := hp
  obtain ⟨-, -, -, -, q⟩ := documented_fields hd hi
  obtain ⟨-, -, -, -, q'⟩ := documented_fields hd' hi'
  intro ad had
  have had' := had
  rw [← hk] at had'
  rw [g3] at had
  rw [g3'] at had'
  rw [p4, p5, p6, ← g1', hgp] at q'
  rw [← g1] at q
  obtain ⟨g, x1, x2⟩ := generateGrids_at q had
  obtain ⟨g', y1, y2⟩ := generateGrids_at q' had'
  rw [x1] at y1
  cases y1
  unfold LLGP.axesOf
  rw [g2, g2', x2, y2]

/-- C119 in 'exact' mode: of two models of the same data let one give every weighted sum of values of the outputs at least the variance a priori that the other one gives
it, and at least the noise. Then it predicts, in units of the normalised outputs, at least as large a variance for every output at every point, and larger at least by the
difference of the noises; so what it leaves unknown about the function itself is not less either. -/
theorem C119_variances (sv : Solvers) (hs : sv.Fit) (ops ops' : List Op) (i i' : ℕ) (a a' : LLGPArgs) (m m' : LLGP) (h : Held sv ops i a m) (h' : Held sv ops' i' a' m')
    (hp : a.SameProblem a') (hm : m.prediction = .exact) (hv : MoreVariance m.fk m'.fk) (Qs : List (NDArr ℝ)) (hQ : m.Accepts Qs) (e e' : Env) (he : e.Works)
    (he' : e'.Works) :
    ∃ r r', Predicts sv ops i Qs e (.ok r) ∧ Predicts sv ops' i' Qs e' (.ok r') ∧ ∀ d < m.gp.outputDim, ∀ j < (queryLens Qs).getD d 0,
      0 < a.scaleOf d ∧ (r.2.getD d []).getD j 0 ≤ (r'.2.getD d []).getD j 0 ∧
      (r.2.getD d []).getD j 0 / a.scaleOf d ^ 2 - m.fk.noise.getD d 0 ≤ (r'.2.getD d []).getD j 0 / a.scaleOf d ^ 2 - m'.fk.noise.getD d 0 := by
  obtain ⟨k, f1, f2, f3, f4, f5, f6, f7⟩ := h.facts hs
  obtain ⟨k', g1, g2, g3, g4, g5, g6, g7⟩ := h'.facts hs
  have hgp := problem_data f1 g1 hp
  have hQ' : m'.Accepts Qs := by
    unfold LLGP.Accepts
    rw [hgp]
    exact hQ
  have hm' : m'.prediction = .exact := (held_prediction hs h h' hp.2.2.2.2.2.2).trans hm
  obtain ⟨r, hr, H⟩ := C45_exact sv m _ k Qs (f4 Qs hQ) e hm f2
  obtain ⟨r', hr', H'⟩ := C45_exact sv m' _ k' Qs (g4 Qs hQ') e' hm' g2
  refine ⟨r, r', hr ▸ f7 Qs e he, hr' ▸ g7 Qs e' he', fun d hd j hj => ?_⟩
  obtain ⟨x1, s1, -⟩ := MadeFrom.scale f1
  rw [f3] at hd
  obtain ⟨n1, p1⟩ := s1 d (by
    have : a.Xs.length = m.gp.Xs.length := by rw [x1]; unfold padded; rw [List.length_map]
    rw [this, f5.data.inputs.len]
    exact hd)
  have key := hv.condVar f5.ready.wf g5.ready.wf f2 g2 f5.data.inputs.len hd (queryPoint m.gp.inputDim Qs d j)
  have hn := hv.noise d hd
  have v1 := (H d hd j hj).1
  have v2 := (H' d (by rw [hv.outputs]; exact hd) j hj).1
  rw [hgp] at v2
  rw [n1] at v1 v2
  have q1 := (pow_pos p1 2)
  rw [v1, v2, mul_div_assoc, mul_div_assoc, div_self q1.ne', mul_one, mul_one]
  exact ⟨p1, mul_le_mul_of_nonneg_right (by linarith) q1.le, by linarith⟩

/-- C119: nor is `log_det_K()` less, in any mode. -/
theorem C119_log_det (sv : Solvers) (hs : sv.Fit) (ops ops' : List Op) (i i' : ℕ) (a a' : LLGPArgs) (m m' : LLGP) (h : Held sv ops i a m) (h' : Held sv ops' i' a' m')
    (hp : a.SameProblem a') (hv : MoreVariance m.fk m'.fk) (e e' : Env) (he : e.Works) (he' : e'.Works) :
    ∃ x x', Tells sv ops i .logDet e (.extended (some x)) ∧ Tells sv ops' i' .logDet e' (.extended (some x')) ∧ x ≤ x' := by
  obtain ⟨k, f1, f2, f3, f4, f5, f6, f7⟩ := h.facts hs
  obtain ⟨k', g1, g2, g3, g4, g5, g6, g7⟩ := h'.facts hs
  have hgp := problem_data f1 g1 hp
  obtain ⟨L, l1, l2⟩ := (exactLMC_contents f5.ready f5.data).1 (sound_posDef f5 f2)
  obtain ⟨L', l1', l2'⟩ := (exactLMC_contents g5.ready g5.data).1 (sound_posDef g5 g2)
  change m.dense = .ok L at l1
  change m'.dense = .ok L' at l1'
  refine ⟨_, _, ?_, ?_, Real.log_le_log (sound_posDef f5 f2).det_pos (hv.det f5.ready.wf f2 f5.data.inputs.len)⟩
  · unfold Tells
    rw [(C48_answers sv ops (validFrom_works ops [] h.valid) i m h.model (by rw [f6.kernel]; simp) _ e he).1]
    show _ ++ [m.dense.map fun l => Answer.extended (logDetOf l)] = _
    rw [l1]
    show _ ++ [Except.ok (Answer.extended (logDetOf L))] = _
    rw [logDet_ok f5 l1]
  · unfold Tells
    rw [(C48_answers sv ops' (validFrom_works ops' [] h'.valid) i' m' h'.model (by rw [g6.kernel]; simp) _ e' he').1]
    show _ ++ [m'.dense.map fun l => Answer.extended (logDetOf l)] = _
    rw [l1']
    show _ ++ [Except.ok (Answer.extended (logDetOf L'))] = _
    rw [logDet_ok g5 l1', hgp]

/-- C119: larger diagonals, further kernels and more noise give every weighted sum more variance. -/
theorem C119_enlarged (sv : Solvers) (hs : sv.Fit) (ops : List Op) (i : ℕ) (a : LLGPArgs) (m : LLGP) (h : Held sv ops i a m) (fk : FK) (he : Enlarged fk m.fk) :
    MoreVariance fk m.fk := by
  obtain ⟨k, f1, f2, f3, f4, f5, f6, f7⟩ := h.facts hs
  exact he.more f5.ready.wf f2

theorem Noisier.enlarged {fk fk' : FK} (h : Noisier fk fk') : Enlarged fk fk' := by
  have h1 := h.same
  refine ⟨by rw [h1], le_of_eq (by rw [h1]; rfl), fun q _ => by rw [h1]; exact ⟨rfl, rfl⟩, fun q _ a _ => le_of_eq (by rw [h1]), h.noise⟩

theorem skiCov_axes (fk : FK) {axes axes' : List ℕ → List (List ℝ)} (h : ∀ ad ∈ fk.activeDims.map Prod.fst, axes' ad = axes ad) (extra : List ℕ × List ℕ → ℝ) (a b : ℕ)
    (x z : ℕ → ℝ) : fk.skiCov axes' extra a b x z = fk.skiCov axes extra a b x z := by
  unfold FK.skiCov
  refine congrArg List.sum (List.map_congr_left fun g hg => ?_)
  rw [h g.1 (List.mem_map_of_mem hg)]

theorem noisier_ski {m m' : LLGP} (h : Noisier m.fk m'.fk) (ha : ∀ ad ∈ m.fk.activeDims.map Prod.fst, m'.axesOf ad = m.axesOf ad)
    (x y : Fin (m.gp.Xs.map Arr2.rows).sum) : m'.fk.skiMat m'.axesOf m'.fk.extraOf m.gp.Xs x y = m.fk.skiMat m.axesOf m.fk.extraOf m.gp.Xs x y +
      if x = y then m'.fk.noise.getD (ownerOf (m.gp.Xs.map Arr2.rows) x) 0 - m.fk.noise.getD (ownerOf (m.gp.Xs.map Arr2.rows) x) 0 else 0 := by
  show m'.fk.skiCov _ _ _ _ _ _ + (if (x : ℕ) = y then _ else 0) = m.fk.skiCov _ _ _ _ _ _ + (if (x : ℕ) = y then _ else 0) + _
  have e : ∀ a b p q, m'.fk.skiCov m'.axesOf m'.fk.extraOf a b p q = m.fk.skiCov m.axesOf m.fk.extraOf a b p q := fun a b p q => by
    rw [← skiCov_axes m.fk ha]
    generalize m'.axesOf = ax
    rw [h.same]
    rfl
  rw [e]
  by_cases hxy : x = y
  · rw [if_pos (by rw [hxy]), if_pos (by rw [hxy]), if_pos hxy]
    ring
  · rw [if_neg fun h' => hxy (Fin.ext h'), if_neg fun h' => hxy (Fin.ext h'), if_neg hxy]
    ring

/-- C119 for noise: of two models of the same data that differ in the noise only, the noisier one never predicts a smaller variance in the modes 'exact' and 'on-the-fly'.
In 'precompute' mode this holds where no weight of the interpolation is negative, such as at the points of the grid. Its `normal_quadratic()` is never larger, in any mode.
(With linear solves that are exact; kernels do not read a dimension twice.) -/
theorem C119_noise (sv : Solvers) (hs : sv.Fit) (hx : sv.Exact) (ops ops' : List Op) (i i' : ℕ) (a a' : LLGPArgs) (m m' : LLGP) (h : Held sv ops i a m)
    (h' : Held sv ops' i' a' m') (hp : a.SameProblem a') (hv : Noisier m.fk m'.fk) (hn : ∀ ad ∈ m.fk.activeDims.map Prod.fst, ad.Nodup) (e e' : Env) (he : e.Works)
    (he' : e'.Works) :
    (∀ Qs, m.Accepts Qs → ∀ r, Predicts sv ops i Qs e (.ok r) → ∃ r', Predicts sv ops' i' Qs e' (.ok r') ∧ ∀ d < m.gp.outputDim, ∀ j < (queryLens Qs).getD d 0,
      (m.prediction = .precompute → ∀ ad ∈ m.fk.activeDims.map Prod.fst, ∀ p, 0 ≤ gridWeight (m.axesOf ad) (coords ad (queryPoint m.gp.inputDim Qs d j)) p) →
        (r.2.getD d []).getD j 0 ≤ (r'.2.getD d []).getD j 0) ∧
    ∃ y y', Tells sv ops i .normalQuadratic e (.number y) ∧ Tells sv ops' i' .normalQuadratic e' (.number y') ∧ y' ≤ y := by
  obtain ⟨k, f1, f2, f3, f4, f5, f6, f7⟩ := h.facts hs
  obtain ⟨k', g1, g2, g3, g4, g5, g6, g7⟩ := h'.facts hs
  have hgp := problem_data f1 g1 hp
  have hD : m'.fk.D = m.fk.D := by rw [hv.same]
  have hact : m'.fk.activeDims = m.fk.activeDims := by rw [hv.same]
  have hax := problem_axes f1 g1 hp hact
  have hn' : ∀ ad ∈ m'.fk.activeDims.map Prod.fst, ad.Nodup := by rw [hact]; exact hn
  have hX := exact_of_current hs hx f5 f6 f2 hn
  have hX' := exact_of_current hs hx g5 g6 g2 hn'
  have hsk := f5.ski_posDef f2 hn
  have hsk' := g5.ski_posDef g2 hn'
  rw [hgp] at hsk'
  have hδ : ∀ x : Fin (m.gp.Xs.map Arr2.rows).sum, 0 ≤ m'.fk.noise.getD (ownerOf (m.gp.Xs.map Arr2.rows) x) 0 - m.fk.noise.getD (ownerOf (m.gp.Xs.map Arr2.rows) x) 0 := fun x =>
    sub_nonneg.2 (hv.noise _ (owner_lt f5.data.inputs.len x))
  have quad := quad_noise hsk hsk' hδ (noisier_ski hv hax)
  have hmode := held_prediction hs h h' hp.2.2.2.2.2.2
  have hcov : ∀ a b x z, m'.fk.cov a b x z = m.fk.cov a b x z := fun a b x z => by rw [hv.same]; rfl
  have hcross : ∀ d x, m'.fk.crossCov m.gp.Xs d x = m.fk.crossCov m.gp.Xs d x := fun d x => funext fun s => hcov _ _ _ _
  refine ⟨fun Qs hQ r hr => ?_, ?_⟩
  · have hQ' : m'.Accepts Qs := by
      unfold LLGP.Accepts
      rw [hgp]
      exact hQ
    have A := f4 Qs hQ
    have A' := g4 Qs hQ'
    have hr1 := predicts_unique hr (f7 Qs e he)
    obtain ⟨-, can⟩ := ((C43_returns sv m _ k Qs A e he).2).1 ⟨r, hr1⟩
    unfold LLGP.CanPredict at can
    cases hm : m.prediction with
    | exact =>
      obtain ⟨r₁, r', r1, r2, r3⟩ := C119_variances sv hs ops ops' i i' a a' m m' h h' hp hm (hv.enlarged.more g5.ready.wf g2) Qs hQ e e' he he'
      have := predicts_unique hr r1
      cases this
      exact ⟨r', r2, fun d hd j hj _ => (r3 d hd j hj).2.1⟩
    | onTheFly =>
      have h0 : 0 < (queryLens Qs).sum := by
        rw [hm] at can
        exact can
      obtain ⟨r₁, v1, v2⟩ := C46_on_the_fly sv m _ k Qs A e he hm (hX _) f2.plain h0
      rw [hr1] at v1
      cases v1
      obtain ⟨r', w1, w2⟩ := C46_on_the_fly sv m' _ k' Qs A' e' he' (hmode.trans hm) (hX' _) g2.plain h0
      refine ⟨r', w1 ▸ g7 Qs e' he', fun d hd j hj _ => ?_⟩
      rw [f3] at hd
      rw [w2 d (by rw [hD]; exact hd) j hj, v2 d hd j hj, hgp, hcross]
      refine mul_le_mul_of_nonneg_right (max_le_max le_rfl (sub_le_sub ?_ (quad _))) (sq_nonneg _)
      unfold FK.priorVar
      rw [hcov]
      linarith [hv.noise d hd]
    | precompute =>
      obtain ⟨g, hg, hg1⟩ : ∃ g, m.fk.activeDims = [g] ∧ g.1 = List.range m.gp.inputDim := by
        rw [hm] at can
        exact can
      obtain ⟨r₁, v1, v2⟩ := C46_precompute sv m _ k Qs A e he hm (hX _) f2.plain g hg hg1
      rw [hr1] at v1
      cases v1
      obtain ⟨r', w1, w2⟩ := C46_precompute sv m' _ k' Qs A' e' he' (hmode.trans hm) (hX' _) g2.plain g (hact.trans hg) (by rw [hgp]; exact hg1)
      refine ⟨r', w1 ▸ g7 Qs e' he', fun d hd j hj hw => ?_⟩
      rw [f3] at hd
      have hgm : g.1 ∈ m.fk.activeDims.map Prod.fst := by rw [hg]; simp
      have hw := hw rfl g.1 hgm
      rw [w2 d (by rw [hD]; exact hd) j hj, v2 d hd j hj, hgp, hax g.1 hgm]
      have ex : ∀ p, m'.fk.gridExplained m'.axesOf m'.fk.extraOf g m.gp.Xs d p ≤ m.fk.gridExplained m.axesOf m.fk.extraOf g m.gp.Xs d p := fun p => by
        unfold FK.gridExplained
        have : m'.fk.gridToData (m'.axesOf g.1) m'.fk.extraOf g m.gp.Xs d p = m.fk.gridToData (m.axesOf g.1) m.fk.extraOf g m.gp.Xs d p := by
          rw [hax g.1 hgm]
          generalize m.axesOf g.1 = ax
          rw [hv.same]
          rfl
        rw [this]
        exact quad _
      refine mul_le_mul_of_nonneg_right (max_le_max le_rfl (sub_le_sub ?_ (Finset.sum_le_sum fun p _ => mul_le_mul_of_nonneg_left (ex p) (hw p)))) (sq_nonneg _)
      unfold FK.priorVar
      rw [hcov]
      linarith [hv.noise d hd]
  · obtain ⟨L, l1, l2⟩ := (exactLMC_contents f5.ready f5.data).1 (sound_posDef f5 f2)
    obtain ⟨L', l1', l2'⟩ := (exactLMC_contents g5.ready g5.data).1 (sound_posDef g5 g2)
    change m.dense = .ok L at l1
    change m'.dense = .ok L' at l1'
    obtain ⟨q1, q2⟩ := C40_log_likelihood sv hs m _ f5 k f6 _ l1
    obtain ⟨q1', q2'⟩ := C40_log_likelihood sv hs m' _ g5 k' g6 _ l1'
    refine ⟨toVec m.n m.y ⬝ᵥ toVec m.n k.approx.alpha, toVec m'.n m'.y ⬝ᵥ toVec m'.n k'.approx.alpha, ?_, ?_, ?_⟩
    · unfold Tells
      rw [(C48_answers sv ops (validFrom_works ops [] h.valid) i m h.model (by rw [f6.kernel]; simp) _ e he).1]
      show _ ++ [m.normalQuadratic.map Answer.number] = _
      rw [q1]
      rfl
    · unfold Tells
      rw [(C48_answers sv ops' (validFrom_works ops' [] h'.valid) i' m' h'.model (by rw [g6.kernel]; simp) _ e' he').1]
      show _ ++ [m'.normalQuadratic.map Answer.number] = _
      rw [q1']
      rfl
    · have e0 : toVec m.n m.y ⬝ᵥ toVec m.n k.approx.alpha = toVec (m.gp.Xs.map Arr2.rows).sum m.y ⬝ᵥ
          (m.fk.skiMat m.axesOf m.fk.extraOf m.gp.Xs)⁻¹ *ᵥ toVec (m.gp.Xs.map Arr2.rows).sum m.y := by
        rw [alpha_exact f5 f6 (hX _)]
        rfl
      have e1 : toVec m'.n m'.y ⬝ᵥ toVec m'.n k'.approx.alpha = toVec (m'.gp.Xs.map Arr2.rows).sum m'.y ⬝ᵥ
          (m'.fk.skiMat m'.axesOf m'.fk.extraOf m'.gp.Xs)⁻¹ *ᵥ toVec (m'.gp.Xs.map Arr2.rows).sum m'.y := by
        rw [alpha_exact g5 g6 (hX' _)]
        rfl
      have hy : m'.y = m.y := by unfold LLGP.y; rw [hgp]
      rw [e0, e1, hy, hgp]
      exact quad _

/-- twice the diagonals and twice the noise -/
def FK.louder (fk : FK) : FK := { fk with coregDiags := fk.coregDiags.map fun l => l.map (2 * ·), noise := fk.noise.map (2 * ·) }

theorem louder_kappa (fk : FK) (q a : ℕ) : (fk.louder.coregDiags.getD q []).getD a 0 = 2 * (fk.coregDiags.getD q []).getD a 0 := by
  have e : fk.louder.coregDiags.getD q [] = (fk.coregDiags.getD q []).map (2 * ·) := List.getD_map fk.coregDiags (d := []) (f := fun l : List ℝ => l.map (2 * ·))
  rw [e]
  have := List.getD_map (f := ((2 : ℝ) * ·)) (l := fk.coregDiags.getD q []) (n := a) (d := 0)
  rw [mul_zero] at this
  exact this

theorem louder_noise (fk : FK) (a : ℕ) : fk.louder.noise.getD a 0 = 2 * fk.noise.getD a 0 := by
  have := List.getD_map (f := ((2 : ℝ) * ·)) (l := fk.noise) (n := a) (d := 0)
  rw [mul_zero] at this
  exact this

theorem louder_retuned {fk : FK} {P : ℕ} (h : fk.Ready P) : fk.Retuned fk.louder := by
  have hw := h.wf
  refine ⟨⟨hw.Dpos, hw.vecs, (List.length_map _).trans hw.diags, (List.length_map _).trans hw.noise, hw.counts, hw.vec, fun q hq => ?_, fun q h1 h2 i => ?_,
    hw.slfmRank, hw.indep⟩, rfl, rfl, rfl, rfl, rfl, rfl, rfl, rfl, rfl, fun _ _ => rfl, h.valid⟩
  · have e : fk.louder.coregDiags.getD q [] = (fk.coregDiags.getD q []).map (2 * ·) := List.getD_map fk.coregDiags (d := []) (f := fun l : List ℝ => l.map (2 * ·))
    rw [e, List.length_map]
    exact hw.diag q hq
  · rw [louder_kappa, hw.slfm q h1 h2, mul_zero]

theorem louder_sound {fk : FK} (h : fk.Sound) : fk.louder.Sound :=
  ⟨h.kernels, h.plain, fun q hq a ha => by rw [louder_kappa]; exact mul_nonneg zero_le_two (h.kappa q hq a ha), fun a ha => by rw [louder_noise]; exact mul_pos zero_lt_two (h.noise a ha)⟩

theorem louder_enlarged {fk : FK} (h : fk.Sound) : Enlarged fk fk.louder :=
  ⟨rfl, le_rfl, fun _ _ => ⟨rfl, rfl⟩, fun q hq a ha => by rw [louder_kappa]; linarith [h.kappa q hq a ha], fun a ha => by rw [louder_noise]; linarith [h.noise a ha]⟩

theorem noisy_retuned {fk : FK} {P : ℕ} (h : fk.Ready P) : fk.Retuned { fk with noise := fk.louder.noise } :=
  ⟨⟨h.wf.Dpos, h.wf.vecs, h.wf.diags, (List.length_map _).trans h.wf.noise, h.wf.counts, h.wf.vec, h.wf.diag, h.wf.slfm, h.wf.slfmRank, h.wf.indep⟩, rfl, rfl, rfl, rfl, rfl, rfl, rfl, rfl, rfl,
    fun _ _ => rfl, h.valid⟩

/-- a model with an RBF and a scaled Matern kernel: after doubling the diagonals and the noise, 'exact' variances have grown at least by the noise; after doubling the noise
alone, neither they nor those of 'on-the-fly' mode are smaller -/
example : (∃ (a : LLGPArgs) (m : LLGP), Held exactSolvers [.new a quiet] 0 a m ∧ m.fk.Q = 2 ∧ ∀ Qs, m.Accepts Qs → ∃ r r' : Predicted,
      Predicts exactSolvers [.new a quiet] 0 Qs quiet (.ok r) ∧ Predicts exactSolvers ([.new a quiet] ++ [.set 0 m.fk.louder quiet]) 0 Qs quiet (.ok r') ∧
      ∀ d < m.gp.outputDim, ∀ j < (queryLens Qs).getD d 0, 0 < a.scaleOf d ∧
        (r.2.getD d []).getD j 0 / a.scaleOf d ^ 2 + m.fk.noise.getD d 0 ≤ (r'.2.getD d []).getD j 0 / a.scaleOf d ^ 2) ∧
    ∃ (a : LLGPArgs) (m : LLGP), Held exactSolvers [.new a quiet] 0 a m ∧ m.fk.Q = 2 ∧ ∀ Qs, m.Accepts Qs → ∀ r, Predicts exactSolvers [.new a quiet] 0 Qs quiet (.ok r) →
      ∃ r' : Predicted, Predicts exactSolvers ([.new a quiet] ++ [.set 0 { m.fk with noise := m.fk.louder.noise } quiet]) 0 Qs quiet (.ok r') ∧
        ∀ d < m.gp.outputDim, ∀ j < (queryLens Qs).getD d 0, (r.2.getD d []).getD j 0 ≤ (r'.2.getD d []).getD j 0 := by
  have base : ∀ mode : PredMode, ∃ (a : LLGPArgs) (m : LLGP), a.prediction = mode.name ∧ Held exactSolvers [.new a quiet] 0 a m ∧ m.fk.Q = 2 ∧
      ∀ ad ∈ m.fk.activeDims.map Prod.fst, ad.Nodup := by
    intro mode
    obtain ⟨fk, ⟨h1, h2, h3, h4, h5, -⟩, h⟩ := exists_documented_grid
    have hd := h mode false none (by simp)
    obtain ⟨m₀, -, i2, -, i4, i5, -, i7, -, i6⟩ := model_of_documented hd (mode := mode) (metrics := false) rfl rfl h1 h2 h3 h4 rfl
    obtain ⟨fk'', g1, g2⟩ := setInputDim_fresh fk 2 hd.fresh
    rw [i6] at g1
    cases g1
    obtain ⟨m, hm, f⟩ := held_new exactSolvers_fit (by norm_num) hd (by norm_num) rfl i6 i4
    refine ⟨_, m, rfl, hm, ?_, ?_⟩
    · rw [f]
      refine g2.klen.trans ?_
      rw [h1]
      rfl
    · rw [f, i7]
      simp
  constructor
  · obtain ⟨a, m, ha, hm, hQ, hn⟩ := base .exact
    obtain ⟨k, f1, f2, f3, f4, f5, f6, f7⟩ := hm.facts exactSolvers_fit
    obtain ⟨m', hm', hf⟩ := held_set exactSolvers_fit hm (louder_retuned f5.ready) (louder_sound f2) quiet_calm
    refine ⟨a, m, hm, hQ, fun Qs hq => ?_⟩
    obtain ⟨r, r', r1, r2, r3⟩ := C119_variances exactSolvers exactSolvers_fit _ _ 0 0 a a m m' hm hm' ⟨rfl, rfl, rfl, rfl, rfl, rfl, rfl⟩ (held_exact exactSolvers_fit hm ha)
      (C119_enlarged exactSolvers exactSolvers_fit _ 0 a m' hm' m.fk (hf ▸ louder_enlarged f2)) Qs hq quiet quiet quiet_calm.1 quiet_calm.1
    refine ⟨r, r', r1, r2, fun d hd j hj => ?_⟩
    obtain ⟨s1, -, s2⟩ := r3 d hd j hj
    rw [hf, louder_noise] at s2
    exact ⟨s1, by linarith⟩
  · obtain ⟨a, m, ha, hm, hQ, hn⟩ := base .onTheFly
    obtain ⟨k, f1, f2, f3, f4, f5, f6, f7⟩ := hm.facts exactSolvers_fit
    obtain ⟨m', hm', hf⟩ := held_set exactSolvers_fit hm (noisy_retuned f5.ready) ⟨f2.kernels, f2.plain, f2.kappa, (louder_sound f2).noise⟩ quiet_calm
    have hno : Noisier m.fk m'.fk := by
      rw [hf]
      exact ⟨rfl, (louder_enlarged f2).noise⟩
    refine ⟨a, m, hm, hQ, fun Qs hq r hr => ?_⟩
    obtain ⟨r', r1, r2⟩ := (C119_noise exactSolvers exactSolvers_fit (fun _ _ _ tol h _ => exactSolvers_exact h tol) _ _ 0 0 a a m m' hm hm' ⟨rfl, rfl, rfl, rfl, rfl, rfl, rfl⟩
      hno hn quiet quiet quiet_calm.1 quiet_calm.1).1 Qs hq r hr
    have hmode : m.prediction = .onTheFly := by
      have := held_mode exactSolvers_fit hm
      rw [ha] at this
      simpa [predMode, PredMode.name] using this.symm
    exact ⟨r', r1, fun d hd j hj => r2 d hd j hj fun hc => by rw [hmode] at hc; cases hc⟩

end Verif
