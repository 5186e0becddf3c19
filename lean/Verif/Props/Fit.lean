import Verif.Proofs.Fit
import Verif.Props.LLGP
import Verif.Proofs.LLGPTiny

/-! C95: how well a model fits its own observations. -/

namespace Verif

open Matrix

/-- the noise of the observations, one after the other -/
noncomputable def FK.noiseRows (fk : FK) (Xs : List (Arr2 ℝ)) : Fin (Xs.map Arr2.rows).sum → ℝ := fun r => fk.noise.getD (ownerOf (Xs.map Arr2.rows) r) 0

theorem skiMat_clean (fk : FK) (axes : List ℕ → List (List ℝ)) (extra : List ℕ × List ℕ → ℝ) (Xs : List (Arr2 ℝ)) :
    fk.skiMat axes extra Xs = fk.skiClean axes extra Xs + diagonal (fk.noiseRows Xs) := by
  ext r s
  rw [Matrix.add_apply, diagonal_apply]
  show fk.skiCov _ _ _ _ _ _ + (if (r : ℕ) = s then _ else 0) = fk.skiCov _ _ _ _ _ _ + _
  congr 1
  by_cases e : r = s
  · rw [if_pos e, if_pos (by rw [e])]
    rfl
  · rw [if_neg e, if_neg fun h => e (Fin.ext h)]

theorem LLGP.OK.clean_psd {m : LLGP} {P : ℕ} (h : m.OK P) (hs : m.fk.Sound) (hn : ∀ ad ∈ m.fk.activeDims.map Prod.fst, ad.Nodup) :
    (m.fk.skiClean m.axesOf m.fk.extraOf m.gp.Xs).PosSemidef := by
  obtain ⟨S, hS, e⟩ := skiMat_split h.ready h.groups hs h.data.inputs.len (axes := m.axesOf) (fun ad had => ⟨by
    obtain ⟨g, hg, rfl⟩ := List.mem_map.1 had
    obtain ⟨gg, d1, d2, d3, d4⟩ := h.mem_grids hg
    rw [d4]
    exact d3.axes, hn ad had⟩) (extra := m.fk.extraOf) (extraOf_nonneg m.fk)
  rw [skiMat_clean, add_comm] at e
  have := add_left_cancel e
  rwa [this]

theorem noiseRows_pos {m : LLGP} {P : ℕ} (h : m.OK P) (hs : m.fk.Sound) (r : Fin (m.gp.Xs.map Arr2.rows).sum) : 0 < m.fk.noiseRows m.gp.Xs r :=
  hs.noise _ (owner_lt h.data.inputs.len r)

/-- the errors of the predictions, one after the other -/
theorem fit_rows {sv : Solvers} {m m₀ : LLGP} {P : ℕ} {k : LLKernel} {a : LLGPArgs} (h : Asked sv m P k a.Xs) (ha : m₀.MadeFrom P a) (hgp : m₀.gp = m.gp) {e : Env} {r : Predicted}
    (hr : m.gp.predict (m.rawPredict sv e) a.Xs = .ok r) :
    a.errorOf m.fk.noise (fun d i => (r.1.getD d []).getD i 0) = ∑ s : Fin (m.gp.Xs.map Arr2.rows).sum,
      (toVec (m.gp.Xs.map Arr2.rows).sum m.gp.Ys.flatten s - (m.fk.skiClean m.axesOf m.fk.extraOf m.gp.Xs *ᵥ toVec (m.gp.Xs.map Arr2.rows).sum k.approx.alpha) s) ^ 2 /
        m.fk.noiseRows m.gp.Xs s ∧
    a.errorOf m.fk.noise (fun d _ => a.centreOf d) = ∑ s : Fin (m.gp.Xs.map Arr2.rows).sum, toVec (m.gp.Xs.map Arr2.rows).sum m.gp.Ys.flatten s ^ 2 / m.fk.noiseRows m.gp.Xs s ∧
    ∀ d < a.Xs.length, ∀ i < (queryLens a.Xs).getD d 0, ∃ s : Fin (m.gp.Xs.map Arr2.rows).sum, m.fk.noiseRows m.gp.Xs s = m.fk.noise.getD d 0 ∧
      ((a.Ys.getD d ⟨[], []⟩).data.getD i 0 - (r.1.getD d []).getD i 0) / a.scaleOf d = toVec (m.gp.Xs.map Arr2.rows).sum m.gp.Ys.flatten s -
        (m.fk.skiClean m.axesOf m.fk.extraOf m.gp.Xs *ᵥ toVec (m.gp.Xs.map Arr2.rows).sum k.approx.alpha) s := by
  obtain ⟨x1, s1, y1⟩ := MadeFrom.scale ha
  have y2 : ∀ d < a.Ys.length, m.gp.Ys.getD d [] = (a.Ys.getD d ⟨[], []⟩).data.map fun y => (y - a.centreOf d) / a.scaleOf d := fun d hd => by
    rw [← hgp]
    exact ys_getD ha hd
  rw [hgp] at x1 s1 y1
  have hl : m.gp.Xs.length = m.fk.D := h.ok.data.inputs.len
  have hXl : a.Xs.length = m.gp.Xs.length := by rw [x1]; unfold padded; rw [List.length_map]
  have hlens : m.gp.Xs.map Arr2.rows = queryLens a.Xs := by rw [x1, padded_lens]
  have hYl : a.Ys.length = a.Xs.length := by
    obtain ⟨_, _, h, -⟩ := ha
    exact h.data.len.symm
  have hDl : ∀ d < a.Xs.length, (a.Ys.getD d ⟨[], []⟩).data.length = (queryLens a.Xs).getD d 0 := fun d hd => by
    obtain ⟨_, _, h, -⟩ := ha
    exact documented_lens h hd
  have row : ∀ d < a.Xs.length, ∀ i < (queryLens a.Xs).getD d 0, ∃ hlt : offset (m.gp.Xs.map Arr2.rows) d + i < (m.gp.Xs.map Arr2.rows).sum,
      ownerOf (m.gp.Xs.map Arr2.rows) (offset (m.gp.Xs.map Arr2.rows) d + i) = d ∧
      toVec (m.gp.Xs.map Arr2.rows).sum m.gp.Ys.flatten ⟨_, hlt⟩ = ((a.Ys.getD d ⟨[], []⟩).data.getD i 0 - a.centreOf d) / a.scaleOf d ∧
      (m.fk.skiClean m.axesOf m.fk.extraOf m.gp.Xs *ᵥ toVec (m.gp.Xs.map Arr2.rows).sum k.approx.alpha) ⟨_, hlt⟩ = ((r.1.getD d []).getD i 0 - a.centreOf d) / a.scaleOf d := by
    intro d hd i hi
    have hdD : d < m.fk.D := by rw [← hl, ← hXl]; exact hd
    obtain ⟨ho, hlt, hp⟩ := rowPoint_offset m.gp.Xs (d := d) (i := i) (by rw [← hXl]; exact hd) (by rw [hlens]; exact hi)
    refine ⟨hlt, ho, ?_, ?_⟩
    · show m.gp.Ys.flatten.getD (offset (m.gp.Xs.map Arr2.rows) d + i) 0 = _
      have hdY : d < a.Ys.length := by rw [hYl]; exact hd
      have e2 : d < m.gp.Ys.length := by rw [y1, List.length_mapIdx]; exact hdY
      have hin : i < (a.Ys.getD d ⟨[], []⟩).data.length := by rw [hDl d hd]; exact hi
      unfold offset
      rw [← h.ok.data.lens, flatten_getD _ _ e2 (by rw [y2 d hdY, List.length_map]; exact hin), y2 d hdY, map_getD_lt hin _ _ 0]
    · rw [C44_mean sv m P k a.Xs h e r hr d hdD i hi, (s1 d hd).1, add_sub_cancel_right, mul_div_assoc, div_self (s1 d hd).2.ne', mul_one]
      show (fun s => m.fk.skiClean m.axesOf m.fk.extraOf m.gp.Xs ⟨_, hlt⟩ s) ⬝ᵥ _ = _
      congr 1
      funext s
      show m.fk.skiCov _ _ (ownerOf (m.gp.Xs.map Arr2.rows) (offset (m.gp.Xs.map Arr2.rows) d + i)) _ (rowPoint m.gp.Xs (offset (m.gp.Xs.map Arr2.rows) d + i)) _ = m.fk.skiCov _ _ _ _ _ _
      have hpt : pointOf m.gp.Xs d i = queryPoint P a.Xs d i := by rw [x1, pointOf_padded hd]
      rw [ho, hp, hpt]
  refine ⟨?_, ?_, fun d hd i hi => ?_⟩
  · set g : ℕ → ℝ := fun s => if hs : s < (m.gp.Xs.map Arr2.rows).sum then
      (toVec (m.gp.Xs.map Arr2.rows).sum m.gp.Ys.flatten ⟨s, hs⟩ - (m.fk.skiClean m.axesOf m.fk.extraOf m.gp.Xs *ᵥ toVec (m.gp.Xs.map Arr2.rows).sum k.approx.alpha) ⟨s, hs⟩) ^ 2 /
        m.fk.noiseRows m.gp.Xs ⟨s, hs⟩ else 0 with hg
    have e0 : ∀ s : Fin (m.gp.Xs.map Arr2.rows).sum, (toVec (m.gp.Xs.map Arr2.rows).sum m.gp.Ys.flatten s -
        (m.fk.skiClean m.axesOf m.fk.extraOf m.gp.Xs *ᵥ toVec (m.gp.Xs.map Arr2.rows).sum k.approx.alpha) s) ^ 2 / m.fk.noiseRows m.gp.Xs s = g s := fun s => by
      rw [hg]
      simp only [s.2, dif_pos]
    rw [Finset.sum_congr rfl fun s _ => e0 s, ← Finset.sum_range, sum_rows, List.length_map, ← hXl, hlens]
    unfold LLGPArgs.errorOf
    refine Finset.sum_congr rfl fun d hd => Finset.sum_congr rfl fun i hi => ?_
    obtain ⟨hlt, r1, r2, r3⟩ := row d (Finset.mem_range.1 hd) i (Finset.mem_range.1 hi)
    rw [← hlens]
    simp only [hg]
    rw [dif_pos hlt, r2, r3, ← sub_div, sub_sub_sub_cancel_right]
    unfold FK.noiseRows
    simp only
    rw [r1]
  · set g : ℕ → ℝ := fun s => if hs : s < (m.gp.Xs.map Arr2.rows).sum then
      toVec (m.gp.Xs.map Arr2.rows).sum m.gp.Ys.flatten ⟨s, hs⟩ ^ 2 / m.fk.noiseRows m.gp.Xs ⟨s, hs⟩ else 0 with hg
    have e0 : ∀ s : Fin (m.gp.Xs.map Arr2.rows).sum, toVec (m.gp.Xs.map Arr2.rows).sum m.gp.Ys.flatten s ^ 2 / m.fk.noiseRows m.gp.Xs s = g s := fun s => by
      rw [hg]
      simp only [s.2, dif_pos]
    rw [Finset.sum_congr rfl fun s _ => e0 s, ← Finset.sum_range, sum_rows, List.length_map, ← hXl, hlens]
    unfold LLGPArgs.errorOf
    refine Finset.sum_congr rfl fun d hd => Finset.sum_congr rfl fun i hi => ?_
    obtain ⟨hlt, r1, r2, -⟩ := row d (Finset.mem_range.1 hd) i (Finset.mem_range.1 hi)
    rw [← hlens]
    simp only [hg]
    rw [dif_pos hlt, r2]
    unfold FK.noiseRows
    simp only
    rw [r1]
  · obtain ⟨hlt, r1, r2, r3⟩ := row d hd i hi
    refine ⟨⟨_, hlt⟩, ?_, ?_⟩
    · unfold FK.noiseRows
      simp only
      rw [r1]
    · rw [r2, r3, ← sub_div, sub_sub_sub_cancel_right]

/-- C95: when the solve of the last update reported no failure, the predictions of the observations are hardly worse than predicting the average of each output (zero
when the outputs are not normalised): the root of the squared errors relative to the noise is larger by at most `2 tol / √ν`, for every `ν` no larger than the noise
of any output. -/
theorem C95_training_error (sv : Solvers) (m : LLGP) (P : ℕ) (k : LLKernel) (a : LLGPArgs) (h : Asked sv m P k a.Xs) (ha : m.MadeFrom P a) (hS : m.fk.Sound)
    (hd : ∀ ad ∈ m.fk.activeDims.map Prod.fst, ad.Nodup) (ν : ℝ) (hν : m.fk.NoiseAtLeast ν) (hc : Converged sv k.approx.K m.y m.tol) (e : Env) (r : Predicted)
    (hr : m.gp.predict (m.rawPredict sv e) a.Xs = .ok r) :
    Real.sqrt (a.errorOf m.fk.noise fun d i => (r.1.getD d []).getD i 0) ≤ Real.sqrt (a.errorOf m.fk.noise fun d _ => a.centreOf d) + 2 * (m.tol / Real.sqrt ν) := by
  obtain ⟨f1, f2, -⟩ := fit_rows h ha rfl hr
  rw [f1, f2]
  obtain ⟨lg, hl⟩ := h.current.solved
  have hres := residual_le h.fit (current_facts h.fit h.ok h.current).1 (y_length h.ok) hc hl
  exact fit_near (ν := m.fk.noiseRows m.gp.Xs) (h.ok.clean_psd hS hd) hν.1 (fun s => hν.2 _ (owner_lt h.ok.data.inputs.len s)) (by rw [← skiMat_clean]; exact hres)

/-- the solution of an exact solve -/
theorem exact_alpha {sv : Solvers} {m : LLGP} {P : ℕ} {k : LLKernel} {Qs : List (NDArr ℝ)} (h : Asked sv m P k Qs) (hx : sv.Exact) (hS : m.fk.Sound)
    (hd : ∀ ad ∈ m.fk.activeDims.map Prod.fst, ad.Nodup) :
    (m.fk.skiClean m.axesOf m.fk.extraOf m.gp.Xs + diagonal (m.fk.noiseRows m.gp.Xs)) *ᵥ toVec (m.gp.Xs.map Arr2.rows).sum k.approx.alpha =
      toVec (m.gp.Xs.map Arr2.rows).sum m.gp.Ys.flatten := by
  rw [← skiMat_clean]
  obtain ⟨x, lg, e1, -, e3⟩ := exact_of_current h.fit hx h.ok h.current hS hd m.tol m.y (y_length h.ok)
  obtain ⟨lg', e4⟩ := h.current.solved
  rw [e1] at e4
  cases e4
  rw [show toVec (m.gp.Xs.map Arr2.rows).sum k.approx.alpha = _ from e3]
  show m.fk.skiMat m.axesOf m.fk.extraOf m.gp.Xs *ᵥ ((m.fk.skiMat m.axesOf m.fk.extraOf m.gp.Xs)⁻¹ *ᵥ toVec _ m.y) = _
  rw [Matrix.mulVec_mulVec, Matrix.mul_nonsing_inv _ ((Matrix.isUnit_iff_isUnit_det _).1 (h.ok.ski_posDef hS hd).isUnit), Matrix.one_mulVec]
  rfl

theorem exact_fit {sv : Solvers} {m m₀ : LLGP} {P : ℕ} {k : LLKernel} {a : LLGPArgs} (h : Asked sv m P k a.Xs) (ha : m₀.MadeFrom P a) (hgp : m₀.gp = m.gp) (hx : sv.Exact)
    (hS : m.fk.Sound) (hd : ∀ ad ∈ m.fk.activeDims.map Prod.fst, ad.Nodup) {e : Env} {r : Predicted} (hr : m.gp.predict (m.rawPredict sv e) a.Xs = .ok r) :
    ∃ q, m.normalQuadratic = .ok q ∧ (a.errorOf m.fk.noise fun d i => (r.1.getD d []).getD i 0) ≤ q ∧ q ≤ a.errorOf m.fk.noise fun d _ => a.centreOf d := by
  obtain ⟨f1, f2, -⟩ := fit_rows h ha hgp hr
  have hpd := covMat_posDef h.ok.ready.wf h.ok.data.inputs.len hS.kernels hS.kappa hS.noise
  obtain ⟨l, hl, -⟩ := (exactLMC_contents h.ok.ready h.ok.data).1 hpd
  obtain ⟨g1, g2⟩ := fit_exact (h.ok.clean_psd hS hd) (noiseRows_pos h.ok hS) (exact_alpha h hx hS hd)
  rw [← f1] at g1
  rw [← f2] at g2
  exact ⟨_, (C40_log_likelihood sv h.fit m P h.ok k h.current l hl).1, g1, g2⟩

/-- C95: with exact linear solves the squared errors, relative to the noise, of the predictions of the observations are at most `normal_quadratic()`, and this is at most
the squared error of predicting the average of each output (zero when the outputs are not normalised): fitting a model never makes its training error worse than
that of the average, whatever the parameters. -/
theorem C95_exact (sv : Solvers) (hx : sv.Exact) (m : LLGP) (P : ℕ) (k : LLKernel) (a : LLGPArgs) (h : Asked sv m P k a.Xs) (ha : m.MadeFrom P a) (hS : m.fk.Sound)
    (hd : ∀ ad ∈ m.fk.activeDims.map Prod.fst, ad.Nodup) (e : Env) (r : Predicted) (hr : m.gp.predict (m.rawPredict sv e) a.Xs = .ok r) :
    ∃ q, m.normalQuadratic = .ok q ∧ (a.errorOf m.fk.noise fun d i => (r.1.getD d []).getD i 0) ≤ q ∧ q ≤ a.errorOf m.fk.noise fun d _ => a.centreOf d :=
  exact_fit h ha rfl hx hS hd hr

theorem documented_queries {a : LLGPArgs} {P : ℕ} {fk : FK} (h : a.Documented P fk) {D : ℕ} (hD : a.Xs.length = D) : QueriesOK D P a.Xs := by
  refine ⟨hD, fun X hX => ?_⟩
  obtain ⟨d, hd, rfl⟩ := mem_getD hX ⟨[], []⟩
  obtain ⟨n, -, hn⟩ := h.data.shape d hd
  exact ⟨n, hn⟩

/-- C95 for programs: after any program that uses its models as documented, the answers to `predict` at the observed points and `normal_quadratic`, asked one after the
other of a model made with the arguments `a`. -/
theorem C95_program (sv : Solvers) (hs : sv.Fit) (hx : sv.Exact) (ops : List Op) (hv : ValidFrom [] ops) (i P : ℕ) (a : LLGPArgs) (given : Option FK)
    (h : setUp i none (trace sv ops) = some (a, given)) (fk : FK) (hd : a.Documented P fk) (m : LLGP) (hm : modelsAfter sv ops i = some m)
    (hn : ∀ ad ∈ m.fk.activeDims.map Prod.fst, ad.Nodup) (e e' : Env) (he : e.Works) (he' : e'.Works) (r : Predicted)
    (hr : results sv (ops ++ [.ask i (.predict a.Xs) e]) = results sv ops ++ [.ok (.predicted r)]) :
    ∃ q, results sv (ops ++ [.ask i .normalQuadratic e']) = results sv ops ++ [.ok (.number q)] ∧
      (a.errorOf m.fk.noise fun d i => (r.1.getD d []).getD i 0) ≤ q ∧ q ≤ a.errorOf m.fk.noise fun d _ => a.centreOf d := by
  obtain ⟨hc, hall⟩ := C69_valid_program sv hs ops hv
  obtain ⟨P', k, hok, hcur, hso⟩ := hall i m hm
  obtain ⟨a₁, g₁, m₁, -, e1, e2, -, f1, -⟩ := C48_current sv ops (validFrom_works ops [] hv) hc i m hm
  rw [h] at e1
  cases e1
  obtain ⟨i1, i2, -⟩ := documented_fields hd e2
  have hP : P' = P := by rw [← hok.inputDim, f1, i1]
  subst hP
  have hp := program_predicts hs hv hm (asks := []) (by simp) he (by rw [List.append_nil]; exact hr)
  have hD : a.Xs.length = m.fk.D := by rw [← hok.outputDim, f1, i2]
  obtain ⟨q, q1, q2, q3⟩ := exact_fit (m₀ := m₁) (a := a) ⟨hs, hok, hcur, documented_queries hd hD, hd.arraysX⟩ ⟨fk, m₁, hd, e2, rfl, rfl, rfl⟩ f1.symm hx hso hn hp
  refine ⟨q, ?_, q2, q3⟩
  rw [(C48_answers sv ops (validFrom_works ops [] hv) i m hm (by rw [hcur.kernel]; simp) .normalQuadratic e' he').1]
  show _ ++ [m.normalQuadratic.map _] = _
  rw [q1]
  rfl

/-- C95: when the SKI covariance of the observations is positive definite even without the noise, the predictions of the observations approach the observed values as the
noise goes to zero, at least as fast as its square root. The constant is the same for all values of the noise. -/
theorem C95_interpolates (m : LLGP) (P : ℕ) (a : LLGPArgs) (ha : m.MadeFrom P a) (hd : ∀ ad ∈ m.fk.activeDims.map Prod.fst, ad.Nodup)
    (hp : (m.fk.skiClean m.axesOf m.fk.extraOf m.gp.Xs).PosDef) :
    ∃ C, 0 ≤ C ∧ ∀ (sv : Solvers) (m' : LLGP) (k : LLKernel) (noise : List ℝ) (e : Env) (r : Predicted), sv.Exact → Asked sv m' P k a.Xs → m'.gp = m.gp → m'.grids = m.grids →
      m'.fk = { m.fk with noise := noise } → m'.fk.Sound → m'.gp.predict (m'.rawPredict sv e) a.Xs = .ok r →
      ∀ d < a.Xs.length, ∀ i < (queryLens a.Xs).getD d 0,
        |(a.Ys.getD d ⟨[], []⟩).data.getD i 0 - (r.1.getD d []).getD i 0| ≤ a.scaleOf d * (C * Real.sqrt (noise.getD d 0)) := by
  set y := toVec (m.gp.Xs.map Arr2.rows).sum m.gp.Ys.flatten with hy
  refine ⟨Real.sqrt ((y ⬝ᵥ (m.fk.skiClean m.axesOf m.fk.extraOf m.gp.Xs)⁻¹ *ᵥ y) / 4), Real.sqrt_nonneg _, ?_⟩
  intro sv m' k noise e r hx h hgp hgr hfk hS hr d hdl i hi
  have hax : m'.axesOf = m.axesOf := by unfold LLGP.axesOf; rw [hgr]
  have hcl : m'.fk.skiClean m'.axesOf m'.fk.extraOf m.gp.Xs = m.fk.skiClean m.axesOf m.fk.extraOf m.gp.Xs := by
    rw [hax, hfk]
    rfl
  have hd' : ∀ ad ∈ m'.fk.activeDims.map Prod.fst, ad.Nodup := by rw [hfk]; exact hd
  have hα := exact_alpha h hx hS hd'
  have hpos := noiseRows_pos h.ok hS
  obtain ⟨-, -, hrow⟩ := fit_rows h ha hgp.symm hr
  obtain ⟨s, hs1, hs2⟩ := hrow d hdl i hi
  have hfit := fit_clean (S := m'.fk.skiClean m'.axesOf m'.fk.extraOf m'.gp.Xs) (by rw [hgp, hcl]; exact hp) hpos hα
  have hone := (Finset.single_le_sum (fun s _ => div_nonneg (sq_nonneg _) (hpos s).le) (Finset.mem_univ s)).trans hfit
  have hsc := ((MadeFrom.scale ha).2.1 d hdl).2
  have hν : 0 < noise.getD d 0 := by
    have := hpos s
    rw [hs1, hfk] at this
    exact this
  have hB : (toVec (m'.gp.Xs.map Arr2.rows).sum m'.gp.Ys.flatten ⬝ᵥ (m'.fk.skiClean m'.axesOf m'.fk.extraOf m'.gp.Xs)⁻¹ *ᵥ toVec (m'.gp.Xs.map Arr2.rows).sum m'.gp.Ys.flatten) =
      y ⬝ᵥ (m.fk.skiClean m.axesOf m.fk.extraOf m.gp.Xs)⁻¹ *ᵥ y := by
    rw [hy, ← hcl]
    clear_value y
    clear hs2 hone hfit hrow hpos hα hs1 hS hr hy
    rw [hgp]
  rw [hB] at hone
  rw [← hs2, hs1, hfk, div_le_iff₀ hν] at hone
  have := Real.abs_le_sqrt hone
  rw [Real.sqrt_mul (by
    have := hp.inv.posSemidef.dotProduct_mulVec_nonneg y
    have : 0 ≤ y ⬝ᵥ (m.fk.skiClean m.axesOf m.fk.extraOf m.gp.Xs)⁻¹ *ᵥ y := by simpa using this
    positivity), abs_div, abs_of_pos hsc, div_le_iff₀ hsc] at this
  rw [mul_comm (a.scaleOf d)]
  exact this

/-! ### examples -/

/-- a matrix with small entries off its diagonal -/
theorem dominant {F : ℕ → ℕ → ℝ} (h1 : ∀ p < 5, 1 ≤ F p p) (h2 : ∀ p < 5, ∀ q < 5, p ≠ q → |F p q| ≤ 1 / 8) (u : ℕ → ℝ) :
    1 / 2 * ∑ p ∈ Finset.range 5, u p ^ 2 ≤ ∑ p ∈ Finset.range 5, ∑ q ∈ Finset.range 5, u p * F p q * u q := by
  have hb : ∀ p ∈ Finset.range 5, ∀ q ∈ Finset.range 5, (if p = q then 9 / 8 * u p ^ 2 else 0) - (u p ^ 2 + u q ^ 2) / 16 ≤ u p * F p q * u q := fun p hp q hq => by
    by_cases e : p = q
    · subst e
      rw [if_pos rfl]
      nlinarith [mul_nonneg (sub_nonneg.2 (h1 p (Finset.mem_range.1 hp))) (sq_nonneg (u p))]
    · rw [if_neg e]
      have := abs_le.1 (h2 p (Finset.mem_range.1 hp) q (Finset.mem_range.1 hq) e)
      nlinarith [sq_nonneg (u p - u q), sq_nonneg (u p + u q)]
  refine le_trans ?_ (Finset.sum_le_sum fun p hp => Finset.sum_le_sum fun q hq => hb p hp q hq)
  simp only [Finset.sum_range_succ, Finset.sum_range_zero]
  norm_num
  linarith

theorem tiny_grid (p : ℕ) (hp : p < 5) : (linspace (-5) 5 5).getD p 0 = -5 + 5 / 2 * p := by
  interval_cases p <;> norm_num [linspace, vmk, List.range_succ]

theorem tiny_distance (p : ℕ) (hp : p < 5) (q : ℕ) (hq : q < 5) : gridDistance [linspace (-5) 5 5] p q ^ 2 = (5 / 2 * ((p : ℝ) - q)) ^ 2 := by
  unfold gridDistance euclid
  rw [Real.sq_sqrt (Finset.sum_nonneg fun _ _ => sq_nonneg _)]
  simp only [List.length_singleton, Finset.sum_range_one, gridPoint, gridSize, List.map_nil, List.prod_nil, Nat.div_one, List.getD_cons_zero]
  rw [tiny_grid p hp, tiny_grid q hq]
  ring

theorem tiny_rbf {p : ℕ} (hp : p < 5) {q : ℕ} (hq : q < 5) (hne : p ≠ q) : |(Kern.rbf 1 (some [0])).doc (gridDistance [linspace (-5) 5 5] p q)| ≤ 1 / 8 := by
  simp only [Kern.doc]
  rw [tiny_distance p hp q hq, abs_of_pos (Real.exp_pos _)]
  have h1 : (1 : ℝ) ≤ ((p : ℝ) - q) ^ 2 := by
    have : (1 : ℤ) ≤ ((p : ℤ) - q) ^ 2 := by
      have : (p : ℤ) - q ≠ 0 := by omega
      have := sq_nonneg ((p : ℤ) - q)
      have := pow_ne_zero 2 ‹(p : ℤ) - q ≠ 0›
      omega
    exact_mod_cast this
  have h2 : (8 : ℝ) ≤ Real.exp 3 := by
    have := Real.add_one_le_exp (1 : ℝ)
    calc (8 : ℝ) = (1 + 1) ^ 3 := by norm_num
      _ ≤ Real.exp 1 ^ 3 := pow_le_pow_left₀ (by norm_num) this 3
      _ = Real.exp 3 := by rw [← Real.exp_nat_mul]; norm_num
  calc Real.exp (-1 * (5 / 2 * ((p : ℝ) - q)) ^ 2 / 2) ≤ Real.exp (-3) := Real.exp_le_exp.2 (by nlinarith)
    _ = (Real.exp 3)⁻¹ := Real.exp_neg 3
    _ ≤ 1 / 8 := by rw [one_div]; exact inv_anti₀ (by norm_num) h2

/-- the small model meets the hypothesis of `C95_interpolates` -/
theorem tiny_clean {m : LLGP} {a : ℝ} (h : Tiny m 1 a) : (m.fk.skiClean m.axesOf m.fk.extraOf m.gp.Xs).PosDef := by
  have hsz : gridSize (m.axesOf [0]) = 5 := by rw [h.axes]; simp [gridSize, linspace, vmk_length]
  rw [h.xs]
  set X : List (Arr2 ℝ) := [⟨2, 1, [0, 1]⟩] with hX
  have hXs : (X.map Arr2.rows).sum = 2 := rfl
  set F : ℕ → ℕ → ℝ := fun p q => (Kern.rbf 1 (some [0])).doc (gridDistance [linspace (-5) 5 5] p q) + if p = q then m.fk.extraOf ([0], [0]) else 0 with hF
  have hF1 : ∀ p < 5, 1 ≤ F p p := fun p hp => by
    simp only [hF, if_true]
    have : (Kern.rbf 1 (some [0])).doc (gridDistance [linspace (-5) 5 5] p p) = 1 := by
      simp only [Kern.doc]
      rw [tiny_distance p hp p hp]
      simp
    rw [this]
    linarith [extraOf_nonneg m.fk ([0], [0])]
  have hF2 : ∀ p < 5, ∀ q < 5, p ≠ q → |F p q| ≤ 1 / 8 := fun p hp q hq hne => by
    simp only [hF, if_neg hne, add_zero]
    exact tiny_rbf hp hq hne
  set w : ℕ → ℕ → ℝ := fun r p => gridWeight (m.axesOf [0]) (coords [0] (rowPoint X r)) p with hw
  have hent : ∀ r < 2, ∀ s < 2, m.fk.skiCov m.axesOf m.fk.extraOf (ownerOf (X.map Arr2.rows) r) (ownerOf (X.map Arr2.rows) s) (rowPoint X r) (rowPoint X s) =
      ∑ p ∈ Finset.range 5, ∑ q ∈ Finset.range 5, w r p * F p q * w s q := fun r hr s hs => by
    have ho : ∀ r < 2, ownerOf (X.map Arr2.rows) r = 0 := fun i hi => by simp [hX, ownerOf, hi]
    rw [ho r hr, ho s hs]
    unfold FK.skiCov
    rw [h.group]
    simp only [List.map_cons, List.map_nil, List.sum_cons, List.sum_nil, add_zero]
    rw [hsz]
    refine Finset.sum_congr rfl fun p _ => Finset.sum_congr rfl fun q _ => ?_
    unfold FK.gridCov
    rw [h.kernels]
    simp only [List.map_cons, List.map_nil, List.sum_cons, List.sum_nil, add_zero, h.coreg, hF, hw, true_and]
    rw [h.axes]
    simp
  have hrow : ∀ r < 2, rowPoint X r 0 = r := fun r hr => by
    interval_cases r <;> simp [hX, rowPoint, ownerOf, innerIdx, offset, pointOf, Arr2.get]
  have hw0 : w 0 3 = 0 := by
    simp only [hw]
    obtain ⟨gg, d1, d2, d3, d4⟩ := h.ok.mem_grids (g := ([0], [0])) (by rw [h.group]; simp)
    rw [gridWeight_gridpoint _ (by rw [d4]; exact fun a ha => ⟨d3.size a ha, d3.spacing a ha⟩) (p := 2) (by rw [hsz]; norm_num) (fun c hc => by
      rw [h.axes] at hc ⊢
      have : c = 0 := by simpa using hc
      subst this
      show rowPoint X 0 0 = _
      rw [hrow 0 (by norm_num)]
      simp [gridPoint, gridSize, linspace, vmk, List.range_succ]
      norm_num) (by rw [hsz]; norm_num)]
    simp
  have hw02 : w 0 2 = 1 := by
    simp only [hw]
    obtain ⟨gg, d1, d2, d3, d4⟩ := h.ok.mem_grids (g := ([0], [0])) (by rw [h.group]; simp)
    rw [gridWeight_gridpoint _ (by rw [d4]; exact fun a ha => ⟨d3.size a ha, d3.spacing a ha⟩) (p := 2) (by rw [hsz]; norm_num) (fun c hc => by
      rw [h.axes] at hc ⊢
      have : c = 0 := by simpa using hc
      subst this
      show rowPoint X 0 0 = _
      rw [hrow 0 (by norm_num)]
      simp [gridPoint, gridSize, linspace, vmk, List.range_succ]
      norm_num) (by rw [hsz]; norm_num)]
    simp
  have hw1 : w 1 3 ≠ 0 := by
    simp only [hw]
    rw [h.axes]
    simp only [gridWeight, List.map_nil, List.prod_nil, Nat.div_one, mul_one]
    have hc : coords [0] (rowPoint X 1) 0 = 1 := by
      show rowPoint X 1 0 = 1
      rw [hrow 1 (by norm_num)]
      norm_num
    rw [hc]
    have hl : (linspace (-5) 5 5 : List ℝ).length = 5 := by simp [linspace, vmk_length]
    have ht : ((1 : ℝ) - (linspace (-5) 5 5).getD 0 0) / ((linspace (-5) 5 5).getD 1 0 - (linspace (-5) 5 5).getD 0 0) = 12 / 5 := by
      rw [tiny_grid 0 (by norm_num), tiny_grid 1 (by norm_num)]
      norm_num
    have hfl : ⌊(12 / 5 : ℝ)⌋ = 2 := by
      rw [Int.floor_eq_iff]
      norm_num
    unfold keysWeight
    simp only [ht, hfl, hl]
    norm_num [clampTo, keys]
    rw [if_neg (by decide), if_pos (by decide), if_neg (by decide)]
    norm_num
  refine Matrix.PosDef.of_dotProduct_mulVec_pos ?_ fun v hv => ?_
  · ext r s
    show m.fk.skiCov _ _ _ _ _ _ = m.fk.skiCov _ _ _ _ _ _
    rw [hent s s.2 r r.2, hent r r.2 s s.2, Finset.sum_comm]
    refine Finset.sum_congr rfl fun p _ => Finset.sum_congr rfl fun q _ => ?_
    have : F q p = F p q := by
      simp only [hF]
      rw [gridDistance_symm]
      by_cases e : p = q
      · rw [if_pos e, if_pos e.symm]
      · rw [if_neg e, if_neg (Ne.symm e)]
    rw [this]
    ring
  set x : ℝ := v ⟨0, by rw [hXs]; norm_num⟩ with hx0
  set z : ℝ := v ⟨1, by rw [hXs]; norm_num⟩ with hz0
  have hq : star v ⬝ᵥ m.fk.skiClean m.axesOf m.fk.extraOf X *ᵥ v = ∑ p ∈ Finset.range 5, ∑ q ∈ Finset.range 5, (x * w 0 p + z * w 1 p) * F p q * (x * w 0 q + z * w 1 q) := by
    have e : star v ⬝ᵥ m.fk.skiClean m.axesOf m.fk.extraOf X *ᵥ v = x * (m.fk.skiCov m.axesOf m.fk.extraOf (ownerOf (X.map Arr2.rows) 0) (ownerOf (X.map Arr2.rows) 0) (rowPoint X 0) (rowPoint X 0) * x +
        m.fk.skiCov m.axesOf m.fk.extraOf (ownerOf (X.map Arr2.rows) 0) (ownerOf (X.map Arr2.rows) 1) (rowPoint X 0) (rowPoint X 1) * z) +
        z * (m.fk.skiCov m.axesOf m.fk.extraOf (ownerOf (X.map Arr2.rows) 1) (ownerOf (X.map Arr2.rows) 0) (rowPoint X 1) (rowPoint X 0) * x +
        m.fk.skiCov m.axesOf m.fk.extraOf (ownerOf (X.map Arr2.rows) 1) (ownerOf (X.map Arr2.rows) 1) (rowPoint X 1) (rowPoint X 1) * z) := by
      have : ∀ g : Fin (X.map Arr2.rows).sum → ℝ, ∑ i, g i = g ⟨0, by rw [hXs]; norm_num⟩ + g ⟨1, by rw [hXs]; norm_num⟩ := fun g => Fin.sum_univ_two g
      unfold dotProduct mulVec dotProduct
      rw [this, this, this]
      rfl
    rw [e, hent 0 (by norm_num) 0 (by norm_num), hent 0 (by norm_num) 1 (by norm_num), hent 1 (by norm_num) 0 (by norm_num), hent 1 (by norm_num) 1 (by norm_num)]
    simp only [Finset.sum_mul, Finset.mul_sum, ← Finset.sum_add_distrib]
    refine Finset.sum_congr rfl fun p _ => Finset.sum_congr rfl fun q _ => ?_
    ring
  rw [hq]
  refine lt_of_lt_of_le ?_ (dominant hF1 hF2 fun p => x * w 0 p + z * w 1 p)
  have hne : x ≠ 0 ∨ z ≠ 0 := by
    by_contra hc
    push Not at hc
    refine hv (funext fun i => ?_)
    have hi : (i : ℕ) < 2 := i.2
    rcases (by omega : (i : ℕ) = 0 ∨ (i : ℕ) = 1) with e | e
    · rw [show i = ⟨0, by rw [hXs]; norm_num⟩ from Fin.ext e]; exact hc.1
    · rw [show i = ⟨1, by rw [hXs]; norm_num⟩ from Fin.ext e]; exact hc.2
  have hpos : ∃ p ∈ Finset.range 5, 0 < (x * w 0 p + z * w 1 p) ^ 2 := by
    by_cases hz : z = 0
    · refine ⟨2, by simp, ?_⟩
      rw [hz, hw02]
      have := hne.resolve_right (not_not.2 hz)
      rw [mul_one, zero_mul, add_zero]
      exact (sq_nonneg _).lt_of_ne' (pow_ne_zero 2 this)
    · refine ⟨3, by simp, ?_⟩
      rw [hw0, mul_zero, zero_add]
      exact (sq_nonneg _).lt_of_ne' (pow_ne_zero 2 (mul_ne_zero hz hw1))
  have := Finset.sum_pos' (fun p _ => sq_nonneg (x * w 0 p + z * w 1 p)) hpos
  linarith

/-- an inexact solver that reports no failure, and a model of two outputs -/
example (mode : PredMode) (e : Env) (he : e.Works) : ∃ (a : LLGPArgs) (m : LLGP) (k : LLKernel) (ν : ℝ) (r : Predicted),
    Asked shortSolvers m 2 k a.Xs ∧ m.MadeFrom 2 a ∧ m.prediction = mode ∧ m.fk.Sound ∧ (∀ ad ∈ m.fk.activeDims.map Prod.fst, ad.Nodup) ∧ m.fk.NoiseAtLeast ν ∧
    Converged shortSolvers k.approx.K m.y m.tol ∧ m.gp.predict (m.rawPredict shortSolvers e) a.Xs = .ok r := by
  obtain ⟨fk, ⟨h1, h2, h3, h4, -⟩, h⟩ := exists_documented_grid
  have hdoc := h mode false none (by simp)
  obtain ⟨m, i1, i2, i3, i4, i5, -, i7, -⟩ := model_of_documented hdoc (mode := mode) (metrics := false) rfl rfl h1 h2 h3 h4 rfl
  obtain ⟨k, hc, hok⟩ := exists_current shortSolvers_fit i2
  obtain ⟨-, -, -, f4, f5, -⟩ := init_fields i1
  obtain ⟨ν, ν0, hν⟩ := i4.least
  have hnd : ∀ ad ∈ m.fk.activeDims.map Prod.fst, ad.Nodup := by
    rw [i7]
    intro ad had
    simp only [List.map_cons, List.map_nil, List.mem_singleton] at had
    rw [had]
    decide
  have hpd : (fnMatrix m.n m.n (m.fk.skiFull m.axesOf m.fk.extraOf m.gp.Xs)).PosDef := i2.ski_posDef i4 hnd
  have ask : Asked shortSolvers { m with kernel := some k } 2 k _ :=
    ⟨shortSolvers_fit, hok, hc, documented_queries hdoc (by rw [show LLGP.fk { m with kernel := some k } = m.fk from rfl, i5]; rfl), hdoc.arraysX⟩
  obtain ⟨r, hr⟩ := (C43_returns shortSolvers { m with kernel := some k } 2 k _ ask e he).2.2 ⟨i4.plain, by
    unfold LLGP.CanPredict
    cases mode with
    | onTheFly => rw [show LLGP.prediction { m with kernel := some k } = .onTheFly from i3]; simp [queryLens]
    | precompute =>
      rw [show LLGP.prediction { m with kernel := some k } = .precompute from i3]
      exact ⟨_, i7, rfl⟩
    | exact =>
      rw [show LLGP.prediction { m with kernel := some k } = .exact from i3]
      exact covMat_posDef hok.ready.wf hok.data.inputs.len i4.kernels i4.kappa i4.noise⟩
  exact ⟨_, { m with kernel := some k }, k, ν, r, ask, ⟨fk, m, hdoc, i1, rfl, rfl, rfl⟩, i3, i4, hnd, ⟨ν0, hν⟩,
    shortSolvers_converged (current_facts shortSolvers_fit hok hc).1 hpd (by rw [show LLGP.tol { m with kernel := some k } = m.tol from rfl, f5]; norm_num) (y_length hok), hr⟩

/-- a program that makes a model of two outputs and asks it for predictions at the observed points -/
example : ∃ (a : LLGPArgs) (fk : FK) (m : LLGP) (r : Predicted), ValidFrom [] [.new a quiet] ∧ setUp 0 none (trace exactSolvers [.new a quiet]) = some (a, none) ∧
    a.Documented 2 fk ∧ modelsAfter exactSolvers [.new a quiet] 0 = some m ∧ (∀ ad ∈ m.fk.activeDims.map Prod.fst, ad.Nodup) ∧
    results exactSolvers ([.new a quiet] ++ [.ask 0 (.predict a.Xs) quiet]) = results exactSolvers [.new a quiet] ++ [.ok (.predicted r)] := by
  obtain ⟨fk, ⟨h1, h2, h3, h4, -⟩, h⟩ := exists_documented_grid
  have hdoc := h .exact false none (by simp)
  obtain ⟨m0, i1, -, i3, i4, i5, -, i7, -, i6⟩ := model_of_documented hdoc (mode := .exact) (metrics := false) rfl rfl h1 h2 h3 h4 rfl
  obtain ⟨v1, s1, m, hm, f1⟩ := new_program exactSolvers_fit (by norm_num) hdoc (by norm_num) rfl i6 i4
  obtain ⟨hc, hall⟩ := C69_valid_program exactSolvers exactSolvers_fit _ v1
  obtain ⟨P, k, hok, hcur, hso⟩ := hall 0 m hm
  obtain ⟨a₁, g₁, m₁, -, e1, e2, -, p1, -, p3, -⟩ := C48_current exactSolvers _ (validFrom_works _ [] v1) hc 0 m hm
  rw [s1] at e1
  cases e1
  rw [i1] at e2
  cases e2
  obtain ⟨d1, d2, -⟩ := documented_fields hdoc i1
  have hP : P = 2 := by rw [← hok.inputDim, p1, d1]
  subst hP
  have hq := documented_queries hdoc (D := m.fk.D) (by rw [← hok.outputDim, p1, d2])
  obtain ⟨r, hr⟩ := (C43_returns exactSolvers m 2 k _ ⟨exactSolvers_fit, hok, hcur, hq, hdoc.arraysX⟩ quiet quiet_calm.1).2.2 ⟨hso.plain, by
    unfold LLGP.CanPredict
    rw [p3, i3]
    exact covMat_posDef hok.ready.wf hok.data.inputs.len hso.kernels hso.kappa hso.noise⟩
  refine ⟨_, fk, m, r, v1, s1, hdoc, hm, ?_, ?_⟩
  · rw [f1, i7]
    intro ad had
    simp only [List.map_cons, List.map_nil, List.mem_singleton] at had
    rw [had]
    decide
  · rw [(C48_answers exactSolvers _ (validFrom_works _ [] v1) 0 m hm (by rw [hcur.kernel]; simp) (.predict _) quiet quiet_calm.1).1]
    show _ ++ [(m.gp.predict (m.rawPredict exactSolvers quiet) _).map _] = _
    rw [hr]
    rfl

/-- a model whose covariance is positive definite without the noise -/
example : ∃ (a : LLGPArgs) (m : LLGP) (k : LLKernel), m.MadeFrom 1 a ∧ (∀ ad ∈ m.fk.activeDims.map Prod.fst, ad.Nodup) ∧
    (m.fk.skiClean m.axesOf m.fk.extraOf m.gp.Xs).PosDef ∧ Asked exactSolvers m 1 k a.Xs ∧ m.fk.Sound := by
  obtain ⟨fk, m, hd, -, hm, ht⟩ := exists_tiny
  obtain ⟨k, hc, hok⟩ := exists_current exactSolvers_fit ht.ok
  exact ⟨_, { m with kernel := some k }, k, ⟨fk, m, hd, hm, rfl, rfl, rfl⟩, by rw [show LLGP.fk { m with kernel := some k } = m.fk from rfl, ht.group]; simp, by
      have := tiny_clean ht
      exact this,
    ⟨exactSolvers_fit, hok, hc, documented_queries hd (by rw [show LLGP.fk { m with kernel := some k } = m.fk from rfl, ht.D]; rfl), hd.arraysX⟩, ht.sound⟩

end Verif
