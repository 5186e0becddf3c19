import Verif.Proofs.Tolerance
import Verif.Props.Spread

/-! C89: the solver tolerance bounds the error of everything that is computed with linear solves. -/

namespace Verif

open Matrix

/-! ### predictions -/

theorem clamp_lipschitz (a b : ℝ) : |max 0 a - max 0 b| ≤ |a - b| := by
  rw [max_comm 0, max_comm 0]
  exact abs_max_sub_max_le_abs a b 0

/-- an entry of the table of `'precompute'` -/
theorem nu_dot {m : LLGP} {P : ℕ} (h : m.OK P) {g : List ℕ × List ℕ} (hg : g ∈ m.fk.activeDims) (j : ℕ) (x : List ℝ) :
    ∑ l ∈ Finset.range (m.gridCols g), m.gridEntry g j l * ∑ s ∈ Finset.range m.n, interpOf g.1 (m.axesOf g.1) m.gp.Xs s l * x.getD s 0 =
      m.fk.gridToData (m.axesOf g.1) m.fk.extraOf g m.gp.Xs (j / gridSize (m.axesOf g.1)) (j % gridSize (m.axesOf g.1)) ⬝ᵥ toVec m.n x := by
  have : ∑ l ∈ Finset.range (m.gridCols g), m.gridEntry g j l * ∑ s ∈ Finset.range m.n, interpOf g.1 (m.axesOf g.1) m.gp.Xs s l * x.getD s 0 =
      ∑ s ∈ Finset.range m.n, m.gridCross g j s * x.getD s 0 := by
    simp only [Finset.mul_sum, LLGP.gridCross, Finset.sum_mul]
    rw [Finset.sum_comm]
    refine Finset.sum_congr rfl fun s _ => Finset.sum_congr rfl fun l _ => ?_
    rw [gridEntry_symm]
    ring
  rw [this, Finset.sum_range]
  unfold dotProduct
  refine Finset.sum_congr rfl fun s _ => ?_
  rw [gridCross_eq h hg s]
  rfl

/-- C89, means: when the solve of the last update reported no failure, the predicted mean is within `√(k_*ᵀ K⁻¹ k_*) tol / √ν` (times the scale of the output) of
the conditional mean under the SKI covariance `K`, for every `ν` no larger than the noise of any output. -/
theorem C89_mean (sv : Solvers) (m : LLGP) (P : ℕ) (k : LLKernel) (Qs : List (NDArr ℝ)) (h : Asked sv m P k Qs) (hS : m.fk.Sound)
    (hd : ∀ ad ∈ m.fk.activeDims.map Prod.fst, ad.Nodup) (ν : ℝ) (hν : m.fk.NoiseAtLeast ν) (hc : Converged sv k.approx.K m.y m.tol) (e : Env) (r : Predicted)
    (hr : m.gp.predict (m.rawPredict sv e) Qs = .ok r) (d : ℕ) (hdD : d < m.fk.D) (i : ℕ) (hi : i < (queryLens Qs).getD d 0) :
    |(r.1.getD d []).getD i 0 - (m.fk.skiMean m.axesOf m.fk.extraOf m.gp.Xs m.gp.Ys d (queryPoint P Qs d i) * (normOf m.gp d).1 + (normOf m.gp d).2)| ≤
      Real.sqrt (m.fk.skiExplained m.axesOf m.fk.extraOf m.gp.Xs d (queryPoint P Qs d i)) * (m.tol / Real.sqrt ν) * |(normOf m.gp d).1| := by
  rw [C44_mean sv m P k Qs h e r hr d hdD i hi, add_sub_add_right_eq_sub, ← sub_mul, abs_mul]
  refine mul_le_mul_of_nonneg_right ?_ (abs_nonneg _)
  obtain ⟨lg, hl⟩ := h.current.solved
  have := residual_le h.fit (current_facts h.fit h.ok h.current).1 (y_length h.ok) hc hl
  exact (h.ok.atLeast hS hd hν).near (A := m.fk.skiMat m.axesOf m.fk.extraOf m.gp.Xs) this _

/-- C89, variances of mode `'on-the-fly'`: when the solve for the query point, to the fixed tolerance `1e-4`, reported no failure. -/
theorem C89_on_the_fly (sv : Solvers) (m : LLGP) (P : ℕ) (k : LLKernel) (Qs : List (NDArr ℝ)) (h : Asked sv m P k Qs) (hS : m.fk.Sound)
    (hd : ∀ ad ∈ m.fk.activeDims.map Prod.fst, ad.Nodup) (ν : ℝ) (hν : m.fk.NoiseAtLeast ν) (e : Env) (he : e.Works) (hm : m.prediction = .onTheFly)
    (r : Predicted) (hr : m.gp.predict (m.rawPredict sv e) Qs = .ok r) (d : ℕ) (hdD : d < m.fk.D) (i : ℕ) (hi : i < (queryLens Qs).getD d 0)
    (hc : ∀ b : List ℝ, b.length = m.n → toVec m.n b = m.fk.crossCov m.gp.Xs d (queryPoint P Qs d i) → Converged sv k.approx.K b 1e-4) :
    |(r.2.getD d []).getD i 0 - max 0 (m.fk.priorVar d (queryPoint P Qs d i) - m.fk.crossCov m.gp.Xs d (queryPoint P Qs d i) ⬝ᵥ
        (m.fk.skiMat m.axesOf m.fk.extraOf m.gp.Xs)⁻¹ *ᵥ m.fk.crossCov m.gp.Xs d (queryPoint P Qs d i)) * (normOf m.gp d).1 ^ 2| ≤
      Real.sqrt (m.fk.crossCov m.gp.Xs d (queryPoint P Qs d i) ⬝ᵥ (m.fk.skiMat m.axesOf m.fk.extraOf m.gp.Xs)⁻¹ *ᵥ m.fk.crossCov m.gp.Xs d (queryPoint P Qs d i)) *
        (1e-4 / Real.sqrt ν) * (normOf m.gp d).1 ^ 2 := by
  have hpos : 0 < (queryLens Qs).sum := by
    have hlt : d < (queryLens Qs).length := by
      by_contra hn
      rw [List.getD_eq_default _ _ (by omega)] at hi
      omega
    have := List.single_le_sum (l := queryLens Qs) (by simp) _ (getD_mem_of_lt hlt 0)
    omega
  have hK := (current_facts h.fit h.ok h.current).1
  obtain ⟨sol, hsol⟩ := exists_solvesTo h.fit hK 1e-4
  have hex := explained_fly h.fit h.ok hm h.current hsol h.inputs (he _) (by rw [padded_lens]; exact hpos) (m.queryWs (padded P Qs))
  rw [padded_lens] at hex
  obtain ⟨r', r1, -, r3⟩ := predict_from h hS.plain e hex
  rw [hr] at r1
  cases r1
  obtain ⟨q1, -, q3⟩ := query_row h.queries hdD hi
  rw [(r3.entry d hdD i hi).2]
  rw [padded_lens] at q1
  rw [q1, q3, ← sub_mul, abs_mul, abs_of_nonneg (sq_nonneg (normOf m.gp d).1)]
  refine mul_le_mul_of_nonneg_right ((clamp_lipschitz _ _).trans ?_) (sq_nonneg _)
  rw [sub_sub_sub_cancel_left, abs_sub_comm]
  set b := vmk m.n fun s => m.fk.cov d (ownerOf (m.gp.Xs.map Arr2.rows) s) (queryPoint P Qs d i) (rowPoint m.gp.Xs s) with hb
  have hbl : b.length = m.n := vmk_length _ _
  obtain ⟨-, lg, hl⟩ := hsol b hbl
  have hbv : toVec m.n b = m.fk.crossCov m.gp.Xs d (queryPoint P Qs d i) := by
    rw [hb, toVec_vmk]
    rfl
  have hres := residual_le h.fit hK hbl (hc b hbl hbv) hl
  rw [hbv] at hres
  exact (h.ok.atLeast hS hd hν).near (A := m.fk.skiMat m.axesOf m.fk.extraOf m.gp.Xs) hres _

/-- C89, variances of mode `'precompute'`: when the solves for the points of the grid, to the fixed tolerance `1e-4`, reported no failure. -/
theorem C89_precompute (sv : Solvers) (m : LLGP) (P : ℕ) (k : LLKernel) (Qs : List (NDArr ℝ)) (h : Asked sv m P k Qs) (hS : m.fk.Sound) (ν : ℝ) (hν : m.fk.NoiseAtLeast ν)
    (e : Env) (he : e.Works) (hm : m.prediction = .precompute) (g : List ℕ × List ℕ) (hg : m.fk.activeDims = [g]) (hg1 : g.1 = List.range P)
    (r : Predicted) (hr : m.gp.predict (m.rawPredict sv e) Qs = .ok r) (d : ℕ) (hdD : d < m.fk.D) (i : ℕ) (hi : i < (queryLens Qs).getD d 0)
    (hc : ∀ p < gridSize (m.axesOf g.1), ∀ b : List ℝ, b.length = m.n → toVec m.n b = m.fk.gridToData (m.axesOf g.1) m.fk.extraOf g m.gp.Xs d p → Converged sv k.approx.K b 1e-4) :
    |(r.2.getD d []).getD i 0 - max 0 (m.fk.priorVar d (queryPoint P Qs d i) - ∑ p ∈ Finset.range (gridSize (m.axesOf g.1)),
        gridWeight (m.axesOf g.1) (coords g.1 (queryPoint P Qs d i)) p * m.fk.gridExplained m.axesOf m.fk.extraOf g m.gp.Xs d p) * (normOf m.gp d).1 ^ 2| ≤
      (∑ p ∈ Finset.range (gridSize (m.axesOf g.1)), |gridWeight (m.axesOf g.1) (coords g.1 (queryPoint P Qs d i)) p| *
        Real.sqrt (m.fk.gridExplained m.axesOf m.fk.extraOf g m.gp.Xs d p)) * (1e-4 / Real.sqrt ν) * (normOf m.gp d).1 ^ 2 := by
  have hgm : g ∈ m.fk.activeDims := by rw [hg]; simp
  have hd : ∀ ad ∈ m.fk.activeDims.map Prod.fst, ad.Nodup := by
    intro ad had
    rw [hg] at had
    simp only [List.map_cons, List.map_nil, List.mem_singleton] at had
    rw [had, hg1]
    exact List.nodup_range
  have hK := (current_facts h.fit h.ok h.current).1
  obtain ⟨sol, hsol⟩ := exists_solvesTo h.fit hK 1e-4
  have hex := explained_pre h.fit h.ok hm h.current hsol (Xs := padded P Qs) hg hg1 (he _)
  rw [padded_lens] at hex
  obtain ⟨r', r1, -, r3⟩ := predict_from h hS.plain e hex
  rw [hr] at r1
  cases r1
  obtain ⟨q1, q2, q3⟩ := query_row h.queries hdD hi
  rw [(r3.entry d hdD i hi).2, ← sub_mul, abs_mul, abs_of_nonneg (sq_nonneg (normOf m.gp d).1)]
  refine mul_le_mul_of_nonneg_right ((clamp_lipschitz _ _).trans ?_) (sq_nonneg _)
  rw [sub_sub_sub_cancel_left, abs_sub_comm]
  set G := gridSize (m.axesOf g.1) with hG
  have e1 : ∀ j, ∑ l ∈ Finset.range (m.gridCols g), m.gridEntry g j l *
        ∑ s ∈ Finset.range m.n, interpOf g.1 (m.axesOf g.1) m.gp.Xs s l * (sol (vmk m.n fun s => m.gridCross g j s)).getD s 0 =
      (fun a p => m.fk.gridToData (m.axesOf g.1) m.fk.extraOf g m.gp.Xs a p ⬝ᵥ toVec m.n (sol (vmk m.n fun s => m.gridCross g (a * G + p) s))) (j / G) (j % G) := by
    intro j
    rw [nu_dot h.ok hgm]
    show _ = m.fk.gridToData _ _ _ _ _ _ ⬝ᵥ toVec m.n (sol (vmk m.n fun s => m.gridCross g (j / G * G + j % G) s))
    rw [Nat.div_add_mod']
  simp only [e1]
  unfold LLGP.gridCols
  rw [interp_grid h.inputs.len (by rw [padded_lens]; exact q2) fun a p => m.fk.gridToData (m.axesOf g.1) m.fk.extraOf g m.gp.Xs a p ⬝ᵥ
    toVec m.n (sol (vmk m.n fun s => m.gridCross g (a * G + p) s)), q1, q3, ← Finset.sum_sub_distrib, Finset.sum_mul]
  refine (Finset.abs_sum_le_sum_abs _ _).trans (Finset.sum_le_sum fun p hp => ?_)
  have hp := Finset.mem_range.1 hp
  rw [← mul_sub, abs_mul, mul_assoc]
  refine mul_le_mul_of_nonneg_left ?_ (abs_nonneg _)
  set b := vmk m.n fun s => m.gridCross g (d * G + p) s with hb
  have hbl : b.length = m.n := vmk_length _ _
  have hbv : toVec m.n b = m.fk.gridToData (m.axesOf g.1) m.fk.extraOf g m.gp.Xs d p := by
    rw [hb, toVec_vmk]
    funext s
    rw [gridCross_eq h.ok hgm s, ← hG, idx_div hp, idx_mod hp]
  obtain ⟨-, lg, hl⟩ := hsol b hbl
  have hres := residual_le h.fit hK hbl (hc p hp b hbl hbv) hl
  rw [hbv] at hres
  exact (h.ok.atLeast hS hd hν).near (A := m.fk.skiMat m.axesOf m.fk.extraOf m.gp.Xs) hres _

/-- C89 and C72 together: with fine grids and converged solves the predicted means are close to those of the exact Gaussian process; the constant does not depend on
the grids, the solver or the tolerance. -/
theorem C89_total (fk : FK) (P : ℕ) (hr : fk.Regular P) (Xs : List (Arr2 ℝ)) (Ys : List (List ℝ)) (hX : Xs.length = fk.D) :
    ∃ C, 0 ≤ C ∧ ∀ s, 0 ≤ s → ∀ sv m k, Refined sv fk P Xs Ys s m k → ∀ Qs, Asked sv m P k Qs →
      Converged sv k.approx.K m.y m.tol → ∀ e r, m.gp.predict (m.rawPredict sv e) Qs = .ok r →
      ∀ d < fk.D, ∀ i < (queryLens Qs).getD d 0, fk.Inside m.axesOf (queryPoint P Qs d i) →
        |(r.1.getD d []).getD i 0 - (fk.condMean Xs Ys d (queryPoint P Qs d i) * (normOf m.gp d).1 + (normOf m.gp d).2)| ≤
          C * |(normOf m.gp d).1| * (s ^ 3 + m.tol * (1 + s ^ 3)) := by
  set y := toVec (Xs.map Arr2.rows).sum Ys.flatten with hy
  have hy0 : 0 ≤ ∑ j, |y j| := Finset.sum_nonneg fun j _ => abs_nonneg _
  obtain ⟨A, hA, HA⟩ := FK.cov_bounded hr.ready hr.sound.plain
  obtain ⟨E, hE, HE⟩ := FK.skiCov_error hr.ready hr.groups hr.sound.plain
  obtain ⟨K, hK, HK⟩ := FK.solve_error hr.ready hr.groups hr.sound hr.nodup hX (add_nonneg hA hy0)
  obtain ⟨ν, ν0, hν⟩ := hr.sound.least
  set N : ℝ := Real.sqrt (Xs.map Arr2.rows).sum with hN
  have hN0 : 0 ≤ N := Real.sqrt_nonneg _
  refine ⟨K * (1 + E) + N * (A + E) / ν, by positivity, fun s hs sv m k hm Qs hq hc e r hpr d hd i hi hin => ?_⟩
  obtain ⟨ok, cur, rfl, rfl, rfl, fine, inside⟩ := hm
  have hnd : ∀ ad ∈ m.fk.activeDims.map Prod.fst, ad.Nodup := fun ad had => by
    obtain ⟨g, hg, rfl⟩ := List.mem_map.1 had
    exact hr.nodup g hg
  have hmean := C89_mean sv m P k Qs hq hr.sound hnd ν ⟨ν0, hν⟩ hc e r hpr d hd i hi
  obtain ⟨lg, hlg⟩ := cur.solved
  have htol : 0 ≤ m.tol := (vecNorm_nonneg _).trans (residual_le hq.fit (current_facts hq.fit ok cur).1 (y_length ok) hc hlg)
  have hAt := ok.atLeast hr.sound hnd ⟨ν0, hν⟩
  unfold FK.skiExplained FK.skiMean at hmean
  obtain ⟨c1, c2⟩ := C44_documented m.fk hr.clean m.axesOf m.gp.Xs d (queryPoint P Qs d i)
  rw [c1, c2] at hmean
  rw [c2] at hAt
  have herr : ∀ t : Fin (m.gp.Xs.map Arr2.rows).sum, |m.fk.skiCross m.axesOf noExtra m.gp.Xs d (queryPoint P Qs d i) t - m.fk.crossCov m.gp.Xs d (queryPoint P Qs d i) t| ≤ E * s ^ 3 :=
    fun t => HE s hs _ fine _ _ hin (inside t t.2) d hd _ (owner_lt hX t)
  have hco : ∀ t, |m.fk.crossCov m.gp.Xs d (queryPoint P Qs d i) t| ≤ A := fun t => HA d hd _ (owner_lt hX t) _ _
  have hski := HK s hs m.axesOf fine inside (m.fk.crossCov m.gp.Xs d (queryPoint P Qs d i)) (m.fk.skiCross m.axesOf noExtra m.gp.Xs d (queryPoint P Qs d i)) y y
    (fun t => (hco t).trans (by linarith)) (fun t => (abs_bound y t).trans (by linarith)) (fun t => (abs_bound y t).trans (by linarith)) E hE herr
    (fun t => by rw [sub_self, abs_zero]; positivity)
  set c := m.fk.skiCross m.axesOf noExtra m.gp.Xs d (queryPoint P Qs d i) with hcdef
  have s3 : 0 ≤ s ^ 3 := by positivity
  have hcb : ∀ t, |c t| ≤ A + E * s ^ 3 := fun t => by
    have := abs_add_le (c t - m.fk.crossCov m.gp.Xs d (queryPoint P Qs d i) t) (m.fk.crossCov m.gp.Xs d (queryPoint P Qs d i) t)
    rw [sub_add_cancel] at this
    linarith [herr t, hco t]
  have hcc : c ⬝ᵥ c ≤ N ^ 2 * (A + E * s ^ 3) ^ 2 := by
    unfold dotProduct
    rw [hN, Real.sq_sqrt (Nat.cast_nonneg _)]
    refine (Finset.sum_le_sum fun t _ => show c t * c t ≤ (A + E * s ^ 3) ^ 2 from ?_).trans_eq ?_
    · rw [← sq, ← sq_abs]
      exact pow_le_pow_left₀ (abs_nonneg _) (hcb t) 2
    · rw [Finset.sum_const, Finset.card_univ, Fintype.card_fin, nsmul_eq_mul]
  have hsq : Real.sqrt (c ⬝ᵥ (m.fk.skiMat m.axesOf noExtra m.gp.Xs)⁻¹ *ᵥ c) * (m.tol / Real.sqrt ν) ≤ N * (A + E) / ν * (m.tol * (1 + s ^ 3)) := by
    have h1 : Real.sqrt (c ⬝ᵥ (m.fk.skiMat m.axesOf noExtra m.gp.Xs)⁻¹ *ᵥ c) ≤ N * (A + E * s ^ 3) / Real.sqrt ν := by
      refine Real.sqrt_le_iff.2 ⟨by positivity, ?_⟩
      rw [div_pow, Real.sq_sqrt ν0.le, mul_pow]
      exact (hAt.inv_le c).trans (div_le_div_of_nonneg_right hcc ν0.le)
    have h2 := mul_le_mul_of_nonneg_right h1 (div_nonneg htol (Real.sqrt_nonneg ν))
    have h3 : N * (A + E * s ^ 3) / Real.sqrt ν * (m.tol / Real.sqrt ν) = N * (A + E * s ^ 3) / ν * m.tol := by
      rw [div_mul_div_comm, Real.mul_self_sqrt ν0.le, mul_div_right_comm]
    rw [h3] at h2
    refine h2.trans ?_
    have h4 : A + E * s ^ 3 ≤ (A + E) * (1 + s ^ 3) := by nlinarith
    have h5 : N * (A + E * s ^ 3) / ν * m.tol ≤ N * ((A + E) * (1 + s ^ 3)) / ν * m.tol := by gcongr
    refine h5.trans_eq ?_
    ring
  set μ := c ⬝ᵥ (m.fk.skiMat m.axesOf noExtra m.gp.Xs)⁻¹ *ᵥ y with hμ
  set μ' := m.fk.crossCov m.gp.Xs d (queryPoint P Qs d i) ⬝ᵥ (m.fk.covMat m.gp.Xs)⁻¹ *ᵥ y with hμ'
  set σ := (normOf m.gp d).1 with hσ
  set v := (r.1.getD d []).getD i 0 with hv
  have hmean' : |v - (μ * σ + (normOf m.gp d).2)| ≤ N * (A + E) / ν * (m.tol * (1 + s ^ 3)) * |σ| := hmean.trans (mul_le_mul_of_nonneg_right hsq (abs_nonneg σ))
  have hski' : |μ * σ - μ' * σ| ≤ K * (1 + E) * s ^ 3 * |σ| := by
    rw [← sub_mul, abs_mul]
    exact mul_le_mul_of_nonneg_right hski (abs_nonneg σ)
  show |v - (μ' * σ + (normOf m.gp d).2)| ≤ _
  have htri : |v - (μ' * σ + (normOf m.gp d).2)| ≤ |v - (μ * σ + (normOf m.gp d).2)| + |μ * σ - μ' * σ| := by
    refine le_trans (le_of_eq ?_) (abs_add_le _ _)
    congr 1
    ring
  have p1 : 0 ≤ K * (1 + E) * |σ| * (m.tol * (1 + s ^ 3)) := by positivity
  have p2 : 0 ≤ N * (A + E) / ν * |σ| * s ^ 3 := by positivity
  nlinarith

/-! ### the likelihood -/

/-- C89, likelihood: when the solve of the last update reported no failure, `normal_quadratic()` is within `√(yᵀ K⁻¹ y) tol / √ν` of `yᵀ K⁻¹ y`, and `log_likelihood()`
within half of that of its value with an exact solve. -/
theorem C89_log_likelihood (sv : Solvers) (hs : sv.Fit) (m : LLGP) (P : ℕ) (h : m.OK P) (k : LLKernel) (hcur : m.Current sv k) (hS : m.fk.Sound)
    (hd : ∀ ad ∈ m.fk.activeDims.map Prod.fst, ad.Nodup) (ν : ℝ) (hν : m.fk.NoiseAtLeast ν) (hc : Converged sv k.approx.K m.y m.tol) :
    let q := toVec m.n m.y ⬝ᵥ (fnMatrix m.n m.n (m.fk.skiFull m.axesOf m.fk.extraOf m.gp.Xs))⁻¹ *ᵥ toVec m.n m.y
    ∃ v l w, m.normalQuadratic = .ok v ∧ |v - q| ≤ Real.sqrt q * (m.tol / Real.sqrt ν) ∧ m.dense = .ok l ∧ m.logLikelihoodOf l = .ok (some w) ∧
      |w - -(1 / 2) * (Real.log (m.fk.covMat m.gp.Xs).det + q + m.n * Real.log (2 * Real.pi))| ≤ 1 / 2 * (Real.sqrt q * (m.tol / Real.sqrt ν)) := by
  intro q
  obtain ⟨l, hl, -⟩ := (exactLMC_contents h.ready h.data).1 (sound_posDef h hS)
  obtain ⟨h1, h2⟩ := C40_log_likelihood sv hs m P h k hcur l hl
  obtain ⟨lg, hlg⟩ := hcur.solved
  have hres := residual_le hs (current_facts hs h hcur).1 (y_length h) hc hlg
  have hq : |toVec m.n m.y ⬝ᵥ toVec m.n k.approx.alpha - q| ≤ Real.sqrt q * (m.tol / Real.sqrt ν) :=
    (h.atLeast hS hd hν).near (A := fnMatrix m.n m.n (m.fk.skiFull m.axesOf m.fk.extraOf m.gp.Xs)) hres _
  refine ⟨_, l, _, h1, hq, hl, h2, ?_⟩
  rw [show ∀ L q q' c : ℝ, -(1 / 2) * (L + q + c) - -(1 / 2) * (L + q' + c) = -(1 / 2) * (q - q') from fun L q q' c => by ring, abs_mul, abs_neg,
    abs_of_pos (show (0 : ℝ) < 1 / 2 by norm_num)]
  linarith

/-! ### gradients -/

/-- C89, the stochastic derivative: when the solves for the data and for the probes reported no failure, the value computed from the probes `z` is within
`1/2 ‖dK‖ (tol / ν) (2 ‖y‖ / ν + tol / ν + √n)` of what exact solves would give. -/
theorem C89_derivative (sv : Solvers) (hs : sv.Fit) (s : DerivService) (hn : 0 < s.nIt) (metrics : Option Metrics) (K dK : MatObj) (n : ℕ)
    (A B : ℕ → ℕ → ℝ) (hK : SquareOp K n A) (hB : SquareOp dK n B) (y : List ℝ) (hy : y.length = n) (hp : s.pool.Works (s.nIt + 1))
    (ν : ℝ) (hν : 0 < ν) (hA : (fnMatrix n n A).PosDef) (hA' : ∀ v : Fin n → ℝ, ν * (v ⬝ᵥ v) ≤ v ⬝ᵥ fnMatrix n n A *ᵥ v) (hc : Converged sv K y s.tol)
    (z : Fin s.nIt → Fin n → Bool) (hz : ∀ k : Fin s.nIt, ∀ b : List ℝ, b.length = n → (toVec n b = fun i => if z k i then 1 else -1) → Converged sv K b s.tol) :
    ∃ d m' v, s.generate sv metrics (tableBits z) K y = .ok (d, m') ∧ d.derivative dK = .ok v ∧
      |v - 1 / 2 * (((fnMatrix n n A)⁻¹ *ᵥ toVec n y) ⬝ᵥ fnMatrix n n B *ᵥ ((fnMatrix n n A)⁻¹ *ᵥ toVec n y) -
        (∑ k : Fin s.nIt, (fun i => if z k i then (1 : ℝ) else -1) ⬝ᵥ ((fnMatrix n n A)⁻¹ᵀ * fnMatrix n n B) *ᵥ (fun i => if z k i then (1 : ℝ) else -1)) / s.nIt)| ≤
        1 / 2 * matNorm (fnMatrix n n B) * (s.tol / ν * (2 * (vecNorm (toVec n y) / ν) + s.tol / ν + Real.sqrt n)) := by
  obtain ⟨sol, hsol, m', h1, -⟩ := generate_contents sv hs s metrics (tableBits z) hK hy hp
  have hlen : ∀ b : List ℝ, b.length = n → (sol b).length = n := fun b hb => by
    obtain ⟨lg, h⟩ := hsol b hb
    exact solve_length hs hK hb h
  refine ⟨_, m', _, h1, estValue_of hn hB hlen hy z, ?_⟩
  refine estValue_near (A := fnMatrix n n A) hn ⟨hA, hν, hA'⟩ ?_ z (fun k => ?_) B
  · obtain ⟨lg, h⟩ := hsol y hy
    exact residual_le hs hK hy hc h
  · obtain ⟨lg, h⟩ := hsol _ (signRow_length z k)
    exact residual_le hs hK (signRow_length z k) (hz k _ (signRow_length z k) (signRow_vec z k)) h

/-- `f z`, for the outcomes `z` of the probes, estimates the partial derivative of the log marginal likelihood along the path `g` of kernels, at `t`, with a bias of
at most `1/2 ‖∂K‖ (tol / ν) (2 ‖y‖ / ν + tol / ν + √n)` -/
def SmallBias (m : LLGP) (ν : ℝ) (g : ℝ → FK) (t : ℝ) (f : (Fin m.nIt → Fin m.n → Bool) → ℝ) : Prop :=
  ∃ (v : ℝ) (dK : Matrix (Fin m.n) (Fin m.n) ℝ), HasDerivAt (fun u => (g u).skiLogLik m.axesOf m.fk.extraOf m.gp.Xs m.gp.Ys) v t ∧
    (∀ r s : Fin m.n, HasDerivAt (fun u => (g u).skiFull m.axesOf m.fk.extraOf m.gp.Xs r s) (dK r s) t) ∧
    |average f - v| ≤ 1 / 2 * matNorm dK * (m.tol / ν * (2 * (vecNorm (toVec m.n m.y) / ν) + m.tol / ν + Real.sqrt m.n))

theorem smallBias_along {m : LLGP} (hn : 0 < m.nIt) {ν : ℝ} (hp : AtLeast (m.fk.skiMat m.axesOf m.fk.extraOf m.gp.Xs) ν) {sol : List ℝ → List ℝ}
    (hy : vecNorm (toVec m.n m.y - fnMatrix m.n m.n (m.fk.skiFull m.axesOf m.fk.extraOf m.gp.Xs) *ᵥ toVec m.n (sol m.y)) ≤ m.tol)
    (hz : ∀ z : Fin m.nIt → Fin m.n → Bool, ∀ k : Fin m.nIt,
      vecNorm (toVec m.n (signRow z k) - fnMatrix m.n m.n (m.fk.skiFull m.axesOf m.fk.extraOf m.gp.Xs) *ᵥ toVec m.n (sol (signRow z k))) ≤ m.tol) {g : ℝ → FK} {t : ℝ} {f : ℕ → ℕ → ℝ}
    (hf : m.Along m.fk.extraOf g t f) : SmallBias m ν g t fun z => estValue m.n m.nIt sol m.y z f := by
  refine ⟨_, fnMatrix m.n m.n f, avg_correct hn _ hp.posDef g t f hf, fun r s => (hf r r.2 s s.2).2, ?_⟩
  have h2 : (0 : ℝ) < 2 ^ (m.nIt * m.n) := by positivity
  have key := fun z => estValue_near (A := fnMatrix m.n m.n (m.fk.skiFull m.axesOf m.fk.extraOf m.gp.Xs)) hn hp hy z (hz z) f
  set c := 1 / 2 * matNorm (fnMatrix m.n m.n f) * (m.tol / ν * (2 * (vecNorm (toVec m.n m.y) / ν) + m.tol / ν + Real.sqrt m.n)) with hc
  unfold average
  rw [← sub_div, ← Finset.sum_sub_distrib, abs_div, abs_of_pos h2, div_le_iff₀ h2]
  refine (Finset.abs_sum_le_sum_abs _ _).trans ((Finset.sum_le_sum fun z _ => key z).trans_eq ?_)
  rw [Finset.sum_const, Finset.card_univ, nsmul_eq_mul]
  simp only [Fintype.card_fun, Fintype.card_fin, Fintype.card_bool]
  push_cast
  rw [← pow_mul, mul_comm m.n, mul_comm]

/-- C89, gradients: when no solve with the data or with signs as right hand side reports a failure, the gradients an update stores have a small bias, in every parameter. -/
theorem C89_gradients (sv : Solvers) (hs : sv.Fit) (m : LLGP) (P : ℕ) (h : m.OK P) (hn : 0 < m.nIt) (hS : m.fk.Sound)
    (hd : ∀ ad ∈ m.fk.activeDims.map Prod.fst, ad.Nodup) (ν : ℝ) (hν : m.fk.NoiseAtLeast ν)
    (hx : ∀ K gks, genGridKernel m.fk m.dists m.interp m.lens = .ok (K, gks) → Converged sv K m.y m.tol ∧ ∀ b, SignVec m.n b → Converged sv K b m.tol)
    (e : Env) (he : e.Works) (hi : e.interrupt = none) (useCache : Bool) (w : World) (i : ℕ) (hw : w.heap i = some m) :
    ∃ G : (Fin m.nIt → Fin m.n → Bool) → FKGrad,
      (∀ z, ∃ w' m', parametersChanged useCache sv { e with z := tableBits z } i w = (.ok (), w') ∧ w'.heap i = some m' ∧ m'.grad = some (G z)) ∧
      (∀ q < m.fk.Q, ∀ i < (m.fk.coregVecs.getD q ⟨0, 0, []⟩).rows, ∀ j < m.fk.D,
        SmallBias m ν (m.fk.setVec q i j) ((m.fk.coregVecs.getD q ⟨0, 0, []⟩).get i j) fun z => ((G z).vecs.getD q ⟨0, 0, []⟩).get i j) ∧
      (∀ q < m.fk.Q, ∀ i < m.fk.D, SmallBias m ν (m.fk.setDiag q i) ((m.fk.coregDiags.getD q []).getD i 0) fun z => ((G z).diags.getD q []).getD i 0) ∧
      (∀ q < m.fk.Q, ∀ j < (m.fk.kernels.getD q (.identity none)).params.length,
        SmallBias m ν (m.fk.setKern q j) ((m.fk.kernels.getD q (.identity none)).params.getD j 0) fun z => ((G z).kernels.getD q []).getD j 0) ∧
      (∀ i < m.fk.D, SmallBias m ν (m.fk.setNoise i) (m.fk.noise.getD i 0) fun z => (G z).noise.getD i 0) := by
  obtain ⟨fs, hf⟩ := exists_gradFns h
  have hp := h.atLeast hS hd hν
  obtain ⟨K, gks, g1, g2, g3, g4, -⟩ := genGridKernel_model h
  have hK : SquareOp K m.n (m.fk.skiFull m.axesOf m.fk.extraOf m.gp.Xs) := ⟨g4, g2, g3⟩
  obtain ⟨c1, c2⟩ := hx K gks g1
  obtain ⟨sol, hsol⟩ := exists_solvesTo hs hK m.tol
  have hy : vecNorm (toVec m.n m.y - fnMatrix m.n m.n (m.fk.skiFull m.axesOf m.fk.extraOf m.gp.Xs) *ᵥ toVec m.n (sol m.y)) ≤ m.tol := by
    obtain ⟨-, lg, hl⟩ := hsol m.y (y_length h)
    exact residual_le hs hK (y_length h) c1 hl
  have hz : ∀ z : Fin m.nIt → Fin m.n → Bool, ∀ k : Fin m.nIt,
      vecNorm (toVec m.n (signRow z k) - fnMatrix m.n m.n (m.fk.skiFull m.axesOf m.fk.extraOf m.gp.Xs) *ᵥ toVec m.n (sol (signRow z k))) ≤ m.tol := fun z k => by
    obtain ⟨-, lg, hl⟩ := hsol _ (signRow_length z k)
    exact residual_le hs hK (signRow_length z k) (c2 _ (signRow_sign z k)) hl
  have hup : ∀ z, ∃ w' m', parametersChanged useCache sv { e with z := tableBits z } i w = (.ok (), w') ∧ w'.heap i = some m' ∧
      m'.grad = some (m.gradWith fs (estValue m.n m.nIt sol m.y z)) := by
    intro z
    obtain ⟨w', hw'⟩ := update_completes (e := { e with z := tableBits z }) hs he hi h hn (fun _ => sound_posDef h hS) hw useCache
    obtain ⟨m', Kg, kd, grads, G, u1, u2, u3, u4, u5, u6⟩ := update_grad sv useCache _ hw hw'
    refine ⟨w', m', hw', u1, ?_⟩
    rw [u6]
    rw [g1] at u2
    cases u2
    have hD := derivative_estimate h hn hs (e := { e with z := tableBits z }) he hK hsol z rfl u3
    have hv : ∃ vals, m.fk.evalKernels (m.dists.map fun kd => (kd.1, .arr kd.2)) = .ok vals ∧ mapExcept kvalBttb vals = .ok kd.1 := by
      have ha := u3
      unfold approxFirst at ha
      split_ifs at ha
      simp only [bind_ok, pure_ok] at ha
      obtain ⟨vals, v1, ks, v2, d, -, rfl⟩ := ha
      exact ⟨vals, v1, v2⟩
    have hl : ApproxOf m fs ⟨m.fk, m.y, m.lens, kd.1, K, kd.2.1, grads, m.interp⟩ := ⟨rfl, rfl, rfl, hv, u4⟩
    have ho := (approx_opsFor h hf hl hD).updateGradient h.ready
    rw [ho] at u5
    cases u5
    rfl
  refine ⟨fun z => m.gradWith fs (estValue m.n m.nIt sol m.y z), hup, fun q hq i hi j hj => ?_, fun q hq i hi => ?_, fun q hq j hj => ?_, fun i hi => ?_⟩
  · obtain ⟨f, hf', he⟩ := param_vec h fs hq hi hj
    simp only [he]
    exact smallBias_along hn hp hy hz hf'
  · obtain ⟨f, hf', he⟩ := param_diag h fs hq hi
    simp only [he]
    exact smallBias_along hn hp hy hz hf'
  · obtain ⟨f, hf', he⟩ := param_kern h hf hq hj
    simp only [he]
    exact smallBias_along hn hp hy hz hf'
  · obtain ⟨f, hf', he⟩ := param_noise h fs hi
    simp only [he]
    exact smallBias_along hn hp hy hz hf'

/-! ### examples -/

/-- Krylov methods that stop a little short of the solution: the result is too short by a fraction `tol / (1 + ‖b‖)` -/
noncomputable def shortSolvers : Solvers :=
  let run := fun (K : MatObj) (b : List ℝ) (tol : ℝ) =>
    let x := vmk b.length fun i => if h : i < b.length then
      (1 - tol / (1 + vecNorm (toVec b.length b))) * ((fnMatrix b.length b.length fun i j => K.asNumpy.get i j)⁻¹ *ᵥ toVec b.length b) ⟨i, h⟩ else 0
    (⟨[b, x], x, 0⟩ : KrylovRun)
  ⟨fun K b tol _ => run K b tol, fun K b tol _ => run K b tol⟩

theorem shortSolvers_fit : shortSolvers.Fit := by
  intro K y tol it
  constructor <;> refine ⟨fun x hx => ?_, by simp [shortSolvers]⟩ <;>
  · simp only [shortSolvers, List.mem_cons, List.not_mem_nil, or_false] at hx
    rcases hx with rfl | rfl <;> simp

/-- they report no failure -/
theorem shortSolvers_converged {K : MatObj} {n : ℕ} {A : ℕ → ℕ → ℝ} (hK : SquareOp K n A) (hA : (fnMatrix n n A).PosDef) {tol : ℝ} (ht : 0 ≤ tol) {b : List ℝ} (hb : b.length = n) :
    Converged shortSolvers K b tol := by
  obtain ⟨x, c, e, lg, -, h2, -, -, h5⟩ := C51_solve shortSolvers shortSolvers_fit K n A hK b hb true tol
  refine ⟨x, ?_⟩
  rw [h2]
  rcases h5 with ⟨k, -, -, -, -, rfl⟩ | ⟨-, hx, -, h6⟩
  · rfl
  cases lg with
  | false => rfl
  | true =>
    exfalso
    rcases h6.1 rfl with h | h
    swap
    · exact h rfl
    have hA' : (fnMatrix n n fun i j => K.asNumpy.get i j) = fnMatrix n n A := by
      ext i j
      exact hK.rep.entry (by rw [hK.rows]; exact i.2) (by rw [hK.cols]; exact j.2)
    subst hb
    set t := min 1e-10 tol with htd
    have ht0 : 0 ≤ t := le_min (by norm_num) ht
    have hv : toVec b.length x = (1 - t / (1 + vecNorm (toVec b.length b))) • ((fnMatrix b.length b.length A)⁻¹ *ᵥ toVec b.length b) := by
      rw [hx, ← hA']
      funext i
      show (vmk _ _).getD i 0 = _
      rw [vmk_getD_lt i.2, dif_pos i.2]
      rfl
    have hN := vecNorm_nonneg (toVec b.length b)
    unfold resNorm at h
    rw [hv, Matrix.mulVec_smul, Matrix.mulVec_mulVec, Matrix.mul_nonsing_inv _ ((Matrix.isUnit_iff_isUnit_det _).1 hA.isUnit), Matrix.one_mulVec] at h
    have e1 : ∀ i, toVec b.length b i - ((1 - t / (1 + vecNorm (toVec b.length b))) • toVec b.length b) i = t / (1 + vecNorm (toVec b.length b)) * toVec b.length b i := fun i => by
      rw [Pi.smul_apply, smul_eq_mul]
      ring
    simp only [e1, mul_pow] at h
    rw [← Finset.mul_sum, Real.sqrt_mul (sq_nonneg _), Real.sqrt_sq (by positivity)] at h
    have e2 : t / (1 + vecNorm (toVec b.length b)) * vecNorm (toVec b.length b) ≤ tol := by
      rw [div_mul_eq_mul_div, div_le_iff₀ (by linarith)]
      have : t ≤ tol := min_le_right _ _
      nlinarith
    exact absurd h (not_lt.2 e2)

/-- hypotheses of C89, in each mode: a model of two correlated outputs, updated and asked with solvers that are not exact -/
example (mode : PredMode) (e : Env) (he : e.Works) : ∃ (m : LLGP) (k : LLKernel) (ν : ℝ) (g : List ℕ × List ℕ) (r : Predicted),
    Asked shortSolvers m 2 k [⟨[1, 2], [0, 0]⟩, ⟨[2, 2], [0, 1, 1, 1]⟩] ∧ m.prediction = mode ∧ m.fk.Sound ∧ m.fk.NoiseAtLeast ν ∧ m.fk.activeDims = [g] ∧ g.1 = List.range 2 ∧
    (∀ tol, 0 ≤ tol → ∀ b : List ℝ, b.length = m.n → Converged shortSolvers k.approx.K b tol) ∧ m.tol = 1e-4 ∧ 0 < m.nIt ∧
    m.gp.predict (m.rawPredict shortSolvers e) [⟨[1, 2], [0, 0]⟩, ⟨[2, 2], [0, 1, 1, 1]⟩] = .ok r := by
  obtain ⟨fk, ⟨h1, h2, h3, h4, -⟩, h⟩ := exists_documented_grid
  obtain ⟨m, i1, i2, i3, i4, i5, -, i7, -⟩ := model_of_documented (h mode false none (by simp)) (mode := mode) (metrics := false) rfl rfl h1 h2 h3 h4 rfl
  obtain ⟨k, hc, hok⟩ := exists_current shortSolvers_fit i2
  obtain ⟨-, -, -, f4, f5, -⟩ := init_fields i1
  obtain ⟨ν, ν0, hν⟩ := i4.least
  have hpd : (fnMatrix m.n m.n (m.fk.skiFull m.axesOf m.fk.extraOf m.gp.Xs)).PosDef := i2.ski_posDef i4 (by
    rw [i7]
    intro ad had
    simp only [List.map_cons, List.map_nil, List.mem_singleton] at had
    rw [had]
    decide)
  have ask : Asked shortSolvers { m with kernel := some k } 2 k [⟨[1, 2], [0, 0]⟩, ⟨[2, 2], [0, 1, 1, 1]⟩] := by
    refine ⟨shortSolvers_fit, hok, hc, ⟨by rw [show LLGP.fk { m with kernel := some k } = m.fk from rfl, i5]; rfl, ?_⟩, ?_⟩
    · intro X hX
      simp only [List.mem_cons, List.not_mem_nil, or_false] at hX
      rcases hX with rfl | rfl
      · exact ⟨1, .inr rfl⟩
      · exact ⟨2, .inr rfl⟩
    · intro X hX
      simp only [List.mem_cons, List.not_mem_nil, or_false] at hX
      rcases hX with rfl | rfl <;> rfl
  obtain ⟨r, hr⟩ := (C43_returns shortSolvers { m with kernel := some k } 2 k _ ask e he).2.2 ⟨i4.plain, by
    unfold LLGP.CanPredict
    cases mode with
    | onTheFly => rw [show LLGP.prediction { m with kernel := some k } = .onTheFly from i3]; simp [queryLens]
    | precompute =>
      rw [show LLGP.prediction { m with kernel := some k } = .precompute from i3]
      exact ⟨_, i7, rfl⟩
    | exact =>
      rw [show LLGP.prediction { m with kernel := some k } = .exact from i3]
      exact covMat_posDef hok.ready.wf hok.data.inputs.len i4.kernels i4.kappa i4.noise⟩
  exact ⟨{ m with kernel := some k }, k, ν, _, r, ask, i3, i4, ⟨ν0, hν⟩, i7, rfl,
    fun tol ht b hb => shortSolvers_converged (current_facts shortSolvers_fit hok hc).1 hpd ht hb, f5, by rw [show LLGP.nIt { m with kernel := some k } = m.nIt from rfl, f4]; norm_num, hr⟩

end Verif
