import Verif.Proofs.SkiGrids
import Verif.Proofs.SkiVariance
import Verif.Props.LLGPPredict
import Verif.Props.LLGP

/-! C71, C72: how accurate the interpolation is, and that everything converges to the exact model as the grids are refined. -/

namespace Verif

open Matrix

/-! ### C71 -/

/-- C71: for all kernels except `Identity` the error of the interpolated covariance is at most a constant times the cube of the grid spacing; the constant
depends on the parameters only, not on the grids, the outputs or the points. -/
theorem C71_accuracy (fk : FK) (P : ℕ) (h : fk.Ready P) (hg : fk.GroupsOK) (hp : ∀ k ∈ fk.kernels, k.noIdentity) :
    ∃ C, 0 ≤ C ∧ ∀ s, 0 ≤ s → ∀ axes, fk.FineGrids s axes → ∀ x z, fk.Inside axes x → fk.Inside axes z → ∀ a < fk.D, ∀ b < fk.D,
      |fk.skiCov axes noExtra a b x z - fk.cov a b x z| ≤ C * s ^ 3 :=
  FK.skiCov_error h hg hp

theorem gridPoint_exists : ∀ (axes : List (List ℝ)) (x : ℕ → ℝ), (∀ k < axes.length, ∃ j < (axes.getD k []).length, x k = (axes.getD k []).getD j 0) →
    ∃ p < gridSize axes, ∀ k < axes.length, x k = (gridPoint axes p).getD k 0
  | [], x, _ => ⟨0, by simp [gridSize], fun k hk => absurd hk (by simp)⟩
  | a :: axes, x, h => by
    obtain ⟨j, hj, e⟩ := h 0 (by simp)
    obtain ⟨p, hp, H⟩ := gridPoint_exists axes (fun k => x (k + 1)) fun k hk => h (k + 1) (by simpa using hk)
    have hj : j < a.length := hj
    have hpos : 0 < gridSize axes := by omega
    refine ⟨j * gridSize axes + p, ?_, fun k hk => ?_⟩
    · rw [gridSize_cons]
      exact idx_lt hj hp
    · have e1 : (j * gridSize axes + p) / gridSize axes = j := idx_div hp
      have e2 : (j * gridSize axes + p) % gridSize axes = p := idx_mod hp
      rw [gridPoint, e1, e2]
      cases k with
      | zero => exact e
      | succ k => exact H k (by simpa using hk)

/-- C71: at grid points there is no error at all. -/
theorem C71_on_grid (fk : FK) (P : ℕ) (h : fk.Ready P) (hg : fk.GroupsOK) (s : ℝ) (axes : List ℕ → List (List ℝ)) (hf : fk.FineGrids s axes) (x z : ℕ → ℝ)
    (hx : fk.OnGrid axes x) (hz : fk.OnGrid axes z) (a b : ℕ) : fk.skiCov axes noExtra a b x z = fk.cov a b x z := by
  rw [skiCov_kernels h hg, extraPart_none, add_zero]
  unfold FK.cov
  refine Finset.sum_congr rfl fun q hq => ?_
  obtain ⟨g, hgm, hgd⟩ := kdims_mem h (Finset.mem_range.1 hq)
  obtain ⟨f1, f2⟩ := hf g hgm
  rw [← hgd]
  have hax : ∀ a ∈ axes g.1, 4 ≤ a.length ∧ ∃ g0 h, 0 < h ∧ Equispaced a g0 h := fun a ha => by
    obtain ⟨h4, g0, d, hd, -, he⟩ := f2 a ha
    exact ⟨h4, g0, d, hd, he⟩
  obtain ⟨p, hp, ep⟩ := gridPoint_exists (axes g.1) (coords g.1 x) fun k hk => hx g hgm k (by rw [← f1]; exact hk)
  obtain ⟨r, hr, er⟩ := gridPoint_exists (axes g.1) (coords g.1 z) fun k hk => hz g hgm k (by rw [← f1]; exact hk)
  congr 1
  unfold skiKernel
  rw [Finset.sum_eq_single_of_mem p (Finset.mem_range.2 hp), Finset.sum_eq_single_of_mem r (Finset.mem_range.2 hr),
    gridWeight_gridpoint _ hax hp ep hp, gridWeight_gridpoint _ hax hr er hr, if_pos rfl, if_pos rfl, one_mul, mul_one]
  · unfold gridDistance
    rw [distOn_euclid]
    congr 1
    unfold euclid
    rw [f1]
    refine congrArg Real.sqrt (Finset.sum_congr rfl fun k hk => ?_)
    have hk := Finset.mem_range.1 hk
    rw [vmk_getD_lt hk, vmk_getD_lt hk, ep k (by rw [f1]; exact hk), er k (by rw [f1]; exact hk)]
  · intro j hj hne
    rw [gridWeight_gridpoint _ hax hr er (Finset.mem_range.1 hj), if_neg hne, mul_zero]
  · intro j hj hne
    refine Finset.sum_eq_zero fun i _ => ?_
    rw [gridWeight_gridpoint _ hax hp ep (Finset.mem_range.1 hj), if_neg hne, zero_mul, zero_mul]

theorem innerIdx_lt (lens : List ℕ) {r : ℕ} (hr : r < lens.sum) : innerIdx lens r < lens.getD (ownerOf lens r) 0 := by
  have ho := ownerOf_lt lens r hr
  obtain ⟨h1, h2⟩ := (in_block_iff lens r _ hr ho).2 rfl
  have hs : offset lens (ownerOf lens r + 1) = offset lens (ownerOf lens r) + lens.getD (ownerOf lens r) 0 := by
    unfold offset
    rw [List.take_add_one, List.sum_append, List.getElem?_eq_getElem ho, List.getD_eq_getElem _ _ ho]
    simp
  unfold innerIdx
  omega

theorem row_surrounded {a : LLGPArgs} {P : ℕ} {r : ℕ} (hr : r < ((padded P a.Xs).map Arr2.rows).sum) : a.Surrounds P (rowPoint (padded P a.Xs) r) := by
  set Xs := padded P a.Xs with hXs
  have ho : ownerOf (Xs.map Arr2.rows) r < Xs.length := by
    have := ownerOf_lt (Xs.map Arr2.rows) r hr
    simpa using this
  have hi : innerIdx (Xs.map Arr2.rows) r < (Xs.getD (ownerOf (Xs.map Arr2.rows) r) ⟨0, 0, []⟩).rows := by
    have := innerIdx_lt (Xs.map Arr2.rows) hr
    rwa [map_getD_lt ho _ _ ⟨0, 0, []⟩] at this
  intro c _
  refine ⟨⟨_, .inl ⟨_, getD_mem_of_lt ho ⟨0, 0, []⟩, _, hi, rfl⟩, le_rfl⟩, ⟨_, .inl ⟨_, getD_mem_of_lt ho ⟨0, 0, []⟩, _, hi, rfl⟩, le_rfl⟩⟩

theorem MadeFrom.grids {m : LLGP} {P : ℕ} {a : LLGPArgs} (hP : 0 < P) (h : m.MadeFrom P a) {w : ℝ} (hw : a.Width P w) {N : ℕ} (hN0 : 0 < N) (hN : a.Cells P N) :
    m.fk.FineGrids (5 / 4 * (w / N)) m.axesOf ∧ (∀ x, a.Surrounds P x → m.fk.Inside m.axesOf x) ∧ m.gp.Xs = padded P a.Xs ∧
      ∀ r < (m.gp.Xs.map Arr2.rows).sum, m.fk.Inside m.axesOf (rowPoint m.gp.Xs r) := by
  obtain ⟨fk, m0, hd, hm, e1, e2, e3⟩ := h
  obtain ⟨m', fk', h1, h2, h3, h4, h5⟩ := llgpInit_documented hd hP
  rw [hm] at h1
  cases h1
  have ea : m.axesOf = m0.axesOf := by funext ad; unfold LLGP.axesOf; rw [e2]
  have hin : ∀ x, a.Surrounds P x → m.fk.Inside m.axesOf x := by
    intro x hx
    have := init_inside hd hP hm hx
    unfold FK.Inside at this ⊢
    rw [ea, e3]
    exact this
  refine ⟨?_, hin, by rw [e1, h5], fun r hr => hin _ ?_⟩
  · have := init_fine hd hP hm hw hN hN0
    unfold FK.FineGrids at this ⊢
    rw [ea, e3]
    exact this
  · rw [e1, h5] at hr ⊢
    exact row_surrounded hr

/-- C71: the grids of a constructed model have spacing at most `5/4 w / N` when the inputs and given bounds spread over at most `w` and `N` cells are asked for;
training inputs, and all points between inputs or bounds, are inside. -/
theorem C71_constructed (m : LLGP) (P : ℕ) (hP : 0 < P) (a : LLGPArgs) (h : m.MadeFrom P a) (w : ℝ) (hw : a.Width P w) (N : ℕ) (hN0 : 0 < N) (hN : a.Cells P N) :
    m.fk.FineGrids (5 / 4 * (w / N)) m.axesOf ∧ (∀ x, a.Surrounds P x → m.fk.Inside m.axesOf x) ∧
      ∀ r < (m.gp.Xs.map Arr2.rows).sum, m.fk.Inside m.axesOf (rowPoint m.gp.Xs r) :=
  let ⟨h1, h2, _, h3⟩ := MadeFrom.grids hP h hw hN0 hN
  ⟨h1, h2, h3⟩

/-! ### C72 -/

theorem abs_bound {n : ℕ} (y : Fin n → ℝ) (i : Fin n) : |y i| ≤ ∑ j, |y j| :=
  Finset.single_le_sum (f := fun j => |y j|) (fun j _ => abs_nonneg _) (Finset.mem_univ i)

/-- C72: with exact linear solves the reported log likelihood is within a constant times the cube of the grid spacing of the exact log likelihood. -/
theorem C72_log_likelihood (fk : FK) (P : ℕ) (hr : fk.Regular P) (Xs : List (Arr2 ℝ)) (Ys : List (List ℝ)) (hX : Xs.length = fk.D) :
    ∃ C, 0 ≤ C ∧ ∀ s, 0 ≤ s → ∀ sv m k, sv.Fit → Refined sv fk P Xs Ys s m k →
      ExactSolves sv k.approx.K m.n (m.fk.skiFull m.axesOf m.fk.extraOf m.gp.Xs) m.tol →
      ∃ l v, m.dense = .ok l ∧ m.logLikelihoodOf l = .ok (some v) ∧ |v - fk.logLik Xs Ys| ≤ C * s ^ 3 := by
  set y := toVec (Xs.map Arr2.rows).sum Ys.flatten with hy
  have hy0 : 0 ≤ ∑ j, |y j| := Finset.sum_nonneg fun j _ => abs_nonneg _
  obtain ⟨K, hK, HK⟩ := FK.solve_error hr.ready hr.groups hr.sound hr.nodup hX hy0
  refine ⟨1 / 2 * K, by positivity, fun s hs sv m k hsv hm hx => ?_⟩
  obtain ⟨ok, cur, rfl, rfl, rfl, fine, inside⟩ := hm
  obtain ⟨l, hl, -⟩ := (exactLMC_contents ok.ready ok.data).1 (covMat_posDef ok.ready.wf ok.data.inputs.len hr.sound.kernels hr.sound.kappa hr.sound.noise)
  refine ⟨l, _, hl, (C40_log_likelihood sv hsv m P ok k cur l hl).2, ?_⟩
  obtain ⟨x, lg, h1, h2, h3⟩ := hx m.y (y_length ok)
  obtain ⟨lg', h4⟩ := cur.solved
  rw [h1] at h4
  cases h4
  rw [C66_documented m.fk hr.clean] at h3
  have key := HK s hs m.axesOf fine inside y y y y (abs_bound y) (abs_bound y) (abs_bound y) 0 le_rfl (fun i => by simp) (fun i => by simp)
  rw [show toVec m.n k.approx.alpha = (m.fk.skiMat m.axesOf noExtra m.gp.Xs)⁻¹ *ᵥ y from h3]
  unfold FK.logLik gaussLogDensity
  show |-(1 / 2) * (Real.log (m.fk.covMat m.gp.Xs).det + y ⬝ᵥ (m.fk.skiMat m.axesOf noExtra m.gp.Xs)⁻¹ *ᵥ y + m.n * Real.log (2 * Real.pi)) -
      -(1 / 2) * (y ⬝ᵥ (m.fk.covMat m.gp.Xs)⁻¹ *ᵥ y + Real.log (m.fk.covMat m.gp.Xs).det + m.n * Real.log (2 * Real.pi))| ≤ _
  rw [show ∀ L q q' c : ℝ, -(1 / 2) * (L + q + c) - -(1 / 2) * (q' + L + c) = -(1 / 2) * (q - q') from fun L q q' c => by ring]
  rw [abs_mul, abs_neg, abs_of_pos (show (0 : ℝ) < 1 / 2 by norm_num)]
  rw [add_zero, mul_one] at key
  linarith

/-- C72: with exact linear solves the predicted means, at points inside the grids, are within a constant times the cube of the spacing of the exact conditional
means, un-normalised. -/
theorem C72_mean (fk : FK) (P : ℕ) (hr : fk.Regular P) (Xs : List (Arr2 ℝ)) (Ys : List (List ℝ)) (hX : Xs.length = fk.D) :
    ∃ C, 0 ≤ C ∧ ∀ s, 0 ≤ s → ∀ sv m k, Refined sv fk P Xs Ys s m k → ∀ Qs, Asked sv m P k Qs →
      ExactSolves sv k.approx.K m.n (m.fk.skiFull m.axesOf m.fk.extraOf m.gp.Xs) m.tol → ∀ e r, m.gp.predict (m.rawPredict sv e) Qs = .ok r →
      ∀ d < fk.D, ∀ i < (queryLens Qs).getD d 0, fk.Inside m.axesOf (queryPoint P Qs d i) →
        |(r.1.getD d []).getD i 0 - (fk.condMean Xs Ys d (queryPoint P Qs d i) * (normOf m.gp d).1 + (normOf m.gp d).2)| ≤ C * |(normOf m.gp d).1| * s ^ 3 := by
  set y := toVec (Xs.map Arr2.rows).sum Ys.flatten with hy
  have hy0 : 0 ≤ ∑ j, |y j| := Finset.sum_nonneg fun j _ => abs_nonneg _
  obtain ⟨A, hA, HA⟩ := FK.cov_bounded hr.ready hr.sound.plain
  obtain ⟨E, hE, HE⟩ := FK.skiCov_error hr.ready hr.groups hr.sound.plain
  obtain ⟨K, hK, HK⟩ := FK.solve_error hr.ready hr.groups hr.sound hr.nodup hX (add_nonneg hA hy0)
  refine ⟨K * (1 + E), by positivity, fun s hs sv m k hm Qs hq hx e r hpr d hd i hi hin => ?_⟩
  obtain ⟨ok, cur, rfl, rfl, rfl, fine, inside⟩ := hm
  rw [C44_exact_solve sv m P k Qs hq e r hx hpr d hd i hi]
  unfold FK.skiMean FK.condMean
  obtain ⟨c1, c2⟩ := C44_documented m.fk hr.clean m.axesOf m.gp.Xs d (queryPoint P Qs d i)
  rw [c1, c2, add_sub_add_right_eq_sub, ← sub_mul, abs_mul]
  have := HK s hs m.axesOf fine inside (m.fk.crossCov m.gp.Xs d (queryPoint P Qs d i)) (m.fk.skiCross m.axesOf noExtra m.gp.Xs d (queryPoint P Qs d i)) y y
    (fun t => (HA d hd _ (owner_lt hX t) _ _).trans (by linarith)) (fun t => (abs_bound y t).trans (by linarith)) (fun t => (abs_bound y t).trans (by linarith)) E hE
    (fun t => HE s hs _ fine _ _ hin (inside t t.2) d hd _ (owner_lt hX t)) (fun t => by rw [sub_self, abs_zero]; positivity)
  calc _ ≤ K * (1 + E) * s ^ 3 * |(normOf m.gp d).1| := mul_le_mul_of_nonneg_right this (abs_nonneg _)
    _ = _ := by ring

theorem clamp_error {v c ε : ℝ} (h : |v - c| ≤ ε) (hc : 0 ≤ c) : |max 0 v - c| ≤ ε := by
  rcases le_total 0 v with hv | hv
  · rwa [max_eq_right hv]
  · rw [max_eq_left hv]
    rw [abs_le] at h ⊢
    constructor <;> linarith

/-- C72: likewise for the predicted variances in the three modes: `'exact'` returns the exact conditional variance, `'on-the-fly'` and `'precompute'` are within a
constant times the cube of the spacing, whatever the observations. -/
theorem C72_variance (fk : FK) (P : ℕ) (hr : fk.Regular P) (Xs : List (Arr2 ℝ)) (hX : Xs.length = fk.D) :
    ∃ C, 0 ≤ C ∧ ∀ Ys s, 0 ≤ s → ∀ sv m k, Refined sv fk P Xs Ys s m k → ∀ Qs, Asked sv m P k Qs →
      (m.prediction ≠ .exact → ExactSolves sv k.approx.K m.n (m.fk.skiFull m.axesOf m.fk.extraOf m.gp.Xs) 1e-4) →
      (m.prediction = .precompute → ∃ g, fk.activeDims = [g] ∧ g.1 = List.range P) → ∀ e, e.Works → ∀ r, m.gp.predict (m.rawPredict sv e) Qs = .ok r →
      ∀ d < fk.D, ∀ i < (queryLens Qs).getD d 0, fk.Inside m.axesOf (queryPoint P Qs d i) →
        |(r.2.getD d []).getD i 0 - fk.condVar Xs d (queryPoint P Qs d i) * (normOf m.gp d).1 ^ 2| ≤ C * (normOf m.gp d).1 ^ 2 * s ^ 3 := by
  obtain ⟨A, hA, HA⟩ := FK.cov_bounded hr.ready hr.sound.plain
  obtain ⟨K, hK, HK⟩ := FK.solve_error hr.ready hr.groups hr.sound hr.nodup hX hA
  have hpre : ∃ C, 0 ≤ C ∧ ∀ g, fk.activeDims = [g] → g.1 = List.range P → ∀ sp, 0 ≤ sp → ∀ axes, fk.FineGrids sp axes →
      (∀ r < (Xs.map Arr2.rows).sum, fk.Inside axes (rowPoint Xs r)) → ∀ d < fk.D, ∀ x, fk.Inside axes x →
      |∑ p ∈ Finset.range (gridSize (axes g.1)), gridWeight (axes g.1) (coords g.1 x) p * fk.gridExplained axes noExtra g Xs d p -
        fk.crossCov Xs d x ⬝ᵥ (fk.covMat Xs)⁻¹ *ᵥ fk.crossCov Xs d x| ≤ C * sp ^ 3 := by
    by_cases hex : ∃ g, fk.activeDims = [g] ∧ g.1 = List.range P
    · obtain ⟨g, hg, hg1⟩ := hex
      obtain ⟨C, hC, H⟩ := explained_error hr.ready hr.groups hg hg1 hr.sound hX
      refine ⟨C, hC, fun g' hg' _ => ?_⟩
      rw [hg] at hg'
      cases hg'
      exact H
    · exact ⟨0, le_rfl, fun g hg hg1 => absurd ⟨g, hg, hg1⟩ hex⟩
  obtain ⟨C', hC', H'⟩ := hpre
  refine ⟨K + C', by positivity, fun Ys s hs sv m k hm Qs hq hx hone e he r hpr d hd i hi hin => ?_⟩
  obtain ⟨ok, cur, rfl, rfl, rfl, fine, inside⟩ := hm
  have hge := condVar_ge ok.ready.wf ok.data.inputs.len hr.sound hd (queryPoint P Qs d i)
  have hn0 := hr.sound.noise d hd
  have s3 : 0 ≤ s ^ 3 := by positivity
  have fin : ∀ {v : ℝ}, |v - m.fk.condVar m.gp.Xs d (queryPoint P Qs d i)| ≤ (K + C') * s ^ 3 →
      |max 0 v * (normOf m.gp d).1 ^ 2 - m.fk.condVar m.gp.Xs d (queryPoint P Qs d i) * (normOf m.gp d).1 ^ 2| ≤ (K + C') * (normOf m.gp d).1 ^ 2 * s ^ 3 := by
    intro v hv
    rw [← sub_mul, abs_mul, abs_of_nonneg (sq_nonneg (normOf m.gp d).1)]
    have := mul_le_mul_of_nonneg_right (clamp_error hv (by linarith)) (sq_nonneg (normOf m.gp d).1)
    linarith
  have hspoil : m.fk.skiMat m.axesOf m.fk.extraOf m.gp.Xs = m.fk.skiMat m.axesOf noExtra m.gp.Xs := (C44_documented m.fk hr.clean m.axesOf m.gp.Xs d (queryPoint P Qs d i)).2
  cases hmode : m.prediction with
  | exact =>
    obtain ⟨r', h1, h2⟩ := C45_exact sv m P k Qs hq e hmode hr.sound
    rw [hpr] at h1
    cases h1
    rw [(h2 d hd i hi).1, sub_self, abs_zero]
    positivity
  | onTheFly =>
    have hpos : 0 < (queryLens Qs).sum := by
      have hlt : d < (queryLens Qs).length := by
        by_contra hn
        rw [List.getD_eq_default _ _ (by omega)] at hi
        omega
      have := List.single_le_sum (l := queryLens Qs) (by simp) _ (getD_mem_of_lt hlt 0)
      omega
    obtain ⟨r', h1, h2⟩ := C46_on_the_fly sv m P k Qs hq e he hmode (hx (by rw [hmode]; simp)) hr.sound.plain hpos
    rw [hpr] at h1
    cases h1
    rw [h2 d hd i hi]
    refine fin ?_
    have hb : ∀ t, |m.fk.crossCov m.gp.Xs d (queryPoint P Qs d i) t| ≤ A := fun t => HA d hd _ (owner_lt hX t) _ _
    have := HK s hs m.axesOf fine inside _ _ _ _ hb hb hb 0 le_rfl (fun t => by rw [sub_self, abs_zero]; positivity)
      (fun t => by rw [sub_self, abs_zero]; positivity)
    unfold FK.condVar
    rw [hspoil, sub_sub_sub_cancel_left, abs_sub_comm]
    rw [add_zero, mul_one] at this
    refine this.trans (mul_le_mul_of_nonneg_right (by linarith) s3)
  | precompute =>
    obtain ⟨g, hg, hg1⟩ := hone hmode
    obtain ⟨r', h1, h2⟩ := C46_precompute sv m P k Qs hq e he hmode (hx (by rw [hmode]; simp)) hr.sound.plain g hg hg1
    rw [hpr] at h1
    cases h1
    rw [h2 d hd i hi]
    refine fin ?_
    have hge' : ∀ p, m.fk.gridExplained m.axesOf m.fk.extraOf g m.gp.Xs d p = m.fk.gridExplained m.axesOf noExtra g m.gp.Xs d p := by
      intro p
      have e1 : m.fk.gridToData (m.axesOf g.1) m.fk.extraOf g m.gp.Xs d p = m.fk.gridToData (m.axesOf g.1) noExtra g m.gp.Xs d p := by
        funext t
        unfold FK.gridToData
        have : m.fk.extraOf g = noExtra g := by
          unfold FK.extraOf noExtra
          rw [if_neg (hr.clean g (by rw [hg]; simp))]
        rw [this]
      unfold FK.gridExplained
      rw [e1, hspoil]
    simp only [hge']
    have := H' g hg hg1 s hs m.axesOf fine inside d hd _ hin
    unfold FK.condVar
    rw [sub_sub_sub_cancel_left, abs_sub_comm]
    refine this.trans (mul_le_mul_of_nonneg_right (by linarith) s3)

theorem colValues_finite (Xs : List (Arr2 ℝ)) (o : GridOpt) (c : ℕ) : (colValues Xs o c).Finite := by
  have h1 : {x : ℝ | ∃ X ∈ Xs, ∃ i < X.rows, X.get i c = x} = ⋃ X ∈ {X | X ∈ Xs}, (fun i => X.get i c) '' Set.Iio X.rows := by
    ext x
    simp
  have h2 : {x : ℝ | o.at c = some x}.Finite := by
    cases h : o.at c with
    | none => simp
    | some v => exact (Set.finite_singleton v).subset fun x hx => (Option.some.inj hx).symm
  have h3 : {x : ℝ | ∃ X ∈ Xs, ∃ i < X.rows, X.get i c = x}.Finite := by
    rw [h1]
    exact (List.finite_toSet Xs).biUnion fun X _ => (Set.finite_Iio _).image _
  exact h3.union h2

theorem exists_width (P : ℕ) (Xs : List (NDArr ℝ)) (lo hi : GridOpt) : ∃ w, 0 ≤ w ∧ ∀ a : LLGPArgs, a.Xs = Xs → a.lo = lo → a.hi = hi → a.Width P w := by
  have h : ∀ c, ∃ w, 0 ≤ w ∧ ∀ u ∈ colValues (padded P Xs) lo c, ∀ v ∈ colValues (padded P Xs) hi c, v - u ≤ w := by
    intro c
    obtain ⟨b, hb⟩ := (colValues_finite (padded P Xs) lo c).bddBelow
    obtain ⟨t, ht⟩ := (colValues_finite (padded P Xs) hi c).bddAbove
    exact ⟨max 0 (t - b), le_max_left _ _, fun u hu v hv => le_trans (sub_le_sub (ht hv) (hb hu)) (le_max_right _ _)⟩
  choose w h0 hw using h
  refine ⟨∑ c ∈ Finset.range P, w c, Finset.sum_nonneg fun c _ => h0 c, ?_⟩
  rintro a rfl rfl rfl c hc u hu v hv
  exact (hw c u hu v hv).trans (Finset.single_le_sum (f := w) (fun c _ => h0 c) (Finset.mem_range.2 hc))

/-- C72: as the grids are refined, everything a model with exact linear solves reports converges to the exact Gaussian process: for given data, bounds and
parameters there is a grid size from which on the log likelihood, and the means and variances at all points between inputs or bounds, are within `ε` of those of
the exact model. -/
theorem C72_converges (P : ℕ) (hP : 0 < P) (fk : FK) (hr : fk.Regular P) (Xs Ys : List (NDArr ℝ)) (normalize : Bool) (lo hi : GridOpt) (ε : ℝ) (hε : 0 < ε) :
    ∃ N, 0 < N ∧ ∀ a m sv k, a.Xs = Xs → a.Ys = Ys → a.normalize = normalize → a.lo = lo → a.hi = hi → a.Cells P N → m.MadeFrom P a → m.OK P → m.fk = fk →
      sv.Fit → m.Current sv k → (∀ tol, ExactSolves sv k.approx.K m.n (m.fk.skiFull m.axesOf m.fk.extraOf m.gp.Xs) tol) →
      (∃ l v, m.dense = .ok l ∧ m.logLikelihoodOf l = .ok (some v) ∧ |v - fk.logLik m.gp.Xs m.gp.Ys| ≤ ε) ∧
      ∀ Qs, Asked sv m P k Qs → (m.prediction = .precompute → ∃ g, fk.activeDims = [g] ∧ g.1 = List.range P) → ∀ e, e.Works →
        ∀ r, m.gp.predict (m.rawPredict sv e) Qs = .ok r → ∀ d < fk.D, ∀ i < (queryLens Qs).getD d 0, a.Surrounds P (queryPoint P Qs d i) →
          |(r.1.getD d []).getD i 0 - (fk.condMean m.gp.Xs m.gp.Ys d (queryPoint P Qs d i) * (normOf m.gp d).1 + (normOf m.gp d).2)| ≤ ε ∧
          |(r.2.getD d []).getD i 0 - fk.condVar m.gp.Xs d (queryPoint P Qs d i) * (normOf m.gp d).1 ^ 2| ≤ ε := by
  cases hgp : multiGPNew Xs Ys normalize with
  | error err =>
    refine ⟨1, one_pos, ?_⟩
    rintro a m sv k rfl rfl rfl rfl rfl - ⟨fk0, m0, hd, hm, -⟩
    obtain ⟨-, -, -, -, -, h⟩ := init_fields hm
    rw [h] at hgp
    cases hgp
  | ok gp =>
    by_cases hX : gp.Xs.length = fk.D
    swap
    · refine ⟨1, one_pos, ?_⟩
      rintro a m sv k rfl rfl rfl rfl rfl - ⟨fk0, m0, hd, hm, e1, -⟩ hok rfl
      obtain ⟨-, -, -, -, -, h⟩ := init_fields hm
      rw [h] at hgp
      cases hgp
      rw [← e1] at hX
      exact absurd hok.data.inputs.len hX
    obtain ⟨w, hw0, hw⟩ := exists_width P Xs lo hi
    obtain ⟨C1, hC1, H1⟩ := C72_log_likelihood fk P hr gp.Xs gp.Ys hX
    obtain ⟨C2, hC2, H2⟩ := C72_mean fk P hr gp.Xs gp.Ys hX
    obtain ⟨C3, hC3, H3⟩ := C72_variance fk P hr gp.Xs hX
    set T := C1 + ∑ d ∈ Finset.range fk.D, (C2 * |(normOf gp d).1| + C3 * (normOf gp d).1 ^ 2) with hT
    have hsum : ∀ d < fk.D, C2 * |(normOf gp d).1| + C3 * (normOf gp d).1 ^ 2 ≤ T := by
      intro d hd
      have := Finset.single_le_sum (f := fun d => C2 * |(normOf gp d).1| + C3 * (normOf gp d).1 ^ 2) (s := Finset.range fk.D) (fun _ _ => by positivity)
        (Finset.mem_range.2 hd)
      linarith
    have hT1 : C1 ≤ T := by
      have : 0 ≤ ∑ d ∈ Finset.range fk.D, (C2 * |(normOf gp d).1| + C3 * (normOf gp d).1 ^ 2) := Finset.sum_nonneg fun _ _ => by positivity
      linarith
    have hT0 : 0 ≤ T := hC1.trans hT1
    obtain ⟨N, hN⟩ := exists_nat_gt (T * (5 / 4 * w) ^ 3 / ε)
    refine ⟨N + 1, by omega, ?_⟩
    rintro a m sv k rfl rfl rfl rfl rfl hcells hmade hok rfl hfit hcur hex
    have hgm : m.gp = gp := by
      obtain ⟨fk0, m0, hd, hm, e1, -⟩ := hmade
      obtain ⟨-, -, -, -, -, h⟩ := init_fields hm
      rw [h] at hgp
      cases hgp
      exact e1
    obtain ⟨hfine, hin, -, hrow⟩ := MadeFrom.grids hP hmade (hw a rfl rfl rfl) (Nat.succ_pos N) hcells
    set s := 5 / 4 * (w / ((N + 1 : ℕ) : ℝ)) with hs
    have hs0 : 0 ≤ s := by positivity
    have hsmall : T * s ^ 3 ≤ ε := by
      have n1 : (1 : ℝ) ≤ ((N + 1 : ℕ) : ℝ) := by push_cast; linarith [(Nat.cast_nonneg N : (0 : ℝ) ≤ N)]
      have e : T * s ^ 3 = T * (5 / 4 * w) ^ 3 / ((N + 1 : ℕ) : ℝ) ^ 3 := by
        rw [hs]; field_simp
      rw [e, div_le_iff₀ (by positivity)]
      rw [div_lt_iff₀ hε] at hN
      have n3 : ((N + 1 : ℕ) : ℝ) ≤ ((N + 1 : ℕ) : ℝ) ^ 3 := by
        have := pow_le_pow_right₀ n1 (show 1 ≤ 3 by norm_num)
        rwa [pow_one] at this
      have : (N : ℝ) * ε ≤ ε * ((N + 1 : ℕ) : ℝ) ^ 3 := by
        have h1 : (N : ℝ) ≤ ((N + 1 : ℕ) : ℝ) ^ 3 := le_trans (by push_cast; linarith) n3
        nlinarith
      linarith
    have hle : ∀ {c x : ℝ}, c ≤ T → x ≤ c * s ^ 3 → x ≤ ε := fun hc hx => hx.trans ((mul_le_mul_of_nonneg_right hc (by positivity)).trans hsmall)
    subst hgm
    have href : Refined sv m.fk P m.gp.Xs m.gp.Ys s m k := ⟨hok, hcur, rfl, rfl, rfl, hfine, hrow⟩
    constructor
    · obtain ⟨l, v, h1, h2, h3⟩ := H1 s hs0 sv m k hfit href (hex _)
      exact ⟨l, v, h1, h2, hle hT1 h3⟩
    · intro Qs hq hone e he r hpr d hd i hi hsur
      have hsd := hsum d hd
      have p1 : 0 ≤ C2 * |(normOf m.gp d).1| := by positivity
      have p2 : 0 ≤ C3 * (normOf m.gp d).1 ^ 2 := by positivity
      exact ⟨hle (by linarith) (H2 s hs0 sv m k href Qs hq (hex _) e r hpr d hd i hi (hin _ hsur)),
        hle (by linarith) (H3 _ s hs0 sv m k href Qs hq (fun _ => hex _) hone e he r hpr d hd i hi (hin _ hsur))⟩

/-! ### the hypotheses can be met -/

/-- the queries of the examples: three points between the inputs -/
noncomputable def exampleQueries : List (NDArr ℝ) := [⟨[1, 2], [1 / 2, 1 / 4]⟩, ⟨[2, 2], [0, 1, 1, 1 / 3]⟩]

/-- one set of parameters for two outputs with two-dimensional inputs, and up-to-date models with these parameters, the same data and grids of every size,
in each mode -/
theorem exists_refined : ∃ fk : FK, fk.Regular 2 ∧ fk.D = 2 ∧ (∃ g, fk.activeDims = [g] ∧ g.1 = List.range 2) ∧ ∀ (mode : PredMode) (N : ℕ), 0 < N →
    ∃ (a : LLGPArgs) (m : LLGP) (k : LLKernel), a.Xs = [⟨[2, 2], [0, 0, 1, 1]⟩, ⟨[2, 2], [0, 1, 1, 0]⟩] ∧ a.Ys = [⟨[2], [1, 3]⟩, ⟨[2], [5, 7]⟩] ∧ a.normalize = true ∧
      a.lo = .none ∧ a.hi = .none ∧ a.Cells 2 N ∧ a.Width 2 1 ∧ m.MadeFrom 2 a ∧ m.fk = fk ∧ m.prediction = mode ∧ Asked exactSolvers m 2 k exampleQueries ∧
      (∀ tol, ExactSolves exactSolvers k.approx.K m.n (m.fk.skiFull m.axesOf m.fk.extraOf m.gp.Xs) tol) ∧
      ∀ d < 2, ∀ i < (queryLens exampleQueries).getD d 0, a.Surrounds 2 (queryPoint 2 exampleQueries d i) := by
  obtain ⟨fk0, ⟨hk, hκ, hn, hD, hL, -⟩, hdoc⟩ := exists_documented_grid
  obtain ⟨m1, -, o1, -, s1, d1, -, a1, l1, i1⟩ := model_of_documented (mode := .exact) (hdoc .exact false none (by simp)) rfl rfl hk hκ hn hD rfl
  refine ⟨m1.fk, ⟨o1.ready, o1.groups, s1, fun g hg => ?_, fun g hg => ?_⟩, d1, ⟨_, a1, rfl⟩, fun mode N hN => ?_⟩
  · rw [a1] at hg
    simp only [List.mem_cons, List.not_mem_nil, or_false] at hg
    subst hg
    simp
  · rw [a1] at hg
    simp only [List.mem_cons, List.not_mem_nil, or_false] at hg
    subst hg
    rintro ⟨-, h | h⟩
    · have := h 0 (by simp)
      unfold FK.IsIndep at this
      rw [l1, hL] at this
      omega
    · have := (h 0 (by simp)).1
      rw [l1, hL] at this
      omega
  · have hd := hdoc mode false (some N) (by simp; omega)
    obtain ⟨m, h1, h2, h3, h4, h5, -, -, -, i2⟩ := model_of_documented (mode := mode) hd rfl rfl hk hκ hn hD rfl
    rw [i1] at i2
    have hfk : m1.fk = m.fk := Except.ok.inj i2
    obtain ⟨k, hc, hok⟩ := exists_current exactSolvers_fit h2
    have hpad : padded 2 [(⟨[2, 2], [0, 0, 1, 1]⟩ : NDArr ℝ), ⟨[2, 2], [0, 1, 1, 0]⟩] = [⟨2, 2, [0, 0, 1, 1]⟩, ⟨2, 2, [0, 1, 1, 0]⟩] := by simp [padded]
    have hval : ∀ c < 2, ∀ u ∈ colValues (padded 2 [(⟨[2, 2], [0, 0, 1, 1]⟩ : NDArr ℝ), ⟨[2, 2], [0, 1, 1, 0]⟩]) .none c, 0 ≤ u ∧ u ≤ 1 := by
      rintro c hc u (⟨X, hX, i, hi, rfl⟩ | h)
      · rw [hpad] at hX
        simp only [List.mem_cons, List.not_mem_nil, or_false] at hX
        rcases hX with rfl | rfl
        · have hi : i < 2 := hi
          interval_cases i <;> interval_cases c <;> norm_num [Arr2.get]
        · have hi : i < 2 := hi
          interval_cases i <;> interval_cases c <;> norm_num [Arr2.get]
      · cases h
    have hends : ∀ c < 2, (0 : ℝ) ∈ colValues (padded 2 [(⟨[2, 2], [0, 0, 1, 1]⟩ : NDArr ℝ), ⟨[2, 2], [0, 1, 1, 0]⟩]) .none c ∧
        (1 : ℝ) ∈ colValues (padded 2 [(⟨[2, 2], [0, 0, 1, 1]⟩ : NDArr ℝ), ⟨[2, 2], [0, 1, 1, 0]⟩]) .none c := by
      intro c hc
      rw [hpad]
      refine ⟨.inl ⟨⟨2, 2, [0, 0, 1, 1]⟩, by simp, 0, by simp, ?_⟩, .inl ⟨⟨2, 2, [0, 0, 1, 1]⟩, by simp, 1, by simp, ?_⟩⟩
      · show Arr2.get ⟨2, 2, [0, 0, 1, 1]⟩ 0 c = 0
        interval_cases c <;> norm_num [Arr2.get]
      · interval_cases c <;> norm_num [Arr2.get]
    refine ⟨_, { m with kernel := some k }, k, rfl, rfl, rfl, rfl, rfl, ?_, ?_, ⟨_, _, hd, h1, rfl, rfl, rfl⟩, hfk.symm, h3,
      ⟨exactSolvers_fit, hok, hc, ⟨by rw [show LLGP.fk { m with kernel := some k } = m.fk from rfl, h5]; rfl, ?_⟩, ?_⟩, ?_, ?_⟩
    · intro c hc n hn
      have hn : ([(N : ℝ), N] : List ℝ).getD c 0 = n := hn
      have : (N : ℝ) = n := by interval_cases c <;> exact hn
      exact le_of_eq (by exact_mod_cast this)
    · intro c hc u hu v hv
      linarith [(hval c hc u hu).1, (hval c hc v hv).2]
    · intro X hX
      simp only [exampleQueries, List.mem_cons, List.not_mem_nil, or_false] at hX
      rcases hX with rfl | rfl
      · exact ⟨1, .inr rfl⟩
      · exact ⟨2, .inr rfl⟩
    · intro X hX
      simp only [exampleQueries, List.mem_cons, List.not_mem_nil, or_false] at hX
      rcases hX with rfl | rfl <;> rfl
    · exact fun tol => exactSolvers_exact (current_facts exactSolvers_fit hok hc).1 tol
    · intro d hd i hi c hc
      have key : 0 ≤ queryPoint 2 exampleQueries d i c ∧ queryPoint 2 exampleQueries d i c ≤ 1 := by
        interval_cases d
        · have hi : i < 1 := hi
          interval_cases i <;> interval_cases c <;> norm_num [queryPoint, exampleQueries]
        · have hi : i < 2 := hi
          interval_cases i <;> interval_cases c <;> norm_num [queryPoint, exampleQueries]
      exact ⟨⟨0, (hends c hc).1, key.1⟩, ⟨1, (hends c hc).2, key.2⟩⟩

/-- C71 and the bounds of C72 apply: for every grid size there is such a model, with all inputs and queries inside its grids -/
example : ∃ (fk : FK) (Xs : List (Arr2 ℝ)) (Ys : List (List ℝ)), fk.Regular 2 ∧ Xs.length = fk.D ∧ ∀ N, 0 < N → ∃ (m : LLGP) (k : LLKernel),
    Refined exactSolvers fk 2 Xs Ys (5 / 4 * (1 / (N : ℕ))) m k ∧ Asked exactSolvers m 2 k exampleQueries ∧
    (∀ tol, ExactSolves exactSolvers k.approx.K m.n (m.fk.skiFull m.axesOf m.fk.extraOf m.gp.Xs) tol) ∧
    ∀ d < 2, ∀ i < (queryLens exampleQueries).getD d 0, fk.Inside m.axesOf (queryPoint 2 exampleQueries d i) := by
  obtain ⟨fk, hr, hD, -, H⟩ := exists_refined
  obtain ⟨a1, m1, k1, x1, y1, z1, -, -, -, -, mf1, f1, -, q1, -, -⟩ := H .onTheFly 1 one_pos
  refine ⟨fk, m1.gp.Xs, m1.gp.Ys, hr, by rw [← f1]; exact q1.ok.data.inputs.len, fun N hN => ?_⟩
  obtain ⟨a, m, k, x2, y2, z2, -, -, hc, hw, mf, rfl, -, hq, hex, hs⟩ := H .onTheFly N hN
  obtain ⟨hfine, hin, -, hrow⟩ := MadeFrom.grids (by norm_num) mf hw hN hc
  have hgp : m.gp = m1.gp := by
    obtain ⟨_, n1, -, e1, e2, -⟩ := mf1
    obtain ⟨_, n2, -, e3, e4, -⟩ := mf
    obtain ⟨-, -, -, -, -, g1⟩ := init_fields e1
    obtain ⟨-, -, -, -, -, g2⟩ := init_fields e3
    rw [x1, y1, z1] at g1
    rw [x2, y2, z2, g1] at g2
    rw [e2, e4]
    exact (Except.ok.inj g2).symm
  exact ⟨m, k, ⟨hq.ok, hq.current, rfl, by rw [hgp], by rw [hgp], hfine, by rw [← hgp]; exact hrow⟩, hq, hex, fun d hd i hi => hin _ (hs d hd i hi)⟩

/-- C72 applies: however small `ε`, some such model predicts three values, all within `ε` of the exact ones -/
example (mode : PredMode) (ε : ℝ) (hε : 0 < ε) (e : Env) (he : e.Works) : ∃ (m : LLGP) (k : LLKernel) (r : Predicted), m.prediction = mode ∧ m.Current exactSolvers k ∧
    m.gp.predict (m.rawPredict exactSolvers e) exampleQueries = .ok r ∧ r.1.map List.length = [1, 2] ∧
    |(r.1.getD 1 []).getD 0 0 - (m.fk.condMean m.gp.Xs m.gp.Ys 1 (queryPoint 2 exampleQueries 1 0) * (normOf m.gp 1).1 + (normOf m.gp 1).2)| ≤ ε := by
  obtain ⟨fk, hr, hD, hg, H⟩ := exists_refined
  obtain ⟨N, hN, HN⟩ := C72_converges 2 (by norm_num) fk hr [⟨[2, 2], [0, 0, 1, 1]⟩, ⟨[2, 2], [0, 1, 1, 0]⟩] [⟨[2], [1, 3]⟩, ⟨[2], [5, 7]⟩] true .none .none ε hε
  obtain ⟨a, m, k, h1, h2, h3, h4, h5, hc, hw, mf, rfl, hm, hq, hex, hs⟩ := H mode N hN
  obtain ⟨c1, c2⟩ := C43_returns _ m 2 k _ hq e he
  have hcan : m.CanPredict 2 exampleQueries := by
    unfold LLGP.CanPredict
    cases mode with
    | onTheFly => rw [hm]; simp [queryLens, exampleQueries]
    | precompute => rw [hm]; exact hg
    | exact => rw [hm]; exact covMat_posDef hq.ok.ready.wf hq.ok.data.inputs.len hr.sound.kernels hr.sound.kappa hr.sound.noise
  obtain ⟨r, hpr⟩ := c2.2 ⟨hr.sound.plain, hcan⟩
  obtain ⟨-, H2⟩ := HN a m exactSolvers k h1 h2 h3 h4 h5 hc mf hq.ok rfl exactSolvers_fit hq.current hex
  exact ⟨m, k, r, hm, hq.current, hpr, (c1 r hpr).means,
    (H2 exampleQueries hq (fun _ => hg) e he r hpr 1 (by rw [hD]; norm_num) 0 (by simp [queryLens, exampleQueries]) (hs 1 (by norm_num) 0 (by simp [queryLens, exampleQueries]))).1⟩

end Verif
