import Verif.Spec.Influence
import Verif.Proofs.Measured

/-! How much a change of the observed values can change. -/

namespace Verif

open Matrix

variable {n : ℕ}

/-- the weights of the observations in a conditional mean are bounded -/
theorem weights_bounded {K : Matrix (Fin n) (Fin n) ℝ} {G : Fin n → Fin n → ℝ} {N c : Fin n → ℝ} {v : ℝ} (hK : IsUnit K.det) (hG : ∀ i j, K i j = G i j + if i = j then N i else 0)
    (hJ : ∀ u : Fin n → ℝ, 0 ≤ (∑ i, ∑ j, u i * G i j * u j) - 2 * (∑ i, u i * c i) + v) : ∑ i, N i * (K⁻¹ *ᵥ c) i ^ 2 ≤ v / 4 := by
  set w := K⁻¹ *ᵥ c with hw
  have hKw : K *ᵥ w = c := by rw [hw, Matrix.mulVec_mulVec, Matrix.mul_nonsing_inv _ hK, Matrix.one_mulVec]
  have h1 : ∑ i, ∑ j, w i * G i j * w j = (∑ i, w i * c i) - ∑ i, N i * w i ^ 2 := by
    rw [← Finset.sum_sub_distrib]
    refine Finset.sum_congr rfl fun i _ => ?_
    have e1 : c i = ∑ j, K i j * w j := (congrFun hKw i).symm
    have e2 : ∑ j, K i j * w j = (∑ j, G i j * w j) + N i * w i := by
      simp only [hG, add_mul, Finset.sum_add_distrib, ite_mul, zero_mul, Finset.sum_ite_eq, Finset.mem_univ, if_true]
    rw [e1, e2, mul_add, Finset.mul_sum]
    rw [show w i * (N i * w i) = N i * w i ^ 2 by ring, add_sub_cancel_right]
    exact Finset.sum_congr rfl fun j _ => by ring
  have h2 := hJ fun i => 2 * w i
  have e3 : ∑ i, ∑ j, 2 * w i * G i j * (2 * w j) = 4 * ∑ i, ∑ j, w i * G i j * w j := by
    rw [Finset.mul_sum]
    refine Finset.sum_congr rfl fun i _ => ?_
    rw [Finset.mul_sum]
    exact Finset.sum_congr rfl fun j _ => by ring
  have e4 : ∑ i, 2 * w i * c i = 2 * ∑ i, w i * c i := by
    rw [Finset.mul_sum]
    exact Finset.sum_congr rfl fun i _ => by ring
  rw [e3, e4, h1] at h2
  linarith

theorem cauchy_relative {N u δ : Fin n → ℝ} (hN : ∀ i, 0 < N i) : (∑ i, u i * δ i) ^ 2 ≤ (∑ i, N i * u i ^ 2) * ∑ i, δ i ^ 2 / N i := by
  have h := Finset.sum_mul_sq_le_sq_mul_sq Finset.univ (fun i => Real.sqrt (N i) * u i) (fun i => δ i / Real.sqrt (N i))
  have e1 : ∀ i, Real.sqrt (N i) * u i * (δ i / Real.sqrt (N i)) = u i * δ i := fun i => by
    have := (Real.sqrt_pos.2 (hN i)).ne'
    field_simp
  have e2 : ∀ i, (Real.sqrt (N i) * u i) ^ 2 = N i * u i ^ 2 := fun i => by rw [mul_pow, Real.sq_sqrt (hN i).le]
  have e3 : ∀ i, (δ i / Real.sqrt (N i)) ^ 2 = δ i ^ 2 / N i := fun i => by rw [div_pow, Real.sq_sqrt (hN i).le]
  simp only [e1, e2, e3] at h
  exact h

theorem noise_split (fk : FK) (axes : List ℕ → List (List ℝ)) (extra : List ℕ × List ℕ → ℝ) (Xs : List (Arr2 ℝ)) (i j : Fin (Xs.map Arr2.rows).sum) :
    fk.skiMat axes extra Xs i j = fk.skiCov axes extra (ownerOf (Xs.map Arr2.rows) i) (ownerOf (Xs.map Arr2.rows) j) (rowPoint Xs i) (rowPoint Xs j) +
      if i = j then fk.noiseRows Xs i else 0 := by
  unfold FK.skiMat fnMatrix FK.skiFull FK.noiseRows
  simp only
  congr 1
  by_cases e : i = j
  · rw [if_pos e, if_pos (by rw [e])]
  · rw [if_neg e, if_neg fun h => e (Fin.ext h)]

/-- a conditional mean, as a function of the values -/
theorem mean_bounded {m : LLGP} {P : ℕ} (h : m.OK P) (hs : m.fk.Sound) (hn : ∀ ad ∈ m.fk.activeDims.map Prod.fst, ad.Nodup) {d : ℕ} (hd : d < m.fk.D) (x : ℕ → ℝ)
    (δ : Fin (m.gp.Xs.map Arr2.rows).sum → ℝ) :
    (m.fk.skiCross m.axesOf m.fk.extraOf m.gp.Xs d x ⬝ᵥ (m.fk.skiMat m.axesOf m.fk.extraOf m.gp.Xs)⁻¹ *ᵥ δ) ^ 2 ≤
      m.fk.skiCov m.axesOf m.fk.extraOf d d x x / 4 * ∑ i, δ i ^ 2 / m.fk.noiseRows m.gp.Xs i := by
  have hpd := h.ski_posDef hs hn
  have hu := (Matrix.isUnit_iff_isUnit_det _).1 hpd.isUnit
  have hp := noiseRows_pos h hs
  have hw := weights_bounded hu (noise_split m.fk m.axesOf m.fk.extraOf m.gp.Xs) (ski_joint h hs hn hd x)
  have e : m.fk.skiCross m.axesOf m.fk.extraOf m.gp.Xs d x ⬝ᵥ (m.fk.skiMat m.axesOf m.fk.extraOf m.gp.Xs)⁻¹ *ᵥ δ =
      ∑ i, ((m.fk.skiMat m.axesOf m.fk.extraOf m.gp.Xs)⁻¹ *ᵥ m.fk.skiCross m.axesOf m.fk.extraOf m.gp.Xs d x) i * δ i := by
    have hsym : ((m.fk.skiMat m.axesOf m.fk.extraOf m.gp.Xs)⁻¹)ᵀ = (m.fk.skiMat m.axesOf m.fk.extraOf m.gp.Xs)⁻¹ := by
      rw [Matrix.transpose_nonsing_inv, show (m.fk.skiMat m.axesOf m.fk.extraOf m.gp.Xs)ᵀ = _ from (by simpa using hpd.1 : (m.fk.skiMat m.axesOf m.fk.extraOf m.gp.Xs).IsSymm)]
    rw [dotProduct_mulVec, ← mulVec_transpose, hsym]
    rfl
  rw [e]
  exact (cauchy_relative hp).trans (mul_le_mul_of_nonneg_right hw (Finset.sum_nonneg fun i _ => div_nonneg (sq_nonneg _) (hp i).le))

/-- a positive semi-definite function of the distance is largest at zero -/
theorem psd_le_zero {f : ℝ → ℝ} {ad : List ℕ} (hf : ∀ (m : ℕ) (x : Fin m → ℕ → ℝ), (Matrix.of fun i j => f (distOn ad (x i) (x j))).PosSemidef) (x z : ℕ → ℝ) :
    |f (distOn ad x z)| ≤ f 0 := by
  have h := hf 2 ![x, z]
  have hz : distOn ad z x = distOn ad x z := by
    unfold distOn
    congr 2
    exact List.map_congr_left fun c _ => by ring
  have key : ∀ s : ℝ, 0 ≤ f 0 + 2 * s * f (distOn ad x z) + s ^ 2 * f 0 := fun s => by
    have q := h.dotProduct_mulVec_nonneg ![1, s]
    simp [dotProduct, mulVec, Fin.sum_univ_two, distOn_self, hz] at q
    linarith
  rw [abs_le]
  constructor
  · have := key 1
    linarith
  · have := key (-1)
    linarith

theorem skiKernel_le {axes : List (List ℝ)} {ad : List ℕ} (hn : ad.Nodup) (hl : axes.length = ad.length) (hpos : ∀ a ∈ axes, 0 < a.length) {f : ℝ → ℝ}
    (hf : ∀ (m : ℕ) (x : Fin m → ℕ → ℝ), (Matrix.of fun i j => f (distOn ad (x i) (x j))).PosSemidef) (x : ℕ → ℝ) :
    skiKernel axes ad f x x ≤ (25 / 16) ^ ad.length * f 0 := by
  have hw := gridWeight_abs axes hpos (coords ad x)
  have h0 : 0 ≤ f 0 := (abs_nonneg _).trans (psd_le_zero hf x x)
  have h1 : skiKernel axes ad f x x ≤ ∑ p ∈ Finset.range (gridSize axes), ∑ q ∈ Finset.range (gridSize axes),
      |gridWeight axes (coords ad x) p| * f 0 * |gridWeight axes (coords ad x) q| := by
    unfold skiKernel
    refine Finset.sum_le_sum fun p _ => Finset.sum_le_sum fun q _ => ?_
    refine (le_abs_self _).trans ?_
    rw [abs_mul, abs_mul]
    have hd : |f (gridDistance axes p q)| ≤ f 0 := by
      have := psd_le_zero hf (liftPoint ad (gridPoint axes p)) (liftPoint ad (gridPoint axes q))
      rw [distOn_lift hn] at this
      unfold gridDistance
      rwa [hl]
    exact mul_le_mul_of_nonneg_right (mul_le_mul_of_nonneg_left hd (abs_nonneg _)) (abs_nonneg _)
  have h2 : ∑ p ∈ Finset.range (gridSize axes), ∑ q ∈ Finset.range (gridSize axes), |gridWeight axes (coords ad x) p| * f 0 * |gridWeight axes (coords ad x) q| =
      (∑ p ∈ Finset.range (gridSize axes), |gridWeight axes (coords ad x) p|) * (∑ p ∈ Finset.range (gridSize axes), |gridWeight axes (coords ad x) p|) * f 0 := by
    rw [Finset.sum_mul_sum, Finset.sum_mul]
    refine Finset.sum_congr rfl fun p _ => ?_
    rw [Finset.sum_mul]
    exact Finset.sum_congr rfl fun q _ => by ring
  rw [h2] at h1
  refine h1.trans (mul_le_mul_of_nonneg_right ?_ h0)
  have hS : 0 ≤ ∑ p ∈ Finset.range (gridSize axes), |gridWeight axes (coords ad x) p| := Finset.sum_nonneg fun _ _ => abs_nonneg _
  rw [show (25 / 16 : ℝ) ^ ad.length = (5 / 4) ^ axes.length * (5 / 4) ^ axes.length by rw [← mul_pow, hl]; norm_num]
  exact mul_le_mul hw hw hS (by positivity)

theorem nodup_length_le {ad : List ℕ} (hn : ad.Nodup) {P : ℕ} (h : ∀ c ∈ ad, c < P) : ad.length ≤ P := by
  have h1 : ad.toFinset ⊆ Finset.range P := fun c hc => Finset.mem_range.2 (h c (List.mem_toFinset.1 hc))
  have := Finset.card_le_card h1
  rwa [List.toFinset_card_of_nodup hn, Finset.card_range] at this

/-- the variance of the latent function under the interpolated covariance -/
theorem skiCov_le {m : LLGP} {P : ℕ} (h : m.OK P) (hs : m.fk.Sound) (hn : ∀ ad ∈ m.fk.activeDims.map Prod.fst, ad.Nodup) {d : ℕ} (hd : d < m.fk.D) (x : ℕ → ℝ) :
    m.fk.skiCov m.axesOf m.fk.extraOf d d x x ≤ m.fk.latentBound P d x := by
  have ha : ∀ ad ∈ m.fk.activeDims.map Prod.fst, (m.axesOf ad).length = ad.length ∧ (∀ a ∈ m.axesOf ad, 0 < a.length) ∧ ad.length ≤ P := fun ad had => by
    have hl := nodup_length_le (hn ad had) (h.ready.bound ad had)
    obtain ⟨g, hg, rfl⟩ := List.mem_map.1 had
    obtain ⟨gg, d1, d2, d3, d4⟩ := h.mem_grids hg
    rw [d4]
    exact ⟨d3.axes, fun a ha => by have := d3.size a ha; omega, hl⟩
  unfold FK.latentBound
  rw [skiCov_kernels h.ready h.groups, mul_add, cov_self, Finset.mul_sum]
  refine add_le_add (Finset.sum_le_sum fun q hq => ?_) ?_
  · have hq : q < m.fk.Q := Finset.mem_range.1 hq
    obtain ⟨ad, had, hmem⟩ := h.ready.dims _ (getD_mem_of_lt hq (.identity none))
    have hkd : m.fk.kdims q = ad := by unfold FK.kdims; rw [had]; rfl
    obtain ⟨a1, a2, a3⟩ := ha ad hmem
    have hB : 0 ≤ m.fk.B q d d := by
      have := (B_psd h.ready.wf hq (hs.kappa q hq)).diag_nonneg (i := ⟨d, hd⟩)
      exact this
    have h1 := skiKernel_le (axes := m.axesOf (m.fk.kdims q)) (by rw [hkd]; exact hn ad hmem) (by rw [hkd]; exact a1) (by rw [hkd]; exact a2) (hs.kernels q hq) x
    have h0 : 0 ≤ (m.fk.kernels.getD q (.identity none)).doc 0 := (abs_nonneg _).trans (psd_le_zero (hs.kernels q hq) x x)
    calc _ ≤ m.fk.B q d d * ((25 / 16) ^ (m.fk.kdims q).length * (m.fk.kernels.getD q (.identity none)).doc 0) := mul_le_mul_of_nonneg_left h1 hB
      _ ≤ m.fk.B q d d * ((25 / 16) ^ P * (m.fk.kernels.getD q (.identity none)).doc 0) :=
        mul_le_mul_of_nonneg_left (mul_le_mul_of_nonneg_right (pow_le_pow_right₀ (by norm_num) (by rw [hkd]; exact a3)) h0) hB
      _ = _ := by ring
  · unfold FK.extraPart
    rw [← List.sum_map_mul_left]
    refine List.sum_le_sum fun g hg => ?_
    obtain ⟨a1, a2, a3⟩ := ha g.1 (List.mem_map.2 ⟨g, hg, rfl⟩)
    have he := extraOf_nonneg m.fk g
    have hw := gridWeight_abs (m.axesOf g.1) a2 (coords g.1 x)
    have e1 : ∀ p ∈ Finset.range (gridSize (m.axesOf g.1)), ∑ q ∈ Finset.range (gridSize (m.axesOf g.1)), gridWeight (m.axesOf g.1) (coords g.1 x) p *
        (if d = d ∧ p = q then m.fk.extraOf g else 0) * gridWeight (m.axesOf g.1) (coords g.1 x) q ≤
        ∑ q ∈ Finset.range (gridSize (m.axesOf g.1)), |gridWeight (m.axesOf g.1) (coords g.1 x) p| * m.fk.extraOf g * |gridWeight (m.axesOf g.1) (coords g.1 x) q| := fun p _ => by
      refine Finset.sum_le_sum fun q _ => (le_abs_self _).trans ?_
      rw [abs_mul, abs_mul]
      refine mul_le_mul_of_nonneg_right (mul_le_mul_of_nonneg_left ?_ (abs_nonneg _)) (abs_nonneg _)
      split_ifs
      · exact (abs_of_nonneg he).le
      · rw [abs_zero]; exact he
    refine (Finset.sum_le_sum e1).trans ?_
    have h2 : ∑ p ∈ Finset.range (gridSize (m.axesOf g.1)), ∑ q ∈ Finset.range (gridSize (m.axesOf g.1)),
        |gridWeight (m.axesOf g.1) (coords g.1 x) p| * m.fk.extraOf g * |gridWeight (m.axesOf g.1) (coords g.1 x) q| =
        (∑ p ∈ Finset.range (gridSize (m.axesOf g.1)), |gridWeight (m.axesOf g.1) (coords g.1 x) p|) *
          (∑ p ∈ Finset.range (gridSize (m.axesOf g.1)), |gridWeight (m.axesOf g.1) (coords g.1 x) p|) * m.fk.extraOf g := by
      rw [Finset.sum_mul_sum, Finset.sum_mul]
      refine Finset.sum_congr rfl fun p _ => ?_
      rw [Finset.sum_mul]
      exact Finset.sum_congr rfl fun q _ => by ring
    rw [h2]
    refine mul_le_mul_of_nonneg_right ?_ he
    have hS : 0 ≤ ∑ p ∈ Finset.range (gridSize (m.axesOf g.1)), |gridWeight (m.axesOf g.1) (coords g.1 x) p| := Finset.sum_nonneg fun _ _ => abs_nonneg _
    calc _ ≤ (5 / 4 : ℝ) ^ (m.axesOf g.1).length * (5 / 4) ^ (m.axesOf g.1).length := mul_le_mul hw hw hS (by positivity)
      _ = (25 / 16) ^ g.1.length := by rw [← mul_pow, a1]; norm_num
      _ ≤ _ := pow_le_pow_right₀ (by norm_num) a3

/-- the differences of the values of two models, observation by observation -/
theorem change_rows {m m' : LLGP} {P : ℕ} {a a' : LLGPArgs} (ok : m.OK P) (ha : m.MadeFrom P a) (ok' : m'.OK P) (ha' : m'.MadeFrom P a') (hX : a'.Xs = a.Xs) (hXs : m'.gp.Xs = m.gp.Xs) :
    ∑ s : Fin (m.gp.Xs.map Arr2.rows).sum, (toVec (m.gp.Xs.map Arr2.rows).sum m'.gp.Ys.flatten s - toVec (m.gp.Xs.map Arr2.rows).sum m.gp.Ys.flatten s) ^ 2 / m.fk.noiseRows m.gp.Xs s =
      a.changeOf a' m.fk.noise := by
  obtain ⟨r1, r2, r3⟩ := model_rows ok ha
  obtain ⟨s1, s2, s3⟩ := model_rows ok' ha'
  rw [hXs, hX] at s3
  have hXl : (m.gp.Xs.map Arr2.rows).length = a.Xs.length := by rw [r2]; unfold queryLens; rw [List.length_map]
  rw [sum_rows_fin _ _ (fun d i => (a'.level d i - a.level d i) ^ 2 / m.fk.noise.getD d 0) fun d hd i hi => by
    obtain ⟨hlt, q1, q2, -⟩ := r3 d (by rw [← hXl]; exact hd) i (by rw [← r2]; exact hi)
    obtain ⟨hlt', t1, t2, -⟩ := s3 d (by rw [← hXl]; exact hd) i (by rw [← r2]; exact hi)
    refine ⟨hlt, ?_⟩
    rw [q2, t2]
    unfold FK.noiseRows
    simp only
    rw [q1]
    rfl]
  rw [hXl, r2]
  rfl

theorem strength_rows {m : LLGP} {P : ℕ} {a : LLGPArgs} (ok : m.OK P) (ha : m.MadeFrom P a) :
    ∑ s : Fin (m.gp.Xs.map Arr2.rows).sum, toVec (m.gp.Xs.map Arr2.rows).sum m.gp.Ys.flatten s ^ 2 / m.fk.noiseRows m.gp.Xs s = a.strengthOf m.fk.noise := by
  obtain ⟨r1, r2, r3⟩ := model_rows ok ha
  have hXl : (m.gp.Xs.map Arr2.rows).length = a.Xs.length := by rw [r2]; unfold queryLens; rw [List.length_map]
  rw [sum_rows_fin _ _ (fun d i => a.level d i ^ 2 / m.fk.noise.getD d 0) fun d hd i hi => by
    obtain ⟨hlt, q1, q2, -⟩ := r3 d (by rw [← hXl]; exact hd) i (by rw [← r2]; exact hi)
    refine ⟨hlt, ?_⟩
    rw [q2]
    unfold FK.noiseRows
    simp only
    rw [q1]
    rfl]
  rw [hXl, r2]
  rfl

end Verif
