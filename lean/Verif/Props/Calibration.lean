import Verif.Proofs.CalibratedPredictions

/-! C107: predicted quantiles are calibrated. -/

namespace Verif

open MeasureTheory ProbabilityTheory Matrix

theorem common_bound {p : ℕ → ℝ → Prop} (hp : ∀ k δ δ', δ' ≤ δ → p k δ → p k δ') : ∀ n, (∀ k < n, ∃ δ, 0 < δ ∧ p k δ) → ∃ δ, 0 < δ ∧ ∀ k < n, p k δ
  | 0, _ => ⟨1, one_pos, fun k hk => absurd hk (Nat.not_lt_zero k)⟩
  | n + 1, h => by
    obtain ⟨δ, h1, h2⟩ := common_bound hp n fun k hk => h k (by omega)
    obtain ⟨δ', h3, h4⟩ := h n (by omega)
    refine ⟨min δ δ', lt_min h1 h3, fun k hk => ?_⟩
    rcases Nat.lt_succ_iff_lt_or_eq.1 hk with hk | rfl
    · exact hp k _ _ (min_le_left _ _) (h2 k hk)
    · exact hp k _ _ (min_le_right _ _) h4

theorem sqrt_near {a b : ℝ} (hb : 0 < b) : |Real.sqrt a - Real.sqrt b| ≤ |a - b| / Real.sqrt b := by
  have hs : 0 < Real.sqrt b := Real.sqrt_pos.2 hb
  rw [le_div_iff₀ hs]
  rcases le_total 0 a with ha | ha
  · have e : |a - b| = |Real.sqrt a - Real.sqrt b| * (Real.sqrt a + Real.sqrt b) := by
      rw [← abs_of_nonneg (add_nonneg (Real.sqrt_nonneg a) hs.le), ← abs_mul]
      congr 1
      nlinarith [Real.sq_sqrt ha, Real.sq_sqrt hb.le]
    rw [e]
    exact mul_le_mul_of_nonneg_left (by linarith [Real.sqrt_nonneg a]) (abs_nonneg _)
  · rw [Real.sqrt_eq_zero_of_nonpos ha, zero_sub, abs_neg, abs_of_pos hs, Real.mul_self_sqrt hb.le, abs_of_nonpos (by linarith)]
    linarith

/-- all observations of a draw are probably not large -/
theorem draws_bounded (fk : FK) (Xs : List (Arr2 ℝ)) {ε : ℝ} (hε : 0 < ε) :
    ∃ M, 0 ≤ M ∧ ∀ (d : ℕ) (x : ℕ → ℝ) {Ω : Type} [MeasurableSpace Ω] (μ : Measure Ω) (Y : Ω → List (NDArr ℝ)) (new : Ω → ℝ), fk.Draws Xs d x μ Y new →
      μ.real {ω | M < ∑ t, |toVec (Xs.map Arr2.rows).sum ((Y ω).map NDArr.data).flatten t|} ≤ ε := by
  set n := (Xs.map Arr2.rows).sum with hn
  have h1 : ∀ r : Fin n, ∃ M : ℝ, 0 ≤ M ∧ ∀ M', M ≤ M' → (gaussianReal 0 (fk.covMat Xs r r).toNNReal).real {x | M' < |x|} ≤ ε / (n + 1) :=
    fun r => tail_small _ (by positivity)
  choose M hM0 hM using h1
  have hS : 0 ≤ ∑ r, M r := Finset.sum_nonneg fun r _ => hM0 r
  refine ⟨n * ∑ r, M r, by positivity, fun d x Ω _ μ Y new h => ?_⟩
  have hμ : IsProbabilityMeasure μ := law_probability (h.normal 0)
  have hsub : {ω | n * ∑ r, M r < ∑ t, |toVec n ((Y ω).map NDArr.data).flatten t|} ⊆ ⋃ t, {ω | ∑ r, M r < |toVec n ((Y ω).map NDArr.data).flatten t|} := by
    intro ω hω
    by_contra hno
    simp only [Set.mem_iUnion, Set.mem_setOf_eq, not_exists, not_lt] at hno
    have := Finset.sum_le_card_nsmul Finset.univ (fun t => |toVec n ((Y ω).map NDArr.data).flatten t|) _ fun t _ => hno t
    rw [Finset.card_univ, Fintype.card_fin, nsmul_eq_mul] at this
    exact absurd hω (not_lt.2 this)
  refine (measureReal_mono hsub (measure_ne_top _ _)).trans ((measureReal_iUnion_fintype_le _).trans ?_)
  have hone : ∀ t : Fin n, μ.real {ω | ∑ r, M r < |toVec n ((Y ω).map NDArr.data).flatten t|} ≤ ε / (n + 1) := by
    intro t
    refine le_trans (le_of_eq ?_) (hM t _ (Finset.single_le_sum (f := M) (fun r _ => hM0 r) (Finset.mem_univ t)))
    exact law_event (h.coordinate t) (S := {x | ∑ r, M r < |x|}) (measurableSet_lt measurable_const (by fun_prop))
  refine (Finset.sum_le_card_nsmul _ _ _ fun t _ => hone t).trans ?_
  rw [Finset.card_univ, Fintype.card_fin, nsmul_eq_mul, mul_div_assoc', div_le_iff₀ (by positivity)]
  nlinarith

/-- C107: given inputs, bounds, query points, percentages and a precision there is a number of grid cells from which on the following holds. If the observations and a new
observation are drawn from the LMC model with the parameters that the models have, the new observation is below the quantile predicted for it with a probability that is,
up to that precision, the percentage asked for; and it is between two predicted quantiles with a probability that is the difference of their percentages. -/
theorem C107_quantiles (P : ℕ) (hP : 0 < P) (fk : FK) (hr : fk.Regular P) (Xs : List (NDArr ℝ)) (lo hi : GridOpt) (Qs : List (NDArr ℝ)) (hQ : QueriesOK fk.D P Qs)
    (hW : ∀ Q ∈ Qs, Q.WF) (qs : List ℝ) (hq : ∀ q ∈ qs, 0 < q ∧ q < 100) (d : ℕ) (hd : d < fk.D) (j : ℕ) (hj : j < (queryLens Qs).getD d 0)
    (hbt : Between P Xs lo hi (queryPoint P Qs d j)) (ε : ℝ) (hε : 0 < ε) :
    ∃ N, 0 < N ∧ ∀ {Ω : Type} [MeasurableSpace Ω] (μ : Measure Ω) (Y : Ω → List (NDArr ℝ)) (new : Ω → ℝ) (Q : Ω → List (Arr2 ℝ)),
      fk.Draws (padded P Xs) d (queryPoint P Qs d j) μ Y new →
      (∀ᵐ ω ∂μ, Replies P fk Xs lo hi N (Y ω) (.quantiles Qs qs) (.quantiles (Q ω))) →
      (∀ k < qs.length, |μ.real {ω | new ω ≤ ((Q ω).getD d ⟨0, 0, []⟩).get j k} - qs.getD k 0 / 100| ≤ ε) ∧
      ∀ k < qs.length, ∀ l < qs.length, qs.getD k 0 ≤ qs.getD l 0 →
        |μ.real {ω | ((Q ω).getD d ⟨0, 0, []⟩).get j k ≤ new ω ∧ new ω ≤ ((Q ω).getD d ⟨0, 0, []⟩).get j l} - (qs.getD l 0 - qs.getD k 0) / 100| ≤ ε := by
  set x := queryPoint P Qs d j with hx
  set v := fk.condVar (padded P Xs) d x with hv
  by_cases hX : (padded P Xs).length = fk.D
  swap
  · obtain ⟨N, hN, H⟩ := predict_near hP hr Xs lo hi one_pos
    refine ⟨N, hN, fun {Ω} _ μ Y new Q hdr hrep => ?_⟩
    exfalso
    have hμ : IsProbabilityMeasure μ := law_probability (hdr.normal 0)
    obtain ⟨ω, sv, ops, i, a, m, e, h1, h2, h3, h4, h5, h6, h7, h8, h9, h10, h11, h12, h13⟩ := hrep.exists
    exact hX (H sv h1 h2 ops i a m h3 h5 h7 h8 h9 h10 h11 (h12 (by simp))).1
  have hv0 : 0 < v := lt_of_lt_of_le (hr.sound.noise d hd) (condVar_ge hr.ready.wf hX hr.sound hd x)
  have hA := (covMat_posDef hr.ready.wf hX hr.sound.kernels hr.sound.kappa hr.sound.noise).det_pos.ne'.isUnit
  have hvn : v.toNNReal ≠ 0 := by simpa using hv0
  set ν := gaussianReal 0 v.toNNReal with hν
  haveI : NullSingletonClass ν := nullSingletonClass_gaussianReal hvn
  set z : ℕ → ℝ := fun k => normPpf (qs.getD k 0 / 100) with hz
  set c : ℕ → ℝ := fun k => Real.sqrt v * z k with hc
  have hck : ∀ k < qs.length, ν.real (Set.Iic (c k)) = qs.getD k 0 / 100 := by
    intro k hk
    obtain ⟨q1, q2⟩ := hq _ (getD_mem_of_lt hk 0)
    have := cdf_affine 0 hv0 (z k)
    rw [cdf_ppf (by linarith) (by linarith), zero_add, cdf_eq_real] at this
    exact this
  have h3 : 0 < ε / 3 := by positivity
  obtain ⟨δ, hδ, Hδ⟩ := common_bound (p := fun k δ => ν.real (Set.Icc (c k - δ) (c k + δ)) ≤ ε / 3)
    (fun k δ δ' hle h => (measureReal_mono (Set.Icc_subset_Icc (by linarith) (by linarith)) (measure_ne_top _ _)).trans h) qs.length
    fun k _ => point_small ν (c k) h3
  obtain ⟨M, hM, HM⟩ := draws_bounded fk (padded P Xs) h3
  set Z := ∑ k ∈ Finset.range qs.length, |z k| with hZ
  have hZ0 : 0 ≤ Z := Finset.sum_nonneg fun _ _ => abs_nonneg _
  have hsv : 0 < Real.sqrt v := Real.sqrt_pos.2 hv0
  set η := δ / (M + Z / Real.sqrt v + 1) with hη
  have hden : 0 < M + Z / Real.sqrt v + 1 := by positivity
  have hη0 : 0 < η := by positivity
  obtain ⟨N, hN, H⟩ := predict_near hP hr Xs lo hi hη0
  refine ⟨N, hN, fun {Ω} _ μ Y new Q hdr hrep => ?_⟩
  have hμ : IsProbabilityMeasure μ := law_probability (hdr.normal 0)
  have hres := hdr.residual hA
  rw [← hv, ← hν] at hres
  set n := ((padded P Xs).map Arr2.rows).sum with hn
  set bad := {ω | M < ∑ t, |toVec n ((Y ω).map NDArr.data).flatten t|} ∪ {ω | ¬ Replies P fk Xs lo hi N (Y ω) (.quantiles Qs qs) (.quantiles (Q ω))} with hbad
  have hb : μ.real bad ≤ ε / 3 := by
    have h0 : μ.real {ω | ¬ Replies P fk Xs lo hi N (Y ω) (.quantiles Qs qs) (.quantiles (Q ω))} = 0 := by
      unfold Measure.real
      rw [ae_iff.1 hrep]
      rfl
    have := HM d x μ Y new hdr
    exact (measureReal_union_le _ _).trans (by linarith)
  set m0 : Ω → ℝ := fun ω => fk.condMean (padded P Xs) ((Y ω).map NDArr.data) d x with hm0
  have near : ∀ ω, ω ∉ bad → ∀ k < qs.length, |((Q ω).getD d ⟨0, 0, []⟩).get j k - (m0 ω + c k)| ≤ δ := by
    intro ω hω k hk
    have hω1 : ¬ M < ∑ t, |toVec n ((Y ω).map NDArr.data).flatten t| := fun h => hω (.inl h)
    obtain ⟨sv, ops, i, a, m, e, h1, h2, h3, h4, h5, h6, h7, h8, h9, h10, h11, h12, h13⟩ := not_not.1 fun h => hω (.inr h)
    obtain ⟨-, n1, n2, n3⟩ := H sv h1 h2 ops i a m h3 h5 h7 h8 h9 h10 h11 (h12 (by simp))
    obtain ⟨r, r1, r2⟩ := quantiles_from_predict h1 h3 h4 n1 (by rw [h11]; exact hQ) hW h13 (by rw [h11]; exact n2)
    obtain ⟨e1, e2⟩ := n3 e h4 Qs hQ hW r r1 d hd j hj hbt
    rw [r2 d (by rw [h11]; exact hd) j hj k hk]
    rw [h6] at e1
    have e3 := (sqrt_near (a := (r.2.getD d []).getD j 0) hv0).trans (div_le_div_of_nonneg_right e2 hsv.le)
    have hS : ∑ t, |toVec n ((Y ω).map NDArr.data).flatten t| ≤ M := not_lt.1 hω1
    have e4 : |(r.1.getD d []).getD j 0 - m0 ω| ≤ η * M := e1.trans (mul_le_mul_of_nonneg_left hS hη0.le)
    have hzk : |z k| ≤ Z := Finset.single_le_sum (f := fun k => |z k|) (fun _ _ => abs_nonneg _) (Finset.mem_range.2 hk)
    have e5 : |Real.sqrt ((r.2.getD d []).getD j 0) * z k - c k| ≤ η * (Z / Real.sqrt v) := by
      rw [hc]
      simp only
      rw [← sub_mul, abs_mul]
      calc _ ≤ η / Real.sqrt v * Z := mul_le_mul e3 hzk (abs_nonneg _) (by positivity)
        _ = _ := by ring
    have e6 : η * M + η * (Z / Real.sqrt v) ≤ δ := by
      have : η * (M + Z / Real.sqrt v + 1) = δ := by rw [hη]; field_simp
      linarith
    calc _ = |((r.1.getD d []).getD j 0 - m0 ω) + (Real.sqrt ((r.2.getD d []).getD j 0) * z k - c k)| := by congr 1; ring
      _ ≤ _ := (abs_add_le _ _).trans (by linarith)
  set X : Ω → ℝ := fun ω => new ω - m0 ω with hXd
  have hI : ∀ k < qs.length, μ.real {ω | X ω ∈ Set.Icc (c k - δ) (c k + δ)} ≤ ε / 3 := fun k hk => by
    rw [law_event hres measurableSet_Icc]
    exact Hδ k hk
  constructor
  · intro k hk
    refine near_event (F := {ω | X ω ∈ Set.Iic (c k)}) (B := bad ∪ {ω | X ω ∈ Set.Icc (c k - δ) (c k + δ)}) (fun ω hω => ?_) (fun ω hω => ?_) ?_ ?_
    · by_cases hωb : ω ∈ bad
      · exact .inr (.inl hωb)
      have := abs_le.1 (near ω hωb k hk)
      have hω : new ω ≤ _ := hω
      by_cases hle : X ω ≤ c k
      · exact .inl hle
      · refine .inr (.inr ⟨by linarith, ?_⟩)
        show new ω - m0 ω ≤ _
        linarith
    · by_cases hωb : ω ∈ bad
      · exact .inr (.inl hωb)
      have := abs_le.1 (near ω hωb k hk)
      have hω : X ω ≤ c k := hω
      by_cases hle : new ω ≤ ((Q ω).getD d ⟨0, 0, []⟩).get j k
      · exact .inl hle
      · refine .inr (.inr ⟨?_, by linarith⟩)
        show _ ≤ new ω - m0 ω
        linarith
    · exact (measureReal_union_le _ _).trans (by linarith [hI k hk])
    · rw [law_event hres measurableSet_Iic]
      exact hck k hk
  · intro k hk l hl hkl
    refine near_event (F := {ω | X ω ∈ Set.Icc (c k) (c l)}) (B := bad ∪ {ω | X ω ∈ Set.Icc (c k - δ) (c k + δ)} ∪ {ω | X ω ∈ Set.Icc (c l - δ) (c l + δ)})
      (fun ω hω => ?_) (fun ω hω => ?_) ?_ ?_
    · by_cases hωb : ω ∈ bad
      · exact .inr (.inl (.inl hωb))
      have a1 := abs_le.1 (near ω hωb k hk)
      have a2 := abs_le.1 (near ω hωb l hl)
      obtain ⟨b1, b2⟩ := hω
      have hXω : X ω = new ω - m0 ω := rfl
      by_cases g1 : c k ≤ X ω
      · by_cases g2 : X ω ≤ c l
        · exact .inl ⟨g1, g2⟩
        · exact .inr (.inr ⟨by linarith, by linarith⟩)
      · exact .inr (.inl (.inr ⟨by linarith, by linarith⟩))
    · by_cases hωb : ω ∈ bad
      · exact .inr (.inl (.inl hωb))
      have a1 := abs_le.1 (near ω hωb k hk)
      have a2 := abs_le.1 (near ω hωb l hl)
      obtain ⟨b1, b2⟩ := hω
      have hXω : X ω = new ω - m0 ω := rfl
      by_cases g1 : ((Q ω).getD d ⟨0, 0, []⟩).get j k ≤ new ω
      · by_cases g2 : new ω ≤ ((Q ω).getD d ⟨0, 0, []⟩).get j l
        · exact .inl ⟨g1, g2⟩
        · exact .inr (.inr ⟨by linarith, by linarith⟩)
      · exact .inr (.inl (.inr ⟨by linarith, by linarith⟩))
    · exact (measureReal_union_le _ _).trans ((add_le_add (measureReal_union_le _ _) (hI l hl)).trans (by linarith [hI k hk]))
    · rw [law_event hres measurableSet_Icc, ← hν]
      have hz : c k ≤ c l := by
        rcases hkl.lt_or_eq with hlt | heq
        · exact mul_le_mul_of_nonneg_left (ppf_strictMono (by linarith [(hq _ (getD_mem_of_lt hk 0)).1]) (by linarith) (by linarith [(hq _ (getD_mem_of_lt hl 0)).2])).le hsv.le
        · rw [hc, hz]
          simp only
          rw [heq]
      have : ν.real (Set.Icc (c k) (c l)) = ν.real (Set.Iic (c l)) - ν.real (Set.Iic (c k)) := by
        rw [← measureReal_congr (Ioc_ae_eq_Icc (μ := ν) (a := c k) (b := c l)), show Set.Ioc (c k) (c l) = Set.Iic (c l) \ Set.Iic (c k) by ext t; simp [and_comm]]
        exact measureReal_diff (Set.Iic_subset_Iic.2 hz) measurableSet_Iic
      rw [this, hck k hk, hck l hl]
      ring

theorem law_square {Ω : Type} [MeasurableSpace Ω] {μ : Measure Ω} {X : Ω → ℝ} {v : NNReal} (h : μ.map X = gaussianReal 0 v) :
    Integrable (fun ω => X ω ^ 2) μ ∧ ∫ ω, X ω ^ 2 ∂μ = v := by
  have hX := law_aemeasurable h
  have i2 : Integrable (fun x : ℝ => x ^ 2) (gaussianReal 0 v) := by
    have := (memLp_id_gaussianReal (μ := 0) (v := v) 2).integrable_sq
    exact this.congr (ae_of_all _ fun x => by simp)
  have h1 : ∫ x : ℝ, x ∂gaussianReal 0 v = 0 := integral_id_gaussianReal
  have h2 : ∫ x : ℝ, x ^ 2 ∂gaussianReal 0 v = v := by
    have := variance_fun_id_gaussianReal (μ := 0) (v := v)
    rw [variance_eq_integral (by fun_prop)] at this
    simp only [h1, sub_zero] at this
    exact this
  rw [← h] at i2 h2
  rw [integral_map hX (by fun_prop)] at h2
  exact ⟨i2.comp_aemeasurable hX, h2⟩

/-- C107: with fine enough grids the predicted variance is, up to any given precision, the mean squared error of the predicted mean, if the observations and the new
observation are drawn from the LMC model with the parameters that the models have. -/
theorem C107_variance (P : ℕ) (hP : 0 < P) (fk : FK) (hr : fk.Regular P) (Xs : List (NDArr ℝ)) (lo hi : GridOpt) (Qs : List (NDArr ℝ)) (hQ : QueriesOK fk.D P Qs)
    (hW : ∀ Q ∈ Qs, Q.WF) (d : ℕ) (hd : d < fk.D) (j : ℕ) (hj : j < (queryLens Qs).getD d 0) (hbt : Between P Xs lo hi (queryPoint P Qs d j)) (ε : ℝ) (hε : 0 < ε) :
    ∃ N, 0 < N ∧ ∀ {Ω : Type} [MeasurableSpace Ω] (μ : Measure Ω) (Y : Ω → List (NDArr ℝ)) (new : Ω → ℝ) (r : Ω → Predicted),
      fk.Draws (padded P Xs) d (queryPoint P Qs d j) μ Y new → (∀ᵐ ω ∂μ, Replies P fk Xs lo hi N (Y ω) (.predict Qs) (.predicted (r ω))) →
      AEStronglyMeasurable (fun ω => ((r ω).1.getD d []).getD j 0) μ →
      ∀ᵐ ω ∂μ, |((r ω).2.getD d []).getD j 0 - ∫ ω', (new ω' - ((r ω').1.getD d []).getD j 0) ^ 2 ∂μ| ≤ ε := by
  set x := queryPoint P Qs d j with hx
  set v := fk.condVar (padded P Xs) d x with hv
  set n := ((padded P Xs).map Arr2.rows).sum with hn
  set B := n * ∑ t, (fk.covMat (padded P Xs) t t).toNNReal with hB
  set T := (v.toNNReal + 2 * B + 2 : ℝ) with hT
  have hT0 : 0 < T := by positivity
  set η := min 1 (ε / T) with hη
  have hη0 : 0 < η := lt_min one_pos (by positivity)
  obtain ⟨N, hN, H⟩ := predict_near hP hr Xs lo hi hη0
  refine ⟨N, hN, fun {Ω} _ μ Y new r hdr hrep hmeas => ?_⟩
  have hμ : IsProbabilityMeasure μ := law_probability (hdr.normal 0)
  set m0 : Ω → ℝ := fun ω => fk.condMean (padded P Xs) ((Y ω).map NDArr.data) d x with hm0
  set S : Ω → ℝ := fun ω => ∑ t, |toVec n ((Y ω).map NDArr.data).flatten t| with hS
  have near : ∀ᵐ ω ∂μ, (padded P Xs).length = fk.D ∧ |((r ω).1.getD d []).getD j 0 - m0 ω| ≤ η * S ω ∧ |((r ω).2.getD d []).getD j 0 - v| ≤ η := by
    filter_upwards [hrep] with ω hω
    obtain ⟨sv, ops, i, a, m, e, h1, h2, h3, h4, h5, h6, h7, h8, h9, h10, h11, h12, h13⟩ := hω
    obtain ⟨n0, n1, n2, n3⟩ := H sv h1 h2 ops i a m h3 h5 h7 h8 h9 h10 h11 (h12 (by simp))
    obtain ⟨k, f1, f2, f3, f4, f5, f6, f7⟩ := h3.facts h1
    have hpr : m.gp.predict (m.rawPredict sv e) Qs = .ok (r ω) := predicts_unique h13 (f7 Qs e h4)
    have := n3 e h4 Qs hQ hW _ hpr d hd j hj hbt
    rw [h6] at this
    exact ⟨n0, this⟩
  have hX : (padded P Xs).length = fk.D := near.exists.choose_spec.1
  have hA := (covMat_posDef hr.ready.wf hX hr.sound.kernels hr.sound.kappa hr.sound.noise).det_pos.ne'.isUnit
  have hv0 : 0 < v := lt_of_lt_of_le (hr.sound.noise d hd) (condVar_ge hr.ready.wf hX hr.sound hd x)
  have hres := hdr.residual hA
  rw [← hv] at hres
  obtain ⟨iX, eX⟩ := law_square hres
  have hXm := law_aemeasurable hres
  have hym : ∀ t, AEMeasurable (fun ω => toVec n ((Y ω).map NDArr.data).flatten t) μ := fun t => law_aemeasurable (hdr.coordinate t)
  have hSm : AEMeasurable S μ := Finset.aemeasurable_fun_sum _ fun t _ => (hym t).abs
  have hS2 : ∀ ω, S ω ^ 2 ≤ n * ∑ t, toVec n ((Y ω).map NDArr.data).flatten t ^ 2 := fun ω => by
    have := sq_sum_le_card_mul_sum_sq (s := Finset.univ) (f := fun t => |toVec n ((Y ω).map NDArr.data).flatten t|)
    rw [Finset.card_univ, Fintype.card_fin] at this
    simpa only [sq_abs] using this
  have iy : Integrable (fun ω => n * ∑ t, toVec n ((Y ω).map NDArr.data).flatten t ^ 2) μ :=
    (integrable_finsetSum _ fun t _ => (law_square (hdr.coordinate t)).1).const_mul _
  have iS : Integrable (fun ω => S ω ^ 2) μ :=
    iy.mono' (hSm.pow_const 2).aestronglyMeasurable (ae_of_all _ fun ω => by rw [Real.norm_of_nonneg (sq_nonneg _)]; exact hS2 ω)
  have eS : ∫ ω, S ω ^ 2 ∂μ ≤ B := by
    refine (integral_mono iS iy hS2).trans (le_of_eq ?_)
    rw [integral_const_mul, integral_finsetSum _ fun t _ => (law_square (hdr.coordinate t)).1]
    simp only [(law_square (hdr.coordinate _)).2]
    rw [hB]
    push_cast
    rfl
  set g : Ω → ℝ := fun ω => (new ω - ((r ω).1.getD d []).getD j 0) ^ 2 - (new ω - m0 ω) ^ 2 with hg
  have hgb : ∀ᵐ ω ∂μ, ‖g ω‖ ≤ η * ((new ω - m0 ω) ^ 2 + 2 * S ω ^ 2) := by
    filter_upwards [near] with ω hω
    obtain ⟨-, h1, -⟩ := hω
    set e := ((r ω).1.getD d []).getD j 0 - m0 ω with he
    set X := new ω - m0 ω with hXd
    have hgω : g ω = -2 * X * e + e ^ 2 := by
      rw [hg]
      simp only
      rw [show new ω - ((r ω).1.getD d []).getD j 0 = X - e by rw [he, hXd]; ring]
      ring
    have hS0 : 0 ≤ S ω := Finset.sum_nonneg fun _ _ => abs_nonneg _
    have h2 : |e| ^ 2 ≤ η * S ω ^ 2 := by
      have : |e| ^ 2 ≤ (η * S ω) ^ 2 := pow_le_pow_left₀ (abs_nonneg _) h1 2
      have h3 : η ^ 2 ≤ η := by nlinarith [min_le_left 1 (ε / T)]
      nlinarith [sq_nonneg (S ω)]
    have h4 : |X| * |e| ≤ |X| * (η * S ω) := mul_le_mul_of_nonneg_left h1 (abs_nonneg _)
    have h5 : 2 * (|X| * S ω) ≤ X ^ 2 + S ω ^ 2 := by nlinarith [sq_nonneg (|X| - S ω), sq_abs X]
    rw [hgω, Real.norm_eq_abs]
    calc _ ≤ |-2 * X * e| + |e ^ 2| := abs_add_le _ _
      _ = 2 * (|X| * |e|) + |e| ^ 2 := by rw [abs_mul, abs_mul, abs_pow]; norm_num; ring
      _ ≤ _ := by nlinarith
  have ib : Integrable (fun ω => η * ((new ω - m0 ω) ^ 2 + 2 * S ω ^ 2)) μ := (iX.add (iS.const_mul 2)).const_mul η
  have hgm : AEStronglyMeasurable g μ := by
    have hnew := (law_aemeasurable hdr.new_law).aestronglyMeasurable
    have e1 : AEStronglyMeasurable (fun ω => (new ω - ((r ω).1.getD d []).getD j 0) ^ 2) μ := (hnew.sub hmeas).pow 2
    have e2 : AEStronglyMeasurable (fun ω => (new ω - m0 ω) ^ 2) μ := hXm.aestronglyMeasurable.pow 2
    exact e1.sub e2
  have ig : Integrable g μ := ib.mono' hgm hgb
  have eint : ∫ ω, (new ω - ((r ω).1.getD d []).getD j 0) ^ 2 ∂μ = v + ∫ ω, g ω ∂μ := by
    have : (fun ω => (new ω - ((r ω).1.getD d []).getD j 0) ^ 2) = fun ω => (new ω - m0 ω) ^ 2 + g ω := by
      funext ω
      rw [hg]
      simp only
      ring
    rw [this, integral_add iX ig, eX, Real.coe_toNNReal _ hv0.le]
  have bnd : |∫ ω, g ω ∂μ| ≤ η * (v + 2 * B) := by
    refine (norm_integral_le_of_norm_le ib hgb).trans ?_
    rw [integral_const_mul, integral_add iX (iS.const_mul 2), integral_const_mul, eX, Real.coe_toNNReal _ hv0.le]
    exact mul_le_mul_of_nonneg_left (by linarith) hη0.le
  filter_upwards [near] with ω hω
  rw [eint]
  have h1 := abs_le.1 hω.2.2
  have h2 := abs_le.1 bnd
  have h3 : η * T ≤ ε := by
    calc _ ≤ ε / T * T := mul_le_mul_of_nonneg_right (min_le_right _ _) hT0.le
      _ = ε := by field_simp
  have h4 : T = v + 2 * B + 2 := by rw [hT, Real.coe_toNNReal _ hv0.le]
  rw [h4] at h3
  rw [abs_le]
  constructor <;> nlinarith

end Verif
