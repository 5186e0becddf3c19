import Verif.Spec.Smooth
import Verif.Proofs.Pointwise

/-! Predictions outside the grids and far from the data. -/

namespace Verif
open Matrix

theorem keysWeight_past {a : List ℝ} (hm : 4 ≤ a.length) {g0 h : ℝ} (hh : 0 < h) (he : Equispaced a g0 h) {j : ℕ} :
    (∀ s, Below a s → keysWeight a s j = if j = 0 then 1 else 0) ∧ ∀ s, Above a s → keysWeight a s j = if j = a.length - 1 then 1 else 0 := by
  have hstep : axisStep a = h := by
    unfold axisStep
    rw [he 0 (by omega), he 1 (by omega)]
    push_cast
    ring
  by_cases hj : j < a.length
  · refine ⟨fun s hs => ?_, fun s hs => ?_⟩
    · unfold Below at hs
      rw [keysWeight_eq, factor_equispaced hm he]
      refine interpRow_below (by omega) ?_ j hj
      rw [hstep, he 0 (by omega)] at hs
      rw [div_lt_iff₀ hh]; push_cast at hs; linarith
    · unfold Above at hs
      rw [keysWeight_eq, factor_equispaced hm he]
      refine interpRow_above (by omega) ?_ j hj
      rw [hstep, he _ (by omega)] at hs
      rw [le_div_iff₀ hh]
      have : ((a.length - 1 : ℕ) : ℝ) = a.length - 1 := by push_cast [Nat.cast_sub (by omega : 1 ≤ a.length)]; ring
      rw [this] at hs
      linarith
  · have hz : ∀ s, keysWeight a s j = 0 := by
      intro s
      unfold keysWeight
      refine List.sum_eq_zero fun x hx => ?_
      obtain ⟨c, -, rfl⟩ := List.mem_map.1 hx
      rw [if_neg]
      unfold clampTo
      omega
    exact ⟨fun s _ => by rw [hz, if_neg (by omega)], fun s _ => by rw [hz, if_neg (by omega)]⟩

theorem gridWeight_seen : ∀ (axes : List (List ℝ)) (x x' : ℕ → ℝ) (p : ℕ), (∀ a ∈ axes, 4 ≤ a.length) → (∀ a ∈ axes, ∃ g0 h, 0 < h ∧ Equispaced a g0 h) →
    (∀ k < axes.length, x k = x' k ∨ (Below (axes.getD k []) (x k) ∧ Below (axes.getD k []) (x' k)) ∨ (Above (axes.getD k []) (x k) ∧ Above (axes.getD k []) (x' k))) →
    gridWeight axes x p = gridWeight axes x' p
  | [], _, _, _, _, _, _ => rfl
  | a :: axes, x, x', p, h4, hE, hs => by
    rw [gridWeight, gridWeight, gridWeight_seen axes (fun k => x (k + 1)) (fun k => x' (k + 1)) _ (fun b hb => h4 b (List.mem_cons_of_mem _ hb))
      (fun b hb => hE b (List.mem_cons_of_mem _ hb)) fun k hk => hs (k + 1) (by simpa using hk)]
    congr 1
    obtain ⟨g0, h, hh, he⟩ := hE a List.mem_cons_self
    obtain ⟨k1, k2⟩ := keysWeight_past (h4 a List.mem_cons_self) hh he (j := p / (axes.map List.length).prod)
    rcases hs 0 (by simp) with e | ⟨b1, b2⟩ | ⟨b1, b2⟩
    · rw [e]
    · rw [k1 _ b1, k1 _ b2]
    · rw [k2 _ b1, k2 _ b2]

theorem weights_seen {m : LLGP} {P : ℕ} (h : m.OK P) {x x' : ℕ → ℝ} (hx : m.SeenAlike x x') {g : List ℕ × List ℕ} (hg : g ∈ m.fk.activeDims) (p : ℕ) :
    gridWeight (m.axesOf g.1) (coords g.1 x) p = gridWeight (m.axesOf g.1) (coords g.1 x') p := by
  obtain ⟨gg, -, -, d3, d4⟩ := h.mem_grids hg
  refine gridWeight_seen _ _ _ _ ?_ ?_ (hx g hg)
  · rw [d4]; exact d3.size
  · rw [d4]; exact d3.spacing

theorem mean_seen {m : LLGP} {P : ℕ} (h : m.OK P) {x x' : ℕ → ℝ} (hx : m.SeenAlike x x') (alpha : List ℝ) (d : ℕ) : m.meanWith alpha d x = m.meanWith alpha d x' := by
  unfold LLGP.meanWith FK.skiCov
  refine Finset.sum_congr rfl fun s _ => ?_
  congr 2
  refine List.map_congr_left fun g hg => ?_
  exact Finset.sum_congr rfl fun p _ => Finset.sum_congr rfl fun q _ => by rw [weights_seen h hx hg]

/-! ### far from the data -/

theorem doc_vanishes : ∀ {k : Kern}, k.Valid → k.noIdentity → k.aperiodic → Filter.Tendsto k.doc Filter.atTop (nhds 0)
  | .rbf g a, hv, _, _ => by
    have hg : 0 < g := hv
    show Filter.Tendsto (fun r : ℝ => Real.exp (-g * r ^ 2 / 2)) _ _
    refine Real.tendsto_exp_atBot.comp ?_
    have h1 : Filter.Tendsto (fun r : ℝ => (-g / 2) * r ^ 2) Filter.atTop Filter.atBot :=
      (Filter.tendsto_pow_atTop two_ne_zero).const_mul_atTop_of_neg (by linarith)
    refine h1.congr fun r => by ring
  | .matern32 g a, hv, _, _ => by
    have hg : 0 < g := hv
    have hs : 0 < g * Real.sqrt 3 := by positivity
    have h1 : Filter.Tendsto (fun r : ℝ => g * Real.sqrt 3 * r) Filter.atTop Filter.atTop := Filter.tendsto_id.const_mul_atTop hs
    have h2 := (Real.tendsto_pow_mul_exp_neg_atTop_nhds_zero 0).add (Real.tendsto_pow_mul_exp_neg_atTop_nhds_zero 1)
    rw [add_zero] at h2
    refine (h2.comp h1).congr fun r => ?_
    show (g * Real.sqrt 3 * r) ^ 0 * Real.exp (-(g * Real.sqrt 3 * r)) + (g * Real.sqrt 3 * r) ^ 1 * Real.exp (-(g * Real.sqrt 3 * r)) =
      (1 + r * g * Real.sqrt 3) * Real.exp (-(g * r * Real.sqrt 3))
    rw [show g * r * Real.sqrt 3 = g * Real.sqrt 3 * r by ring]
    ring
  | .stdPeriodic _ _ _, _, _, h => absurd h (by simp [Kern.aperiodic])
  | .identity _, _, h, _ => absurd h (by simp [Kern.noIdentity])
  | .scaled k s a, hv, hi, hp => by
    have := (doc_vanishes (k := k) hv.1 hi hp).const_mul s
    rw [mul_zero] at this
    exact this

theorem doc_origin : ∀ {k : Kern}, k.Valid → 0 ≤ k.doc 0
  | .rbf g a, _ => (Real.exp_pos _).le
  | .matern32 g a, _ => by
    show (0 : ℝ) ≤ (1 + 0 * g * Real.sqrt 3) * Real.exp (-(g * 0 * Real.sqrt 3))
    rw [zero_mul, zero_mul, add_zero, one_mul]
    exact (Real.exp_pos _).le
  | .stdPeriodic _ _ _, _ => (Real.exp_pos _).le
  | .identity _, _ => by
    show (0 : ℝ) ≤ if (0 : ℝ) = 0 then 1 else 0
    rw [if_pos rfl]
    exact zero_le_one
  | .scaled k s a, hv => mul_nonneg hv.2.le (doc_origin hv.1)

theorem kernel_mem {fk : FK} {q : ℕ} (hq : q < fk.Q) : fk.kernels.getD q (.identity none) ∈ fk.kernels := by
  have hq : q < fk.kernels.length := hq
  rw [List.getD_eq_getElem _ _ hq]
  exact List.getElem_mem hq

theorem priorVar_nonneg {fk : FK} {P : ℕ} (hr : fk.Ready P) (hs : fk.Sound) {d : ℕ} (hd : d < fk.D) (x : ℕ → ℝ) : 0 ≤ fk.priorVar d x := by
  unfold FK.priorVar
  rw [cov_self]
  refine add_nonneg (Finset.sum_nonneg fun q hq => mul_nonneg ?_ (doc_origin (hr.valid _ (kernel_mem (Finset.mem_range.1 hq))))) (hs.noise d hd).le
  unfold FK.B
  rw [if_pos rfl]
  exact add_nonneg (Finset.sum_nonneg fun r _ => mul_self_nonneg _) (hs.kappa q (Finset.mem_range.1 hq) d hd)

/-- far from all observations the covariances with them are small -/
theorem crossCov_vanishes {fk : FK} {P : ℕ} (hr : fk.Ready P) (hi : ∀ k ∈ fk.kernels, k.noIdentity) (hp : ∀ k ∈ fk.kernels, k.aperiodic) (Xs : List (Arr2 ℝ)) (d : ℕ) {δ : ℝ} (hδ : 0 < δ) :
    ∃ R, ∀ x : ℕ → ℝ, (∀ q < fk.Q, ∀ s < (Xs.map Arr2.rows).sum, R ≤ distOn (fk.kdims q) x (rowPoint Xs s)) → ‖fk.crossCov Xs d x‖ < δ := by
  set M := ∑ s : Fin (Xs.map Arr2.rows).sum, ∑ q ∈ Finset.range fk.Q, |fk.B q d (ownerOf (Xs.map Arr2.rows) s)| with hM
  have hM0 : 0 ≤ M := Finset.sum_nonneg fun _ _ => Finset.sum_nonneg fun _ _ => abs_nonneg _
  have hη : 0 < δ / (M + 1) := by positivity
  have hev : ∀ᶠ r in Filter.atTop, ∀ q ∈ Finset.range fk.Q, |(fk.kernels.getD q (.identity none)).doc r| < δ / (M + 1) := by
    rw [Filter.eventually_all_finset]
    intro q hq
    have hk := kernel_mem (Finset.mem_range.1 hq)
    have := (doc_vanishes (hr.valid _ hk) (hi _ hk) (hp _ hk)).eventually (Metric.ball_mem_nhds 0 hη)
    filter_upwards [this] with r h
    rwa [Real.dist_eq, sub_zero] at h
  obtain ⟨R, hR⟩ := Filter.eventually_atTop.1 hev
  refine ⟨R, fun x hx => ?_⟩
  rw [pi_norm_lt_iff hδ]
  intro s
  rw [Real.norm_eq_abs]
  have h1 : |fk.crossCov Xs d x s| ≤ M * (δ / (M + 1)) := by
    unfold FK.crossCov FK.cov
    calc _ ≤ ∑ q ∈ Finset.range fk.Q, |fk.B q d (ownerOf (Xs.map Arr2.rows) s)| * (δ / (M + 1)) := by
          refine (Finset.abs_sum_le_sum_abs _ _).trans (Finset.sum_le_sum fun q hq => ?_)
          rw [abs_mul]
          exact mul_le_mul_of_nonneg_left (hR _ (hx q (Finset.mem_range.1 hq) s s.2) q hq).le (abs_nonneg _)
      _ = (∑ q ∈ Finset.range fk.Q, |fk.B q d (ownerOf (Xs.map Arr2.rows) s)|) * (δ / (M + 1)) := by rw [Finset.sum_mul]
      _ ≤ _ := mul_le_mul_of_nonneg_right (Finset.single_le_sum (f := fun s : Fin (Xs.map Arr2.rows).sum => ∑ q ∈ Finset.range fk.Q, |fk.B q d (ownerOf (Xs.map Arr2.rows) s)|)
          (fun _ _ => Finset.sum_nonneg fun _ _ => abs_nonneg _) (Finset.mem_univ s)) hη.le
  refine h1.trans_lt ?_
  rw [mul_div_assoc', div_lt_iff₀ (by linarith)]
  nlinarith

/-- what a clamped variance with explained part `vᵀ A v` tends to when `v` does to 0 -/
theorem clamped_near {n : ℕ} (A : Matrix (Fin n) (Fin n) ℝ) (p c : ℝ) {ε : ℝ} (hε : 0 < ε) :
    ∃ δ > 0, ∀ v : Fin n → ℝ, ‖v‖ < δ → |max 0 (p - v ⬝ᵥ A *ᵥ v) * c - max 0 p * c| < ε := by
  have hc : Continuous fun v : Fin n → ℝ => max 0 (p - v ⬝ᵥ A *ᵥ v) * c :=
    (continuous_const.max (continuous_const.sub (continuous_explained continuous_id A))).mul continuous_const
  obtain ⟨δ, hδ, h⟩ := Metric.continuousAt_iff.1 (hc.continuousAt (x := 0)) ε hε
  refine ⟨δ, hδ, fun v hv => ?_⟩
  have := h (x := v) (by rwa [dist_zero_right])
  rw [Real.dist_eq] at this
  simpa using this

end Verif
