import Verif.Proofs.Calibration
import Verif.Props.Reached
import Verif.Props.Relabelled

/-! Predictions near the exact ones, for all observations at once. -/

namespace Verif

open Matrix

/-- the error of the mean is small compared with the observations -/
theorem mean_error {fk : FK} {P : ℕ} (hr : fk.Regular P) {Xs : List (Arr2 ℝ)} (hX : Xs.length = fk.D) :
    ∃ C, 0 ≤ C ∧ ∀ s, 0 ≤ s → ∀ axes, fk.FineGrids s axes → (∀ r < (Xs.map Arr2.rows).sum, fk.Inside axes (rowPoint Xs r)) → ∀ d < fk.D, ∀ x, fk.Inside axes x →
      ∀ y : Fin (Xs.map Arr2.rows).sum → ℝ, |fk.skiCross axes noExtra Xs d x ⬝ᵥ (fk.skiMat axes noExtra Xs)⁻¹ *ᵥ y - fk.crossCov Xs d x ⬝ᵥ (fk.covMat Xs)⁻¹ *ᵥ y| ≤
        C * s ^ 3 * ∑ j, |y j| := by
  obtain ⟨A, hA, HA⟩ := FK.cov_bounded hr.ready hr.sound.plain
  obtain ⟨E, hE, HE⟩ := FK.skiCov_error hr.ready hr.groups hr.sound.plain
  obtain ⟨K, hK, HK⟩ := FK.solve_error hr.ready hr.groups hr.sound hr.nodup hX (add_nonneg hA zero_le_one)
  refine ⟨K * (1 + E), by positivity, fun s hs axes fine inside d hd x hin y => ?_⟩
  have unit : ∀ j, |fk.skiCross axes noExtra Xs d x ⬝ᵥ (fk.skiMat axes noExtra Xs)⁻¹ *ᵥ Pi.single j 1 - fk.crossCov Xs d x ⬝ᵥ (fk.covMat Xs)⁻¹ *ᵥ Pi.single j 1| ≤
      K * (1 + E) * s ^ 3 := by
    intro j
    have hj : ∀ i, |(Pi.single j 1 : Fin (Xs.map Arr2.rows).sum → ℝ) i| ≤ A + 1 := by
      intro i
      by_cases h : i = j
      · subst h
        rw [Pi.single_eq_same, abs_one]
        linarith
      · rw [Pi.single_eq_of_ne h, abs_zero]
        linarith
    exact HK s hs axes fine inside (fk.crossCov Xs d x) (fk.skiCross axes noExtra Xs d x) _ _ (fun t => (HA d hd _ (owner_lt hX t) _ _).trans (by linarith)) hj hj E hE
      (fun t => HE s hs _ fine _ _ hin (inside t t.2) d hd _ (owner_lt hX t)) (fun t => by rw [sub_self, abs_zero]; positivity)
  simp only [dotProduct_mulVec, dotProduct_single_one] at unit
  rw [dotProduct_mulVec, dotProduct_mulVec, ← sub_dotProduct]
  unfold dotProduct
  refine (Finset.abs_sum_le_sum_abs _ _).trans ?_
  rw [Finset.mul_sum]
  refine Finset.sum_le_sum fun j _ => ?_
  rw [abs_mul]
  exact mul_le_mul_of_nonneg_right (unit j) (abs_nonneg _)

theorem fine_enough {T w η : ℝ} (hT : 0 ≤ T) (hw : 0 ≤ w) (hη : 0 < η) : ∃ N : ℕ, T * (5 / 4 * (w / ((N + 1 : ℕ) : ℝ))) ^ 3 ≤ η := by
  obtain ⟨N, hN⟩ := exists_nat_gt (T * (5 / 4 * w) ^ 3 / η)
  refine ⟨N, ?_⟩
  have n1 : (1 : ℝ) ≤ ((N + 1 : ℕ) : ℝ) := by push_cast; linarith [(Nat.cast_nonneg N : (0 : ℝ) ≤ N)]
  have e : T * (5 / 4 * (w / ((N + 1 : ℕ) : ℝ))) ^ 3 = T * (5 / 4 * w) ^ 3 / ((N + 1 : ℕ) : ℝ) ^ 3 := by field_simp
  rw [e, div_le_iff₀ (by positivity)]
  rw [div_lt_iff₀ hη] at hN
  have n3 : ((N + 1 : ℕ) : ℝ) ≤ ((N + 1 : ℕ) : ℝ) ^ 3 := by
    have := pow_le_pow_right₀ n1 (show 1 ≤ 3 by norm_num)
    rwa [pow_one] at this
  have h1 : (N : ℝ) ≤ ((N + 1 : ℕ) : ℝ) ^ 3 := le_trans (by push_cast; linarith) n3
  nlinarith

/-- fine grids predict nearly as the exact Gaussian process, for all observations -/
theorem predict_near {P : ℕ} (hP : 0 < P) {fk : FK} (hr : fk.Regular P) (Xs : List (NDArr ℝ)) (lo hi : GridOpt) {η : ℝ} (hη : 0 < η) :
    ∃ N, 0 < N ∧ ∀ sv : Solvers, sv.Fit → sv.Exact → ∀ ops i a m, Held sv ops i a m → a.Xs = Xs → a.normalize = false → a.lo = lo → a.hi = hi → a.Cells P N → m.fk = fk →
      (m.prediction = .precompute → ∃ g, fk.activeDims = [g] ∧ g.1 = List.range P) → (padded P Xs).length = fk.D ∧ m.gp.inputDim = P ∧
      (∀ d < fk.D, normOf m.gp d = (1, 0)) ∧ ∀ e : Env, e.Works → ∀ Qs, QueriesOK fk.D P Qs → (∀ Q ∈ Qs, Q.WF) → ∀ r, m.gp.predict (m.rawPredict sv e) Qs = .ok r → ∀ d < fk.D, ∀ j < (queryLens Qs).getD d 0,
        Between P Xs lo hi (queryPoint P Qs d j) →
        |(r.1.getD d []).getD j 0 - fk.condMean (padded P Xs) (a.Ys.map NDArr.data) d (queryPoint P Qs d j)| ≤
            η * ∑ t, |toVec ((padded P Xs).map Arr2.rows).sum (a.Ys.map NDArr.data).flatten t| ∧
          |(r.2.getD d []).getD j 0 - fk.condVar (padded P Xs) d (queryPoint P Qs d j)| ≤ η := by
  by_cases hX : (padded P Xs).length = fk.D
  swap
  · refine ⟨1, one_pos, ?_⟩
    rintro sv hs hx ops i a m h rfl - - - - h7
    exfalso
    obtain ⟨k, f1, f2, f3, f4, f5, f6, f7⟩ := h.facts hs
    have hP' : m.gp.inputDim = P := by
      have := f5.ready.input
      rw [h7, hr.ready.input] at this
      exact (Option.some.inj this).symm
    rw [hP'] at f1
    apply hX
    rw [← (MadeFrom.scale f1).1, ← h7]
    exact f5.data.inputs.len
  obtain ⟨w, hw0, hw⟩ := exists_width P Xs lo hi
  obtain ⟨C1, hC1, H1⟩ := mean_error hr hX
  obtain ⟨C2, hC2, H2⟩ := C72_variance fk P hr _ hX
  obtain ⟨N, hN⟩ := fine_enough (add_nonneg hC1 hC2) hw0 hη
  refine ⟨N + 1, by omega, ?_⟩
  rintro sv hs hx ops i a m h rfl h3 rfl rfl h6 h7 h8
  obtain ⟨k, f1, f2, f3, f4, f5, f6, f7⟩ := h.facts hs
  have hP' : m.gp.inputDim = P := by
    have := f5.ready.input
    rw [h7, hr.ready.input] at this
    exact (Option.some.inj this).symm
  rw [hP'] at f1 f4 f5
  have hn : ∀ ad ∈ m.fk.activeDims.map Prod.fst, ad.Nodup := by
    rw [h7]
    intro ad had
    obtain ⟨g, hg, rfl⟩ := List.mem_map.1 had
    exact hr.nodup g hg
  obtain ⟨x1, x2, x3⟩ := MadeFrom.scale f1
  have hsc : ∀ d, a.scaleOf d = 1 ∧ a.centreOf d = 0 := fun d => by
    unfold LLGPArgs.scaleOf LLGPArgs.centreOf
    rw [h3]
    exact ⟨rfl, rfl⟩
  have hY : m.gp.Ys = a.Ys.map NDArr.data := by
    rw [x3]
    refine List.ext_getElem (by simp) fun n _ _ => ?_
    simp [(hsc n).1, (hsc n).2]
  have hXl : a.Xs.length = fk.D := by
    rw [← hX]
    unfold padded
    rw [List.length_map]
  have hnorm : ∀ d < fk.D, normOf m.gp d = (1, 0) := fun d hd => by
    rw [(x2 d (by omega)).1, (hsc d).1, (hsc d).2]
  refine ⟨hX, hP', hnorm, fun e he Qs hQ hW r hpr d hd j hj hbt => ?_⟩
  obtain ⟨hfine, hin, -, hrow⟩ := MadeFrom.grids hP f1 (hw a rfl rfl rfl) (Nat.succ_pos N) h6
  have hex := exact_of_current hs hx f5 f6 f2 hn
  have hA : m.Accepts Qs := ⟨by rw [f3, h7, hP']; exact hQ, hW⟩
  have hq := f4 Qs hA
  have hs0 : 0 ≤ 5 / 4 * (w / ((N + 1 : ℕ) : ℝ)) := by positivity
  have s3 : 0 ≤ (5 / 4 * (w / ((N + 1 : ℕ) : ℝ))) ^ 3 := by positivity
  rw [h7] at hfine hin hrow
  rw [x1] at hrow
  constructor
  · rw [C44_exact_solve sv m P k Qs hq e r (hex _) hpr d (by rw [h7]; exact hd) j hj, hnorm d hd]
    simp only [mul_one, add_zero]
    unfold FK.skiMean FK.condMean
    rw [h7]
    obtain ⟨c1, c2⟩ := C44_documented fk hr.clean m.axesOf m.gp.Xs d (queryPoint P Qs d j)
    rw [c1, c2, hY, x1]
    refine (H1 _ hs0 m.axesOf hfine hrow d hd _ (hin _ hbt) _).trans (mul_le_mul_of_nonneg_right ?_ (Finset.sum_nonneg fun _ _ => abs_nonneg _))
    exact (mul_le_mul_of_nonneg_right (by linarith) s3).trans hN
  · have := H2 m.gp.Ys _ hs0 sv m k ⟨f5, f6, h7, x1, rfl, hfine, hrow⟩ Qs hq (fun _ => hex _) h8 e he r hpr d hd j hj (hin _ hbt)
    rw [hnorm d hd] at this
    simp only [one_pow, mul_one] at this
    exact this.trans ((mul_le_mul_of_nonneg_right (by linarith) s3).trans hN)

/-- a reply to a question for quantiles in terms of the predictions -/
theorem quantiles_from_predict {sv : Solvers} (hs : sv.Fit) {ops : List Op} {i : ℕ} {a : LLGPArgs} {m : LLGP} (h : Held sv ops i a m) {e : Env} (he : e.Works) {P : ℕ}
    (hPm : m.gp.inputDim = P) {Qs : List (NDArr ℝ)} (hQ : QueriesOK m.fk.D P Qs) (hW : ∀ Q ∈ Qs, Q.WF) {qs : List ℝ} {Q : List (Arr2 ℝ)}
    (hr : results sv (ops ++ [.ask i (.quantiles Qs qs) e]) = results sv ops ++ [.ok (.quantiles Q)]) (hD : ∀ d < m.fk.D, normOf m.gp d = (1, 0)) :
    ∃ r, m.gp.predict (m.rawPredict sv e) Qs = .ok r ∧ ∀ d < m.fk.D, ∀ j < (queryLens Qs).getD d 0, ∀ k < qs.length,
      (Q.getD d ⟨0, 0, []⟩).get j k = (r.1.getD d []).getD j 0 + Real.sqrt ((r.2.getD d []).getD j 0) * normPpf (qs.getD k 0 / 100) := by
  obtain ⟨k, f1, f2, f3, f4, f5, f6, f7⟩ := h.facts hs
  rw [hPm] at f1 f4 f5
  have hA : m.Accepts Qs := ⟨by rw [f3, hPm]; exact hQ, hW⟩
  have hq := f4 Qs hA
  rw [(C48_answers sv ops (validFrom_works ops [] h.valid) i m h.model (by rw [f6.kernel]; simp) (.quantiles Qs qs) e he).1] at hr
  have hr : (m.gp.predictQuantiles (m.rawPredict sv e) Qs qs).map Answer.quantiles = .ok (.quantiles Q) := List.head_eq_of_cons_eq (List.append_cancel_left hr)
  cases hraw : m.rawPredict sv e (padded P Qs) with
  | error x =>
    rw [quantiles_error hq hraw] at hr
    cases hr
  | ok p =>
    have ne : padded P Qs ≠ [] := fun e0 => by
      have := congrArg List.length e0
      unfold padded at this
      rw [List.length_map, hQ.1] at this
      have h0 := f5.ready.wf.Dpos
      simp at this
      omega
    have hp : PredictionFits p (queryLens Qs) := by rw [← padded_lens (P := P)]; exact raw_fits ne hraw
    obtain ⟨⟨r, r1, r2⟩, Q', q1, q2, q3⟩ := predict_values m.gp f5.gp _ Qs hA.1 p (by rw [hPm]; exact hraw) hp qs
    rw [q1] at hr
    cases hr
    refine ⟨r, r1, fun d hd j hj k hk => ?_⟩
    rw [f3] at q3 r2
    rw [(q3 d hd).2.2.2 j hj k hk]
    rw [(r2.entry d hd j hj).1, (r2.entry d hd j hj).2, hD d hd]
    ring_nf

end Verif
