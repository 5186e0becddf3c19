import Verif.Proofs.CalibratedPredictions
import Verif.Props.Documented

/-! How near the reported log likelihood is to the exact one, for all observations. -/

namespace Verif

open Matrix

theorem quad_error {fk : FK} {P : ℕ} (hr : fk.Regular P) {Xs : List (Arr2 ℝ)} (hX : Xs.length = fk.D) :
    ∃ C, 0 ≤ C ∧ ∀ s, 0 ≤ s → ∀ axes, fk.FineGrids s axes → (∀ r < (Xs.map Arr2.rows).sum, fk.Inside axes (rowPoint Xs r)) →
      ∀ y : Fin (Xs.map Arr2.rows).sum → ℝ, |y ⬝ᵥ (fk.skiMat axes noExtra Xs)⁻¹ *ᵥ y - y ⬝ᵥ (fk.covMat Xs)⁻¹ *ᵥ y| ≤ C * s ^ 3 * (∑ j, |y j|) ^ 2 := by
  obtain ⟨K, hK, HK⟩ := FK.solve_error hr.ready hr.groups hr.sound hr.nodup hX zero_le_one
  refine ⟨K, hK, fun s hs axes fine inside y => ?_⟩
  have hj : ∀ j i, |(Pi.single j 1 : Fin (Xs.map Arr2.rows).sum → ℝ) i| ≤ 1 := by
    intro j i
    by_cases h : i = j
    · subst h
      rw [Pi.single_eq_same, abs_one]
    · rw [Pi.single_eq_of_ne h, abs_zero]
      exact zero_le_one
  have unit : ∀ i j, |(fk.skiMat axes noExtra Xs)⁻¹ i j - (fk.covMat Xs)⁻¹ i j| ≤ K * s ^ 3 := by
    intro i j
    have := HK s hs axes fine inside (Pi.single i 1) (Pi.single i 1) (Pi.single j 1) (Pi.single j 1) (hj i) (hj j) (hj j) 0 le_rfl (fun t => by simp) (fun t => by simp)
    simpa using this
  rw [← dotProduct_sub, ← sub_mulVec]
  unfold dotProduct mulVec dotProduct
  calc |∑ i, y i * ∑ j, ((fk.skiMat axes noExtra Xs)⁻¹ - (fk.covMat Xs)⁻¹) i j * y j|
      ≤ ∑ i, |y i| * ∑ j, K * s ^ 3 * |y j| := by
        refine (Finset.abs_sum_le_sum_abs _ _).trans (Finset.sum_le_sum fun i _ => ?_)
        rw [abs_mul]
        refine mul_le_mul_of_nonneg_left ?_ (abs_nonneg _)
        refine (Finset.abs_sum_le_sum_abs _ _).trans (Finset.sum_le_sum fun j _ => ?_)
        rw [abs_mul]
        exact mul_le_mul_of_nonneg_right (unit i j) (abs_nonneg _)
    _ = _ := by
        rw [← Finset.mul_sum, ← Finset.sum_mul]
        ring

/-- fine grids give nearly the log likelihood of the exact Gaussian process, for all observations -/
theorem likelihood_near {P : ℕ} (hP : 0 < P) {fk : FK} (hr : fk.Regular P) (Xs : List (NDArr ℝ)) (lo hi : GridOpt) {η : ℝ} (hη : 0 < η) :
    ∃ N, 0 < N ∧ ∀ Ys v, Replies P fk Xs lo hi N Ys .logLikelihood (.extended (some v)) → (padded P Xs).length = fk.D ∧
      |v - fk.logLik (padded P Xs) (Ys.map NDArr.data)| ≤ η * (∑ t, |toVec ((padded P Xs).map Arr2.rows).sum (Ys.map NDArr.data).flatten t|) ^ 2 := by
  by_cases hX : (padded P Xs).length = fk.D
  swap
  · refine ⟨1, one_pos, ?_⟩
    rintro Ys v ⟨sv, ops, i, a, m, e, hs, hx, h, he, rfl, -, -, -, -, -, h7, -, -⟩
    exfalso
    obtain ⟨k, f1, f2, f3, f4, f5, f6, f7⟩ := h.facts hs
    have hP' : m.gp.inputDim = P := by
      have := f5.ready.input
      rw [h7, hr.ready.input] at this
      exact (Option.some.inj this).symm
    rw [hP'] at f1
    apply hX
    rw [← (MadeFrom.scale f1).1, ← h7]
    exact f5.data.inputs.len
  obtain ⟨w, hw0, hw⟩ := exists_width P Xs lo hi
  obtain ⟨C, hC, H⟩ := quad_error hr hX
  obtain ⟨N, hN⟩ := fine_enough hC hw0 hη
  refine ⟨N + 1, by omega, ?_⟩
  rintro Ys v ⟨sv, ops, i, a, m, e, hs, hx, h, he, rfl, rfl, h3, rfl, rfl, h6, h7, -, hans⟩
  refine ⟨hX, ?_⟩
  have hA := C104_answers sv hs ops i a m h e he
  obtain ⟨k, f1, f2, f3, f4, f5, f6, f7⟩ := h.facts hs
  have hP' : m.gp.inputDim = P := by
    have := f5.ready.input
    rw [h7, hr.ready.input] at this
    exact (Option.some.inj this).symm
  rw [hP'] at f1 f4 f5
  have hn : ∀ ad ∈ m.fk.activeDims.map Prod.fst, ad.Nodup := by
    rw [h7]
    intro ad had
    obtain ⟨g, hg, rfl⟩ := List.mem_map.1 had
    exact hr.nodup g hg
  obtain ⟨x1, x2, x3⟩ := MadeFrom.scale f1
  have hsc : ∀ d, a.scaleOf d = 1 ∧ a.centreOf d = 0 := fun d => by
    unfold LLGPArgs.scaleOf LLGPArgs.centreOf
    rw [h3]
    exact ⟨rfl, rfl⟩
  have hY : m.gp.Ys = a.Ys.map NDArr.data := by
    rw [x3]
    refine List.ext_getElem (by simp) fun n _ _ => ?_
    simp [(hsc n).1, (hsc n).2]
  obtain ⟨hfine, hin, -, hrow⟩ := MadeFrom.grids hP f1 (hw a rfl rfl rfl) (Nat.succ_pos N) h6
  obtain ⟨-, l, l1, -, l2⟩ := hA.2.2 hx hn
  have hv : v = l := by
    unfold Tells at l1
    rw [hans] at l1
    have := List.head_eq_of_cons_eq (List.append_cancel_left l1)
    simpa using this
  subst hv
  have hs0 : 0 ≤ 5 / 4 * (w / ((N + 1 : ℕ) : ℝ)) := by positivity
  unfold FK.skiMat at l2
  rw [C66_documented m.fk (by rw [h7]; exact hr.clean)] at l2
  have key : ∀ Xs' Ys', m.gp.Xs = Xs' → m.gp.Ys = Ys' → v - fk.logLik Xs' Ys' =
      (toVec (Xs'.map Arr2.rows).sum Ys'.flatten ⬝ᵥ (fk.covMat Xs')⁻¹ *ᵥ toVec (Xs'.map Arr2.rows).sum Ys'.flatten -
        toVec (Xs'.map Arr2.rows).sum Ys'.flatten ⬝ᵥ (fk.skiMat m.axesOf noExtra Xs')⁻¹ *ᵥ toVec (Xs'.map Arr2.rows).sum Ys'.flatten) / 2 := by
    rintro _ _ rfl rfl
    rw [← h7]
    exact l2
  rw [key _ _ x1 hY]
  rw [h7] at hfine hin hrow
  rw [x1] at hrow
  have b := H _ hs0 m.axesOf hfine hrow (toVec ((padded P a.Xs).map Arr2.rows).sum (a.Ys.map NDArr.data).flatten)
  rw [abs_sub_comm] at b
  rw [abs_div, abs_two]
  have b2 := b.trans (mul_le_mul_of_nonneg_right hN (sq_nonneg _))
  have b3 : 0 ≤ η * (∑ t, |toVec ((padded P a.Xs).map Arr2.rows).sum (a.Ys.map NDArr.data).flatten t|) ^ 2 := mul_nonneg hη.le (sq_nonneg _)
  linarith

end Verif
