import Verif.Spec.Calibration
import Verif.Props.SkiAccuracy
import Verif.Proofs.Ppf

/-! What predictions are worth when the data are drawn from the model. -/

namespace Verif

open MeasureTheory ProbabilityTheory Filter Topology Matrix

/-! ### normal random numbers -/

section
variable {Ω : Type} [MeasurableSpace Ω] {μ : Measure Ω}

theorem law_aemeasurable {X : Ω → ℝ} {m : ℝ} {v : NNReal} (h : μ.map X = gaussianReal m v) : AEMeasurable X μ := by
  by_contra hn
  rw [Measure.map_of_not_aemeasurable hn] at h
  have := congrArg (fun ν : Measure ℝ => ν Set.univ) h
  simp at this

theorem law_probability {X : Ω → ℝ} {m : ℝ} {v : NNReal} (h : μ.map X = gaussianReal m v) : IsProbabilityMeasure μ := by
  have := Measure.map_apply_of_aemeasurable (law_aemeasurable h) MeasurableSet.univ
  rw [h] at this
  exact ⟨by simpa using this.symm⟩

theorem law_event {X : Ω → ℝ} {m : ℝ} {v : NNReal} (h : μ.map X = gaussianReal m v) {S : Set ℝ} (hS : MeasurableSet S) :
    μ.real {ω | X ω ∈ S} = (gaussianReal m v).real S := by
  rw [← h, map_measureReal_apply_of_aemeasurable (law_aemeasurable h) hS]
  rfl

end

/-- large numbers are improbable -/
theorem tail_small (ν : Measure ℝ) [IsFiniteMeasure ν] {ε : ℝ} (hε : 0 < ε) : ∃ M : ℝ, 0 ≤ M ∧ ∀ M', M ≤ M' → ν.real {x | M' < |x|} ≤ ε := by
  have h := tendsto_measure_iInter_atTop (μ := ν) (s := fun n : ℕ => {x : ℝ | (n : ℝ) < |x|})
    (fun i => (measurableSet_lt measurable_const (by fun_prop)).nullMeasurableSet)
    (fun i j hij x hx => lt_of_le_of_lt (Nat.cast_le.2 hij : (i : ℝ) ≤ j) hx) ⟨0, measure_ne_top _ _⟩
  have he : (⋂ n : ℕ, {x : ℝ | (n : ℝ) < |x|}) = ∅ := by
    ext x
    simp only [Set.mem_iInter, Set.mem_setOf_eq, Set.mem_empty_iff_false, iff_false, not_forall, not_lt]
    exact exists_nat_ge |x|
  rw [he, measure_empty] at h
  obtain ⟨n, hn⟩ := (h.eventually (gt_mem_nhds (ENNReal.ofReal_pos.2 hε))).exists
  refine ⟨n, by positivity, fun M' hM => ?_⟩
  refine (measureReal_mono (μ := ν) (s₂ := {x : ℝ | (n : ℝ) < |x|}) (fun x hx => lt_of_le_of_lt hM hx) (measure_ne_top _ _)).trans ?_
  exact ENNReal.toReal_le_of_le_ofReal hε.le hn.le

/-- a number is improbable to be near a given one -/
theorem point_small (ν : Measure ℝ) [IsFiniteMeasure ν] [NullSingletonClass ν] (c : ℝ) {ε : ℝ} (hε : 0 < ε) : ∃ δ : ℝ, 0 < δ ∧ ν.real (Set.Icc (c - δ) (c + δ)) ≤ ε := by
  have h := tendsto_measure_iInter_atTop (μ := ν) (s := fun n : ℕ => Set.Icc (c - 1 / ((n : ℝ) + 1)) (c + 1 / ((n : ℝ) + 1)))
    (fun i => measurableSet_Icc.nullMeasurableSet)
    (fun i j hij x hx => by
      have hc : (i : ℝ) ≤ j := Nat.cast_le.2 hij
      have : 1 / ((j : ℝ) + 1) ≤ 1 / ((i : ℝ) + 1) := one_div_le_one_div_of_le (by positivity) (by linarith)
      exact ⟨by linarith [hx.1], by linarith [hx.2]⟩) ⟨0, measure_ne_top _ _⟩
  have he : (⋂ n : ℕ, Set.Icc (c - 1 / ((n : ℝ) + 1)) (c + 1 / ((n : ℝ) + 1))) = {c} := by
    ext x
    simp only [Set.mem_iInter, Set.mem_Icc, Set.mem_singleton_iff]
    constructor
    · intro hx
      by_contra hne
      obtain ⟨n, hn⟩ := exists_nat_one_div_lt (abs_pos.2 (sub_ne_zero.2 hne))
      have := hx n
      have : |x - c| ≤ 1 / ((n : ℝ) + 1) := abs_le.2 ⟨by linarith, by linarith⟩
      linarith
    · rintro rfl n
      have : 0 < 1 / ((n : ℝ) + 1) := by positivity
      exact ⟨by linarith, by linarith⟩
  rw [he, measure_singleton] at h
  obtain ⟨n, hn⟩ := (h.eventually (gt_mem_nhds (ENNReal.ofReal_pos.2 hε))).exists
  exact ⟨1 / ((n : ℝ) + 1), by positivity, ENNReal.toReal_le_of_le_ofReal hε.le hn.le⟩

/-! ### events that are nearly the same -/

theorem near_event {Ω : Type} [MeasurableSpace Ω] {μ : Measure Ω} [IsFiniteMeasure μ] {E F B : Set Ω} {p ε : ℝ} (h1 : E ⊆ F ∪ B) (h2 : F ⊆ E ∪ B) (hB : μ.real B ≤ ε)
    (hF : μ.real F = p) : |μ.real E - p| ≤ ε := by
  have a1 := (measureReal_mono (μ := μ) h1 (measure_ne_top _ _)).trans (measureReal_union_le F B)
  have a2 := (measureReal_mono (μ := μ) h2 (measure_ne_top _ _)).trans (measureReal_union_le E B)
  rw [abs_le]
  constructor <;> linarith

/-! ### the exact Gaussian process -/

/-- the variance of the error of the best linear prediction -/
theorem residual_variance {n : ℕ} (A : Matrix (Fin n) (Fin n) ℝ) (hA : IsUnit A.det) (c : Fin n → ℝ) (v : ℝ) :
    (c ᵥ* A⁻¹) ⬝ᵥ A *ᵥ (c ᵥ* A⁻¹) - 2 * ((c ᵥ* A⁻¹) ⬝ᵥ c) + v = v - c ⬝ᵥ A⁻¹ *ᵥ c := by
  rw [dotProduct_mulVec, vecMul_vecMul, nonsing_inv_mul _ hA, vecMul_one, dotProduct_comm c (c ᵥ* A⁻¹), dotProduct_mulVec]
  ring

theorem covNew_old (fk : FK) (Xs : List (Arr2 ℝ)) (d : ℕ) (x : ℕ → ℝ) (r s : Fin (Xs.map Arr2.rows).sum) : fk.covNew Xs d x r s = fk.covMat Xs r s := by
  unfold FK.covNew FK.covMat fnMatrix FK.fullCov
  simp only [r.2, s.2, if_true]
  rfl

theorem covNew_left (fk : FK) (Xs : List (Arr2 ℝ)) (d : ℕ) (x : ℕ → ℝ) (s : Fin (Xs.map Arr2.rows).sum) : fk.covNew Xs d x (Xs.map Arr2.rows).sum s = fk.crossCov Xs d x s := by
  unfold FK.covNew FK.crossCov
  simp only [s.2, if_true, lt_irrefl, if_false]
  rw [if_neg (by have := s.2; omega), add_zero]

theorem covNew_right (fk : FK) (Xs : List (Arr2 ℝ)) (d : ℕ) (x : ℕ → ℝ) (s : Fin (Xs.map Arr2.rows).sum) : fk.covNew Xs d x s (Xs.map Arr2.rows).sum = fk.crossCov Xs d x s := by
  unfold FK.covNew FK.crossCov
  simp only [s.2, if_true, lt_irrefl, if_false]
  rw [if_neg (by have := s.2; omega), add_zero, cov_symm]

theorem covNew_new (fk : FK) (Xs : List (Arr2 ℝ)) (d : ℕ) (x : ℕ → ℝ) : fk.covNew Xs d x (Xs.map Arr2.rows).sum (Xs.map Arr2.rows).sum = fk.priorVar d x := by
  unfold FK.covNew FK.priorVar
  simp

section
variable {Ω : Type} [MeasurableSpace Ω] {μ : Measure Ω} {fk : FK} {Xs : List (Arr2 ℝ)} {d : ℕ} {x : ℕ → ℝ} {Y : Ω → List (NDArr ℝ)} {new : Ω → ℝ}

theorem FK.Draws.length (h : fk.Draws Xs d x μ Y new) (ω : Ω) : ((Y ω).map NDArr.data).flatten.length = (Xs.map Arr2.rows).sum := by
  rw [List.length_flatten, h.lens]

theorem FK.Draws.old (h : fk.Draws Xs d x μ Y new) (ω : Ω) (r : Fin (Xs.map Arr2.rows).sum) :
    (((Y ω).map NDArr.data).flatten ++ [new ω]).getD r 0 = toVec (Xs.map Arr2.rows).sum ((Y ω).map NDArr.data).flatten r := by
  rw [List.getD_append _ _ _ _ (by rw [h.length]; exact r.2)]
  rfl

theorem FK.Draws.last (h : fk.Draws Xs d x μ Y new) (ω : Ω) : (((Y ω).map NDArr.data).flatten ++ [new ω]).getD (Xs.map Arr2.rows).sum 0 = new ω := by
  rw [List.getD_append_right _ _ _ _ (by rw [h.length]), h.length]
  simp

/-- every observation is normal -/
theorem FK.Draws.coordinate (h : fk.Draws Xs d x μ Y new) (r : Fin (Xs.map Arr2.rows).sum) :
    μ.map (fun ω => toVec (Xs.map Arr2.rows).sum ((Y ω).map NDArr.data).flatten r) = gaussianReal 0 (fk.covMat Xs r r).toNNReal := by
  have := h.normal fun s => if s = r then 1 else 0
  simp only [ite_mul, one_mul, zero_mul, mul_ite, mul_one, mul_zero, Finset.sum_ite_eq', Finset.mem_range] at this
  have hr : (r : ℕ) < (Xs.map Arr2.rows).sum + 1 := by have := r.2; omega
  simp only [hr, if_true, h.old] at this
  rw [Finset.sum_ite_eq' _ _ fun s => fk.covNew Xs d x s r, if_pos (Finset.mem_range.2 hr), covNew_old] at this
  exact this

/-- the new observation is normal -/
theorem FK.Draws.new_law (h : fk.Draws Xs d x μ Y new) : μ.map new = gaussianReal 0 (fk.priorVar d x).toNNReal := by
  have := h.normal fun s => if s = (Xs.map Arr2.rows).sum then 1 else 0
  simp only [ite_mul, one_mul, zero_mul, mul_ite, mul_one, mul_zero, Finset.sum_ite_eq', Finset.mem_range] at this
  simp only [Nat.lt_succ_self, if_true, h.last] at this
  rw [Finset.sum_ite_eq' _ _ fun s => fk.covNew Xs d x s (Xs.map Arr2.rows).sum, if_pos (Finset.mem_range.2 (Nat.lt_succ_self _)), covNew_new] at this
  exact this

/-- the error of the exact prediction is normal, with the exact conditional variance -/
theorem FK.Draws.residual (h : fk.Draws Xs d x μ Y new) (hA : IsUnit (fk.covMat Xs).det) :
    μ.map (fun ω => new ω - fk.condMean Xs ((Y ω).map NDArr.data) d x) = gaussianReal 0 (fk.condVar Xs d x).toNNReal := by
  set n := (Xs.map Arr2.rows).sum with hn
  set w := fk.crossCov Xs d x ᵥ* (fk.covMat Xs)⁻¹ with hw
  set t : ℕ → ℝ := fun r => if hr : r < n then -w ⟨r, hr⟩ else 1 with ht
  have t1 : ∀ r : Fin n, t r = -w r := fun r => by rw [ht]; simp [r.2]
  have t2 : t n = 1 := by rw [ht]; simp
  have := h.normal t
  convert this using 2
  · funext ω
    rw [Finset.sum_range_succ, t2, one_mul, h.last, Finset.sum_range]
    simp only [t1, h.old]
    unfold FK.condMean
    rw [dotProduct_mulVec]
    show new ω - ∑ r, w r * _ = _
    rw [sub_eq_neg_add, ← Finset.sum_neg_distrib]
    simp only [neg_mul]
  · rw [← hn, Finset.sum_range_succ, Finset.sum_range]
    simp only [Finset.sum_range_succ, Finset.sum_range, t1, t2, covNew_old]
    have e1 : ∀ s : Fin n, fk.covNew Xs d x n s = fk.crossCov Xs d x s := covNew_left fk Xs d x
    have e2 : ∀ s : Fin n, fk.covNew Xs d x s n = fk.crossCov Xs d x s := covNew_right fk Xs d x
    have e3 : fk.covNew Xs d x n n = fk.priorVar d x := covNew_new fk Xs d x
    simp only [e1, e2, e3]
    have hv := residual_variance (fk.covMat Xs) hA (fk.crossCov Xs d x) (fk.priorVar d x)
    rw [← hw] at hv
    unfold FK.condVar
    rw [← hv]
    congr 1
    rw [Finset.sum_add_distrib]
    have s1 : w ⬝ᵥ fk.covMat Xs *ᵥ w = ∑ r, ∑ s, -w r * -w s * fk.covMat Xs r s := by
      unfold dotProduct Matrix.mulVec dotProduct
      refine Finset.sum_congr rfl fun r _ => ?_
      rw [Finset.mul_sum]
      exact Finset.sum_congr rfl fun s _ => by ring
    have s2 : w ⬝ᵥ fk.crossCov Xs d x = -∑ r, -w r * 1 * fk.crossCov Xs d x r := by
      unfold dotProduct
      rw [← Finset.sum_neg_distrib]
      exact Finset.sum_congr rfl fun s _ => by ring
    have s3 : ∑ r, 1 * -w r * fk.crossCov Xs d x r = ∑ r, -w r * 1 * fk.crossCov Xs d x r := Finset.sum_congr rfl fun s _ => by ring
    rw [s1, s2, s3]
    ring

end

end Verif
