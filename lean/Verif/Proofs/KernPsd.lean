import Mathlib.Analysis.Matrix.Order
import Mathlib.Analysis.InnerProductSpace.Basic
import Mathlib.Analysis.SpecialFunctions.Exponential
import Mathlib.Analysis.SpecialFunctions.Trigonometric.Basic
import Mathlib.Topology.Algebra.InfiniteSum.Order

/-! Positive semi-definite kernels: closure properties. -/

namespace Verif
open Matrix

variable {ι : Type*} [Fintype ι]

theorem psd_iff_sum {M : Matrix ι ι ℝ} :
    M.PosSemidef ↔ (∀ i j, M i j = M j i) ∧ ∀ c : ι → ℝ, 0 ≤ ∑ i, ∑ j, c i * c j * M i j := by
  rw [posSemidef_iff_dotProduct_mulVec]
  refine and_congr ?_ (forall_congr' fun c => ?_)
  · simp only [IsHermitian, ← Matrix.ext_iff, conjTranspose_apply, star_trivial]
    exact ⟨fun h i j => (h i j).symm, fun h i j => (h i j).symm⟩
  · simp only [dotProduct, mulVec, Pi.star_apply, star_trivial, Finset.mul_sum]
    refine Eq.to_iff (congrArg _ (Finset.sum_congr rfl fun i _ => Finset.sum_congr rfl fun j _ => by ring))

theorem psd_ones : (Matrix.of fun _ _ : ι => (1 : ℝ)).PosSemidef := by
  rw [psd_iff_sum]
  refine ⟨fun _ _ => rfl, fun c => ?_⟩
  have : ∑ i, ∑ j, c i * c j * (Matrix.of fun _ _ : ι => (1 : ℝ)) i j = (∑ i, c i) ^ 2 := by
    simp only [of_apply, mul_one]
    rw [sq, Finset.sum_mul_sum]
  rw [this]
  positivity

theorem psd_pow {A : Matrix ι ι ℝ} (hA : A.PosSemidef) (k : ℕ) : (Matrix.of fun i j => A i j ^ k).PosSemidef := by
  induction k with
  | zero => simpa using psd_ones
  | succ k ih =>
    have e : (Matrix.of fun i j => A i j ^ (k + 1)) = (Matrix.of fun i j => A i j ^ k) ⊙ A := by
      ext i j
      simp [pow_succ]
    rw [e]
    exact ih.hadamard hA

theorem psd_exp {A : Matrix ι ι ℝ} (hA : A.PosSemidef) : (Matrix.of fun i j => Real.exp (A i j)).PosSemidef := by
  rw [psd_iff_sum]
  refine ⟨fun i j => by simp [(psd_iff_sum.1 hA).1 i j], fun c => ?_⟩
  have hs : HasSum (fun k : ℕ => ∑ i, ∑ j, c i * c j * (A i j ^ k / k.factorial))
      (∑ i, ∑ j, c i * c j * Real.exp (A i j)) := by
    refine hasSum_sum fun i _ => hasSum_sum fun j _ => ?_
    have := NormedSpace.expSeries_div_hasSum_exp (𝔸 := ℝ) (A i j)
    rw [← Real.exp_eq_exp_ℝ] at this
    exact this.mul_left _
  simp only [of_apply]
  refine hs.nonneg fun k => ?_
  have h := (psd_iff_sum.1 (psd_pow hA k)).2 c
  have : ∑ i, ∑ j, c i * c j * (A i j ^ k / k.factorial) = (∑ i, ∑ j, c i * c j * A i j ^ k) / k.factorial := by
    simp only [Finset.sum_div, mul_div_assoc]
  rw [this]
  exact div_nonneg h (by positivity)

/-- `u_i u_j M_ij` -/
theorem psd_scale {M : Matrix ι ι ℝ} (hM : M.PosSemidef) (u : ι → ℝ) :
    (Matrix.of fun i j => u i * u j * M i j).PosSemidef := by
  rw [psd_iff_sum] at *
  refine ⟨fun i j => by simp [hM.1 i j, mul_comm (u i)], fun c => ?_⟩
  have := hM.2 fun i => c i * u i
  refine this.trans_eq (Finset.sum_congr rfl fun i _ => Finset.sum_congr rfl fun j _ => ?_)
  simp only [of_apply]
  ring

theorem psd_smul {M : Matrix ι ι ℝ} (hM : M.PosSemidef) {s : ℝ} (hs : 0 ≤ s) :
    (Matrix.of fun i j => s * M i j).PosSemidef := by
  rw [psd_iff_sum] at *
  refine ⟨fun i j => by simp [hM.1 i j], fun c => ?_⟩
  have : ∑ i, ∑ j, c i * c j * (Matrix.of fun i j => s * M i j) i j = s * ∑ i, ∑ j, c i * c j * M i j := by
    simp only [Finset.mul_sum, of_apply]
    exact Finset.sum_congr rfl fun i _ => Finset.sum_congr rfl fun j _ => by ring
  rw [this]
  exact mul_nonneg hs (hM.2 c)

theorem psd_gram {V : Type*} [NormedAddCommGroup V] [InnerProductSpace ℝ V] (x : ι → V) {g : ℝ} (hg : 0 ≤ g) :
    (Matrix.of fun i j => g * inner ℝ (x i) (x j)).PosSemidef := by
  refine psd_smul (M := Matrix.of fun i j => inner ℝ (x i) (x j)) ?_ hg
  rw [psd_iff_sum]
  refine ⟨fun i j => real_inner_comm _ _, fun c => ?_⟩
  have : ∑ i, ∑ j, c i * c j * (Matrix.of fun i j => inner ℝ (x i) (x j)) i j
      = inner ℝ (∑ i, c i • x i) (∑ i, c i • x i) := by
    rw [sum_inner]
    refine Finset.sum_congr rfl fun i _ => ?_
    rw [inner_sum]
    refine Finset.sum_congr rfl fun j _ => ?_
    rw [real_inner_smul_left, real_inner_smul_right, of_apply]
    ring
  rw [this]
  exact real_inner_self_nonneg

/-- the Gaussian kernel -/
theorem psd_gaussian {V : Type*} [NormedAddCommGroup V] [InnerProductSpace ℝ V] (x : ι → V) {g : ℝ} (hg : 0 ≤ g) :
    (Matrix.of fun i j => Real.exp (-(g * ‖x i - x j‖ ^ 2))).PosSemidef := by
  have := psd_scale (psd_exp (psd_gram x (show 0 ≤ 2 * g by linarith))) fun i => Real.exp (-(g * ‖x i‖ ^ 2))
  convert this using 1
  ext i j
  simp only [of_apply, ← Real.exp_add]
  congr 1
  rw [@norm_sub_sq_real]
  ring

/-- the periodic kernel on the line -/
theorem psd_periodic (x : ι → ℝ) (T : ℝ) {g : ℝ} (hg : 0 ≤ g) :
    (Matrix.of fun i j => Real.exp (-g / 2 * Real.sin (Real.pi * |x i - x j| / T) ^ 2)).PosSemidef := by
  have hcos : (Matrix.of fun i j => g / 4 * Real.cos (2 * Real.pi * (x i - x j) / T)).PosSemidef := by
    refine psd_smul (M := Matrix.of fun i j => Real.cos (2 * Real.pi * (x i - x j) / T)) ?_ (by linarith)
    rw [psd_iff_sum]
    constructor
    · intro i j
      simp only [of_apply]
      rw [← Real.cos_neg]
      congr 1
      ring
    · intro c
      set θ : ι → ℝ := fun i => 2 * Real.pi * x i / T
      have : ∑ i, ∑ j, c i * c j * (Matrix.of fun i j => Real.cos (2 * Real.pi * (x i - x j) / T)) i j
          = (∑ i, c i * Real.cos (θ i)) ^ 2 + (∑ i, c i * Real.sin (θ i)) ^ 2 := by
        rw [sq, sq, Finset.sum_mul_sum, Finset.sum_mul_sum, ← Finset.sum_add_distrib]
        refine Finset.sum_congr rfl fun i _ => ?_
        rw [← Finset.sum_add_distrib]
        refine Finset.sum_congr rfl fun j _ => ?_
        simp only [of_apply]
        rw [show 2 * Real.pi * (x i - x j) / T = θ i - θ j by simp only [θ]; ring, Real.cos_sub]
        ring
      rw [this]
      positivity
  have := psd_smul (psd_exp hcos) (Real.exp_pos (-g / 4)).le
  convert this using 1
  ext i j
  simp only [of_apply, ← Real.exp_add]
  congr 1
  have e : Real.sin (Real.pi * |x i - x j| / T) ^ 2 = Real.sin (Real.pi * (x i - x j) / T) ^ 2 := by
    rcases abs_cases (x i - x j) with h | h
    · rw [h.1]
    · rw [h.1, show Real.pi * -(x i - x j) / T = -(Real.pi * (x i - x j) / T) by ring, Real.sin_neg, neg_sq]
  rw [e, show 2 * Real.pi * (x i - x j) / T = 2 * (Real.pi * (x i - x j) / T) by ring, Real.cos_two_mul, Real.cos_sq']
  ring

open Classical in
/-- the identity kernel -/
theorem psd_identity {V : Type*} (x : ι → V) :
    (Matrix.of fun i j => if x i = x j then (1 : ℝ) else 0).PosSemidef := by
  rw [psd_iff_sum]
  refine ⟨fun i j => by simp only [of_apply, eq_comm], fun c => ?_⟩
  set S : Finset V := Finset.univ.image x
  have key : ∀ i j, (if x i = x j then (1 : ℝ) else 0) = ∑ v ∈ S, (if x i = v then 1 else 0) * (if x j = v then 1 else 0) := by
    intro i j
    rw [Finset.sum_eq_single (x i)]
    · simp [eq_comm]
    · intro v _ hv
      simp [hv.symm]
    · intro h
      exact absurd (Finset.mem_image_of_mem x (Finset.mem_univ i)) h
  have : ∑ i, ∑ j, c i * c j * (Matrix.of fun i j => if x i = x j then (1 : ℝ) else 0) i j
      = ∑ v ∈ S, (∑ i, c i * if x i = v then 1 else 0) ^ 2 := by
    simp only [of_apply, key, Finset.mul_sum]
    rw [Finset.sum_congr rfl fun i _ => Finset.sum_comm, Finset.sum_comm]
    refine Finset.sum_congr rfl fun v _ => ?_
    rw [sq, Finset.sum_mul_sum]
    exact Finset.sum_congr rfl fun i _ => Finset.sum_congr rfl fun j _ => by ring
  rw [this]
  positivity

end Verif
