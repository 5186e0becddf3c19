import Verif.Spec.LLGP
import Verif.Spec.Predict
import Mathlib.Analysis.Calculus.ContDiff.Operations
import Mathlib.Analysis.Calculus.ContDiff.Deriv
import Mathlib.Analysis.Calculus.Deriv.Abs
import Mathlib.Analysis.SpecialFunctions.Trigonometric.Deriv

/-! The interpolation weights are continuously differentiable functions of the point, and the covariances continuous ones. -/

namespace Verif

theorem hasDerivAt_mul_abs (s : ℝ) : HasDerivAt (fun t : ℝ => t * |t|) (2 * |s|) s := by
  rcases lt_trichotomy s 0 with h | rfl | h
  · have := (hasDerivAt_id s).mul (hasDerivAt_abs_neg h)
    refine this.congr_deriv ?_
    simp only [id, abs_of_neg h]
    ring
  · rw [hasDerivAt_iff_tendsto_slope_zero]
    simp only [zero_add, abs_zero, mul_zero, sub_zero, smul_eq_mul]
    have hc : Filter.Tendsto (fun t : ℝ => |t|) (nhdsWithin 0 {0}ᶜ) (nhds 0) := by
      have := (continuous_abs : Continuous fun t : ℝ => |t|).tendsto 0
      rw [abs_zero] at this
      exact this.mono_left nhdsWithin_le_nhds
    refine hc.congr' ?_
    filter_upwards [self_mem_nhdsWithin] with t ht
    have : t ≠ 0 := ht
    field_simp
  · have := (hasDerivAt_id s).mul (hasDerivAt_abs_pos h)
    refine this.congr_deriv ?_
    simp only [id, abs_of_pos h]
    ring

theorem contDiff_mul_abs : ContDiff ℝ 1 fun t : ℝ => t * |t| := by
  rw [contDiff_one_iff_deriv]
  refine ⟨fun s => (hasDerivAt_mul_abs s).differentiableAt, ?_⟩
  have : deriv (fun t : ℝ => t * |t|) = fun s => 2 * |s| := funext fun s => (hasDerivAt_mul_abs s).deriv
  rw [this]
  fun_prop

/-- Keys' kernel as a sum of truncated powers -/
theorem keys_truncated (x : ℝ) : keys x = 1 / 4 * ((x - 2) * |x - 2| - (x + 2) * |x + 2|) + 1 / 2 * ((x + 1) * |x + 1| - (x - 1) * |x - 1|) +
    1 / 4 * ((x - 2) * ((x - 2) * |x - 2|) + (x + 2) * ((x + 2) * |x + 2|)) - ((x - 1) * ((x - 1) * |x - 1|) + (x + 1) * ((x + 1) * |x + 1|)) +
    3 / 2 * (x * (x * |x|)) := by
  unfold keys
  rcases abs_cases x with ⟨h0, h0'⟩ | ⟨h0, h0'⟩ <;> rcases abs_cases (x - 2) with ⟨h1, h1'⟩ | ⟨h1, h1'⟩ <;> rcases abs_cases (x + 2) with ⟨h2, h2'⟩ | ⟨h2, h2'⟩ <;>
    rcases abs_cases (x - 1) with ⟨h3, h3'⟩ | ⟨h3, h3'⟩ <;> rcases abs_cases (x + 1) with ⟨h4, h4'⟩ | ⟨h4, h4'⟩ <;> rw [h0, h1, h2, h3, h4] <;> split_ifs <;>
    first
    | (exfalso; linarith)
    | (have hx : x = 1 := by linarith
       rw [hx]; norm_num)
    | (have hx : x = -1 := by linarith
       rw [hx]; norm_num)
    | (have hx : x = 2 := by linarith
       rw [hx]; norm_num)
    | (have hx : x = -2 := by linarith
       rw [hx]; norm_num)
    | ring

theorem contDiff_keys : ContDiff ℝ 1 keys := by
  have h : ∀ c : ℝ, ContDiff ℝ 1 fun x : ℝ => (x + c) * |x + c| := fun c => contDiff_mul_abs.comp (contDiff_id.add contDiff_const)
  have hs : ∀ c : ℝ, ContDiff ℝ 1 fun x : ℝ => (x - c) * |x - c| := fun c => contDiff_mul_abs.comp (contDiff_id.sub contDiff_const)
  have i : ∀ c : ℝ, ContDiff ℝ 1 fun x : ℝ => x + c := fun c => contDiff_id.add contDiff_const
  have is : ∀ c : ℝ, ContDiff ℝ 1 fun x : ℝ => x - c := fun c => contDiff_id.sub contDiff_const
  rw [show keys = _ from funext keys_truncated]
  exact ((((contDiff_const.mul ((hs 2).sub (h 2))).add (contDiff_const.mul ((h 1).sub (hs 1)))).add
    (contDiff_const.mul (((is 2).mul (hs 2)).add ((i 2).mul (h 2))))).sub (((is 1).mul (hs 1)).add ((i 1).mul (h 1)))).add
    (contDiff_const.mul (contDiff_id.mul contDiff_mul_abs))

theorem keys_far {x : ℝ} (h : 2 ≤ |x|) : keys x = 0 := by
  unfold keys
  rw [if_neg (by linarith)]
  split_ifs with h2
  · have : |x| = 2 := le_antisymm h2 h
    rw [this]
    norm_num
  · rfl

/-- the weight of a grid point, in units of the grid -/
noncomputable def unitWeight (n j : ℕ) (t : ℝ) : ℝ := (([-1, 0, 1, 2] : List ℤ).map fun c => if clampTo n (⌊t⌋ + c) = j then keys (t - (⌊t⌋ + c)) else 0).sum

theorem unitWeight_near (n j : ℕ) {t₀ t : ℝ} (h : |t - t₀| < 1) : unitWeight n j t = ∑ k ∈ Finset.Icc (⌊t₀⌋ - 3) (⌊t₀⌋ + 4), if clampTo n k = j then keys (t - k) else 0 := by
  have h1 : ⌊t₀⌋ - 1 ≤ ⌊t⌋ := by
    rw [Int.le_floor]
    push_cast
    have := Int.floor_le t₀
    have := (abs_lt.1 h).1
    linarith
  have h2 : ⌊t⌋ ≤ ⌊t₀⌋ + 1 := by
    rw [← Int.lt_add_one_iff, Int.floor_lt]
    push_cast
    have := Int.lt_floor_add_one t₀
    have := (abs_lt.1 h).2
    linarith
  have hsub : Finset.Icc (⌊t⌋ - 1) (⌊t⌋ + 2) ⊆ Finset.Icc (⌊t₀⌋ - 3) (⌊t₀⌋ + 4) := Finset.Icc_subset_Icc (by omega) (by omega)
  rw [← Finset.sum_subset hsub]
  · have : Finset.Icc (⌊t⌋ - 1) (⌊t⌋ + 2) = ({⌊t⌋ + (-1), ⌊t⌋ + 0, ⌊t⌋ + 1, ⌊t⌋ + 2} : Finset ℤ) := by
      ext k
      simp only [Finset.mem_Icc, Finset.mem_insert, Finset.mem_singleton]
      omega
    rw [this, Finset.sum_insert (by simp), Finset.sum_insert (by simp), Finset.sum_insert (by simp), Finset.sum_singleton]
    unfold unitWeight
    simp only [List.map_cons, List.map_nil, List.sum_cons, List.sum_nil, add_zero]
    push_cast
    ring_nf
  · intro k _ hk
    split_ifs
    · refine keys_far ?_
      have hk' : k < ⌊t⌋ - 1 ∨ ⌊t⌋ + 2 < k := by
        by_contra hc
        push Not at hc
        exact hk (Finset.mem_Icc.2 hc)
      have f1 := Int.floor_le t
      have f2 := Int.lt_floor_add_one t
      rcases hk' with hk' | hk'
      · have : (k : ℝ) ≤ ⌊t⌋ - 2 := by exact_mod_cast (by omega : k ≤ ⌊t⌋ - 2)
        exact le_trans (by linarith) (le_abs_self _)
      · have : (⌊t⌋ : ℝ) + 3 ≤ k := by exact_mod_cast (by omega : ⌊t⌋ + 3 ≤ k)
        exact le_trans (by linarith) (neg_le_abs _)
    · rfl

theorem contDiff_unitWeight (n j : ℕ) : ContDiff ℝ 1 (unitWeight n j) := by
  rw [contDiff_iff_contDiffAt]
  intro t₀
  have hs : ContDiff ℝ 1 fun t : ℝ => ∑ k ∈ Finset.Icc (⌊t₀⌋ - 3) (⌊t₀⌋ + 4), if clampTo n k = j then keys (t - k) else 0 := by
    refine ContDiff.sum fun k _ => ?_
    by_cases hk : clampTo n k = j
    · simp only [if_pos hk]
      exact contDiff_keys.comp (contDiff_id.sub contDiff_const)
    · simp only [if_neg hk]
      exact contDiff_const
  refine hs.contDiffAt.congr_of_eventuallyEq ?_
  filter_upwards [Metric.ball_mem_nhds t₀ one_pos] with t ht
  rw [Metric.mem_ball, Real.dist_eq] at ht
  exact unitWeight_near n j ht

variable {E : Type*} [NormedAddCommGroup E] [NormedSpace ℝ E]

theorem contDiff_keysWeight (grid : List ℝ) (j : ℕ) : ContDiff ℝ 1 fun s => keysWeight grid s j :=
  (contDiff_unitWeight grid.length j).comp ((contDiff_id.sub contDiff_const).div_const _)

theorem contDiff_gridWeight : ∀ (axes : List (List ℝ)) (f : E → ℕ → ℝ) (_ : ∀ k, ContDiff ℝ 1 fun x => f x k) (p : ℕ), ContDiff ℝ 1 fun x => gridWeight axes (f x) p
  | [], _, _, _ => contDiff_const
  | a :: axes, f, hf, p => ((contDiff_keysWeight a _).comp (hf 0)).mul (contDiff_gridWeight axes (fun x k => f x (k + 1)) (fun k => hf (k + 1)) _)

theorem contDiff_listSum {α : Type*} (l : List α) (F : α → E → ℝ) (h : ∀ a ∈ l, ContDiff ℝ 1 (F a)) : ContDiff ℝ 1 fun x => (l.map fun a => F a x).sum := by
  induction l with
  | nil => simpa using contDiff_const
  | cons a l ih =>
    simp only [List.map_cons, List.sum_cons]
    exact (h a List.mem_cons_self).add (ih fun b hb => h b (List.mem_cons_of_mem _ hb))

theorem contDiff_skiCov (fk : FK) (axes : List ℕ → List (List ℝ)) (extra : List ℕ × List ℕ → ℝ) (a b : ℕ) (f : E → ℕ → ℝ) (hf : ∀ k, ContDiff ℝ 1 fun x => f x k) (z : ℕ → ℝ) :
    ContDiff ℝ 1 fun x => fk.skiCov axes extra a b (f x) z := by
  unfold FK.skiCov
  refine contDiff_listSum _ (fun g x => ∑ p ∈ Finset.range (gridSize (axes g.1)), ∑ q ∈ Finset.range (gridSize (axes g.1)),
    gridWeight (axes g.1) (coords g.1 (f x)) p * (fk.gridCov (axes g.1) g.2 a b p q + if a = b ∧ p = q then extra g else 0) *
      gridWeight (axes g.1) (coords g.1 z) q) fun g _ => ?_
  refine ContDiff.sum fun p _ => ContDiff.sum fun q _ => ?_
  exact ((contDiff_gridWeight (axes g.1) (fun x => coords g.1 (f x)) (fun k => hf _) p).mul contDiff_const).mul contDiff_const

theorem continuous_doc {k : Kern} (h : k.noIdentity) : Continuous k.doc := by
  induction k with
  | rbf g a =>
    show Continuous fun r : ℝ => Real.exp (-g * r ^ 2 / 2)
    fun_prop
  | matern32 g a =>
    show Continuous fun r : ℝ => (1 + r * g * Real.sqrt 3) * Real.exp (-(g * r * Real.sqrt 3))
    fun_prop
  | stdPeriodic g T a =>
    show Continuous fun r : ℝ => Real.exp (-g / 2 * Real.sin (Real.pi * r / T) ^ 2)
    fun_prop
  | identity a => exact absurd h (by simp [Kern.noIdentity])
  | scaled k s a ih =>
    have : Continuous k.doc := ih h
    show Continuous fun r => s * k.doc r
    fun_prop

theorem continuous_cov {X : Type*} [TopologicalSpace X] {fk : FK} (h : ∀ k ∈ fk.kernels, k.noIdentity) (a b : ℕ) (f g : X → ℕ → ℝ) (hf : ∀ c, Continuous fun x => f x c)
    (hg : ∀ c, Continuous fun x => g x c) : Continuous fun x => fk.cov a b (f x) (g x) := by
  unfold FK.cov
  refine continuous_finsetSum _ fun q hq => continuous_const.mul ?_
  have hk : (fk.kernels.getD q (.identity none)).noIdentity := by
    have hq : q < fk.kernels.length := Finset.mem_range.1 hq
    rw [List.getD_eq_getElem _ _ hq]
    exact h _ (List.getElem_mem hq)
  refine (continuous_doc hk).comp ?_
  unfold distOn
  refine Real.continuous_sqrt.comp ?_
  induction fk.kdims q with
  | nil => simpa using continuous_const
  | cons c l ih =>
    simp only [List.map_cons, List.sum_cons]
    exact (((hf c).sub (hg c)).pow 2).add ih

end Verif
