import Verif.Model.TestingUtils
import Mathlib.Analysis.Calculus.Gradient.Basic
import Mathlib.Analysis.Calculus.Deriv.MeanValue
import Mathlib.Analysis.InnerProductSpace.PiL2
import Mathlib.Analysis.Calculus.Deriv.Pow
import Mathlib.Analysis.InnerProductSpace.Calculus

/-!
C77: the one-step optimizer of the tests records the gradient of the maximised function and takes one step that never makes the objective worse when its
parameter bounds the Lipschitz constant of the gradient.
-/

namespace Verif
open InnerProductSpace

/-- a list of parameters as a point of Euclidean space -/
noncomputable def paramPoint (n : ℕ) (x : List ℝ) : EuclideanSpace ℝ (Fin n) := WithLp.toLp 2 fun i => x.getD i 0

/-- `g` is the gradient of `F` and Lipschitz with constant `L`, all over `ℝⁿ` -/
structure SmoothWith {n : ℕ} (F : EuclideanSpace ℝ (Fin n) → ℝ) (g : EuclideanSpace ℝ (Fin n) → EuclideanSpace ℝ (Fin n)) (L : ℝ) : Prop where
  gradient : ∀ x, HasGradientAt F (g x) x
  lipschitz : ∀ x y, ‖g x - g y‖ ≤ L * ‖x - y‖

theorem smooth_step {n : ℕ} {F : EuclideanSpace ℝ (Fin n) → ℝ} {g : EuclideanSpace ℝ (Fin n) → EuclideanSpace ℝ (Fin n)} {L : ℝ}
    (h : SmoothWith F g L) (x d : EuclideanSpace ℝ (Fin n)) : F (x + d) ≤ F x + inner ℝ (g x) d + L / 2 * ‖d‖ ^ 2 := by
  set ψ : ℝ → ℝ := fun t => F (x + t • d) - t * inner ℝ (g x) d - L / 2 * t ^ 2 * ‖d‖ ^ 2 with hψ
  have hline : ∀ t : ℝ, HasDerivAt (fun t : ℝ => x + t • d) d t := fun t => by
    simpa using ((hasDerivAt_id t).smul_const d).const_add x
  have hder : ∀ t, HasDerivAt ψ (inner ℝ (g (x + t • d)) d - inner ℝ (g x) d - L * t * ‖d‖ ^ 2) t := by
    intro t
    have h1 : HasDerivAt (fun t : ℝ => F (x + t • d)) (inner ℝ (g (x + t • d)) d) t := by
      have := (h.gradient (x + t • d)).hasFDerivAt.comp_hasDerivAt t (hline t)
      rw [toDual_apply_apply] at this
      exact this
    have h2 : HasDerivAt (fun t : ℝ => t * inner ℝ (g x) d) (inner ℝ (g x) d) t := by
      simpa using (hasDerivAt_id t).mul_const (inner ℝ (g x) d)
    have h3 : HasDerivAt (fun t : ℝ => L / 2 * t ^ 2 * ‖d‖ ^ 2) (L * t * ‖d‖ ^ 2) t := by
      have := ((hasDerivAt_pow 2 t).const_mul (L / 2)).mul_const (‖d‖ ^ 2)
      refine this.congr_deriv ?_
      push_cast; ring
    exact (h1.sub h2).sub h3
  have hanti : AntitoneOn ψ (Set.Icc 0 1) := by
    refine antitoneOn_of_deriv_nonpos (convex_Icc 0 1) (fun t _ => (hder t).continuousAt.continuousWithinAt)
      (fun t _ => (hder t).differentiableAt.differentiableWithinAt) fun t ht => ?_
    rw [interior_Icc] at ht
    rw [(hder t).deriv]
    have h1 : inner ℝ (g (x + t • d)) d - inner ℝ (g x) d = inner ℝ (g (x + t • d) - g x) d := by rw [inner_sub_left]
    have h2 := real_inner_le_norm (g (x + t • d) - g x) d
    have h3 := h.lipschitz (x + t • d) x
    rw [add_sub_cancel_left, norm_smul, Real.norm_of_nonneg ht.1.le] at h3
    rw [h1]
    nlinarith [norm_nonneg d]
  have := hanti (Set.left_mem_Icc.2 zero_le_one) (Set.right_mem_Icc.2 zero_le_one) zero_le_one
  simp only [hψ, zero_smul, add_zero, one_smul, zero_mul, one_mul, one_pow] at this
  norm_num at this
  linarith

theorem singleGradOpt_fst (L : ℝ) (fp : List ℝ → List ℝ) (x : List ℝ) : (singleGradOpt L fp x).1 = (fp x).map fun g => -g := rfl

/-- C77: `gradient_observed` is the gradient of the maximised function, that is the negative of the gradient the optimizer is given, and `x_opt` is one
step along it; when `L > 0` bounds the Lipschitz constant of the gradient, the minimised objective falls by at least `‖gradient‖² / (2 L)`. -/
theorem C77_single_step (L : ℝ) (hL : 0 < L) (fp : List ℝ → List ℝ) (x : List ℝ) (hlen : (fp x).length = x.length)
    (F : EuclideanSpace ℝ (Fin x.length) → ℝ) (g : EuclideanSpace ℝ (Fin x.length) → EuclideanSpace ℝ (Fin x.length))
    (hF : SmoothWith F g L) (hg : paramPoint x.length (fp x) = g (paramPoint x.length x)) :
    (singleGradOpt L fp x).1.length = x.length ∧ (singleGradOpt L fp x).2.length = x.length ∧
    HasGradientAt (fun z => -F z) (paramPoint x.length (singleGradOpt L fp x).1) (paramPoint x.length x) ∧
    F (paramPoint x.length (singleGradOpt L fp x).2) ≤ F (paramPoint x.length x) - ‖g (paramPoint x.length x)‖ ^ 2 / (2 * L) := by
  have h1 : paramPoint x.length (singleGradOpt L fp x).1 = -g (paramPoint x.length x) := by
    rw [← hg]
    ext i
    have hi : (i : ℕ) < (fp x).length := by rw [hlen]; exact i.2
    simp [paramPoint, singleGradOpt, hi]
  have h2 : paramPoint x.length (singleGradOpt L fp x).2 = paramPoint x.length x + (-(1 / L)) • g (paramPoint x.length x) := by
    rw [← hg]
    ext i
    have hi : (i : ℕ) < (fp x).length := by rw [hlen]; exact i.2
    have hi' : (i : ℕ) < x.length := i.2
    simp [paramPoint, singleGradOpt, hi]
    ring
  refine ⟨by simp [singleGradOpt, hlen], by simp [singleGradOpt, hlen], ?_, ?_⟩
  · rw [h1]
    rw [hasGradientAt_iff_hasFDerivAt, map_neg]
    exact (hF.gradient (paramPoint x.length x)).hasFDerivAt.neg
  · rw [h2]
    have := smooth_step hF (paramPoint x.length x) ((-(1 / L)) • g (paramPoint x.length x))
    rw [inner_smul_right, real_inner_self_eq_norm_sq, norm_smul, mul_pow, Real.norm_eq_abs, sq_abs] at this
    refine this.trans (le_of_eq ?_)
    field_simp
    ring

/-- the hypotheses hold for the quadratic `½ ‖x‖²` in two dimensions with `L = 2` -/
example : SmoothWith (n := 2) (fun x => ‖x‖ ^ 2 / 2) (fun x => x) 2 := by
  refine ⟨fun x => ?_, fun x y => by nlinarith [norm_nonneg (x - y)]⟩
  rw [hasGradientAt_iff_hasFDerivAt]
  have := (hasStrictFDerivAt_norm_sq x).hasFDerivAt.mul_const (1 / 2 : ℝ)
  refine (this.congr_fderiv ?_).congr_of_eventuallyEq (Filter.Eventually.of_forall fun z => by simp only; ring)
  ext z
  simp

end Verif
