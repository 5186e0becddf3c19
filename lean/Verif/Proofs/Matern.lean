import Verif.Proofs.KernPsd
import Mathlib.MeasureTheory.Integral.IntegralEqImproper
import Mathlib.MeasureTheory.Function.JacobianOneDim
import Mathlib.Analysis.Calculus.ParametricIntegral
import Mathlib.Analysis.SpecialFunctions.Gaussian.GaussianIntegral
import Mathlib.Analysis.Calculus.MeanValue

/-! The Matern-3/2 function is a mixture of Gaussians:
`(1 + 2a) exp(-2a) = (2/C) ∫ u² exp(-u² - a²/u²) du`. -/

namespace Verif
open MeasureTheory Set Filter Topology

/-- the mixture integrand -/
noncomputable def phi (a u : ℝ) : ℝ := Real.exp (-u ^ 2 - a ^ 2 / u ^ 2)

theorem phi_pos (a u : ℝ) : 0 < phi a u := Real.exp_pos _

theorem phi_le (a u : ℝ) : phi a u ≤ Real.exp (-1 * u ^ 2) := by
  refine Real.exp_le_exp.2 ?_
  have : 0 ≤ a ^ 2 / u ^ 2 := by positivity
  linarith

theorem phi_sq_le {a u : ℝ} (hu : 0 < u) : a ^ 2 / u ^ 2 * phi a u ≤ Real.exp (-1 * u ^ 2) := by
  have h : a ^ 2 / u ^ 2 ≤ Real.exp (a ^ 2 / u ^ 2) := by linarith [Real.add_one_le_exp (a ^ 2 / u ^ 2)]
  calc a ^ 2 / u ^ 2 * phi a u ≤ Real.exp (a ^ 2 / u ^ 2) * phi a u := by gcongr; exact (phi_pos _ _).le
    _ = Real.exp (-1 * u ^ 2) := by rw [phi, ← Real.exp_add]; congr 1; ring

theorem phi_contOn (a : ℝ) : ContinuousOn (phi a) (Ioi 0) := by
  unfold phi
  refine Real.continuous_exp.comp_continuousOn ?_
  refine ContinuousOn.sub (by fun_prop) ?_
  exact ContinuousOn.div (by fun_prop) (by fun_prop) fun u hu => by have : (0 : ℝ) < u := hu; positivity

theorem phi_meas (a : ℝ) : AEStronglyMeasurable (phi a) (volume.restrict (Ioi 0)) :=
  (phi_contOn a).aestronglyMeasurable measurableSet_Ioi

theorem gauss_int : IntegrableOn (fun u : ℝ => Real.exp (-1 * u ^ 2)) (Ioi 0) :=
  (integrable_exp_neg_mul_sq one_pos).integrableOn

theorem phi_int (a : ℝ) : IntegrableOn (phi a) (Ioi 0) := by
  refine Integrable.mono' gauss_int (phi_meas a) ?_
  filter_upwards with u
  rw [Real.norm_of_nonneg (phi_pos a u).le]
  exact phi_le a u

/-- `∫ exp(-u² - a²/u²)` -/
noncomputable def gInt (a : ℝ) : ℝ := ∫ u in Ioi (0 : ℝ), phi a u

theorem gInt_subst {a : ℝ} (ha : 0 < a) : ∫ u in Ioi (0 : ℝ), a / u ^ 2 * phi a u = gInt a := by
  have himg : (fun u : ℝ => a / u) '' Ioi 0 = Ioi 0 := by
    ext v
    constructor
    · rintro ⟨u, hu, rfl⟩
      exact div_pos ha hu
    · intro hv
      exact ⟨a / v, div_pos ha hv, by have : (0 : ℝ) < v := hv; field_simp⟩
  have h := integral_image_eq_integral_abs_deriv_smul (s := Ioi (0 : ℝ)) (f := fun u => a / u) (f' := fun u => -a / u ^ 2)
    measurableSet_Ioi (fun u hu => by
      have hu0 : (u : ℝ) ≠ 0 := (show (0 : ℝ) < u from hu).ne'
      have := ((hasDerivAt_const u a).div (hasDerivAt_id u) hu0).hasDerivWithinAt (s := Ioi 0)
      refine this.congr_deriv ?_
      simp) (fun u hu v hv h => by
        have hu0 : (0 : ℝ) < u := hu
        have hv0 : (0 : ℝ) < v := hv
        simp only at h
        field_simp at h
        exact h.symm) (phi a)
  rw [himg] at h
  rw [gInt, h]
  refine setIntegral_congr_fun measurableSet_Ioi fun u hu => ?_
  have hu0 : (0 : ℝ) < u := hu
  simp only [smul_eq_mul]
  rw [abs_div, abs_neg, abs_of_pos ha, abs_of_pos (by positivity : (0 : ℝ) < u ^ 2)]
  congr 1
  unfold phi
  congr 1
  field_simp
  ring

theorem gInt_deriv {a : ℝ} (ha : 0 < a) : HasDerivAt gInt (-2 * gInt a) a := by
  have hb : Integrable (fun u : ℝ => 4 / a * Real.exp (-1 * u ^ 2)) (volume.restrict (Ioi 0)) := gauss_int.const_mul _
  have h := hasDerivAt_integral_of_dominated_loc_of_deriv_le (μ := volume.restrict (Ioi (0 : ℝ))) (x₀ := a)
    (F := phi) (F' := fun b u => -2 * (b / u ^ 2 * phi b u)) (s := Ioi (a / 2))
    (bound := fun u => 4 / a * Real.exp (-1 * u ^ 2))
    (Ioi_mem_nhds (by linarith)) (Eventually.of_forall phi_meas) (phi_int a) ?_ ?_ hb ?_
  · have h2 := h.2
    rw [integral_const_mul, gInt_subst ha] at h2
    exact h2
  · refine (ContinuousOn.aestronglyMeasurable ?_ measurableSet_Ioi)
    refine ContinuousOn.mul continuousOn_const (ContinuousOn.mul ?_ (phi_contOn a))
    exact ContinuousOn.div (by fun_prop) (by fun_prop) fun u hu => by have : (0 : ℝ) < u := hu; positivity
  · refine (ae_restrict_iff' measurableSet_Ioi).2 (Eventually.of_forall fun u hu b hb => ?_)
    have hu0 : (0 : ℝ) < u := hu
    have hb2 : a / 2 < b := hb
    have hb0 : 0 < b := by linarith
    have hp := phi_pos b u
    rw [norm_mul, Real.norm_of_nonneg (by positivity : 0 ≤ b / u ^ 2 * phi b u)]
    norm_num
    have h1 := phi_sq_le (a := b) hu0
    have h2 : 2 * (b / u ^ 2 * phi b u) = 2 / b * (b ^ 2 / u ^ 2 * phi b u) := by field_simp
    rw [h2]
    have h3 : 2 / b ≤ 4 / a := by
      rw [div_le_div_iff₀ hb0 ha]
      linarith
    calc 2 / b * (b ^ 2 / u ^ 2 * phi b u) ≤ 4 / a * Real.exp (-1 * u ^ 2) := by gcongr
      _ = 4 / a * Real.exp (-u ^ 2) := by norm_num
  · refine (ae_restrict_iff' measurableSet_Ioi).2 (Eventually.of_forall fun u hu b hb => ?_)
    have hu0 : (u : ℝ) ≠ 0 := (show (0 : ℝ) < u from hu).ne'
    have h1 : HasDerivAt (fun b : ℝ => -u ^ 2 - b ^ 2 / u ^ 2) (-(2 * b / u ^ 2)) b := by
      have := ((hasDerivAt_pow 2 b).div_const (u ^ 2)).const_sub (-u ^ 2)
      refine this.congr_deriv ?_
      norm_num
    refine h1.exp.congr_deriv ?_
    simp only [phi]
    ring

theorem gInt_cont : Continuous gInt := by
  refine continuous_iff_continuousAt.2 fun a => ?_
  refine tendsto_integral_filter_of_dominated_convergence (fun u => Real.exp (-1 * u ^ 2)) ?_ ?_ gauss_int ?_
  · exact Eventually.of_forall phi_meas
  · refine Eventually.of_forall fun b => Eventually.of_forall fun u => ?_
    rw [Real.norm_of_nonneg (phi_pos b u).le]
    exact phi_le b u
  · refine Eventually.of_forall fun u => ?_
    have : Continuous fun b : ℝ => phi b u := by unfold phi; fun_prop
    exact this.tendsto a

theorem gInt_eq {a : ℝ} (ha : 0 ≤ a) : gInt a = gInt 0 * Real.exp (-(2 * a)) := by
  rcases ha.eq_or_lt with rfl | ha
  · simp
  have hd : ∀ b ∈ Ioo 0 a, HasDerivAt (fun b => gInt b * Real.exp (2 * b)) 0 b := by
    intro b hb
    have h2 : HasDerivAt (fun b : ℝ => Real.exp (2 * b)) (Real.exp (2 * b) * (2 * 1)) b :=
      ((hasDerivAt_id b).const_mul 2).exp
    refine ((gInt_deriv hb.1).mul h2).congr_deriv ?_
    ring
  obtain ⟨c, hc, h⟩ := exists_hasDerivAt_eq_slope (fun b => gInt b * Real.exp (2 * b)) (fun _ => 0) ha
    ((gInt_cont.mul (by fun_prop)).continuousOn) hd
  have h3 : gInt a * Real.exp (2 * a) - gInt 0 * Real.exp (2 * 0) = 0 := by
    rcases div_eq_zero_iff.1 h.symm with h | h
    · exact h
    · linarith
  rw [Real.exp_neg, ← div_eq_mul_inv, eq_div_iff (Real.exp_pos _).ne']
  simpa [sub_eq_zero] using h3

theorem gInt_pos : 0 < gInt 0 := by
  have : gInt 0 = ∫ u in Ioi (0 : ℝ), Real.exp (-1 * u ^ 2) := by
    unfold gInt phi
    congr 1
    funext u
    norm_num
  rw [this, integral_gaussian_Ioi]
  positivity

theorem sq_gauss_le (u : ℝ) : u ^ 2 * Real.exp (-1 * u ^ 2) ≤ 2 * Real.exp (-(1 / 2) * u ^ 2) := by
  have h : u ^ 2 / 2 ≤ Real.exp (u ^ 2 / 2) := by linarith [Real.add_one_le_exp (u ^ 2 / 2)]
  calc u ^ 2 * Real.exp (-1 * u ^ 2) = 2 * (u ^ 2 / 2 * Real.exp (-1 * u ^ 2)) := by ring
    _ ≤ 2 * (Real.exp (u ^ 2 / 2) * Real.exp (-1 * u ^ 2)) := by gcongr
    _ = 2 * Real.exp (-(1 / 2) * u ^ 2) := by rw [← Real.exp_add]; congr 2; ring

theorem usq_phi_int (a : ℝ) : IntegrableOn (fun u => u ^ 2 * phi a u) (Ioi 0) := by
  have hb : IntegrableOn (fun u : ℝ => 2 * Real.exp (-(1 / 2) * u ^ 2)) (Ioi 0) :=
    ((integrable_exp_neg_mul_sq (by norm_num)).const_mul 2).integrableOn
  refine Integrable.mono' hb (((by fun_prop : Continuous fun u : ℝ => u ^ 2).aestronglyMeasurable).mul (phi_meas a)) ?_
  filter_upwards with u
  have := phi_pos a u
  rw [Real.norm_of_nonneg (by positivity)]
  refine le_trans ?_ (sq_gauss_le u)
  have := phi_le a u
  gcongr

theorem div_phi_int (a : ℝ) : IntegrableOn (fun u => a ^ 2 / u ^ 2 * phi a u) (Ioi 0) := by
  refine Integrable.mono' gauss_int ?_ ?_
  · refine ContinuousOn.aestronglyMeasurable (ContinuousOn.mul ?_ (phi_contOn a)) measurableSet_Ioi
    exact ContinuousOn.div (by fun_prop) (by fun_prop) fun u hu => by have : (0 : ℝ) < u := hu; positivity
  · refine (ae_restrict_iff' measurableSet_Ioi).2 (Eventually.of_forall fun u hu => ?_)
    have hu0 : (0 : ℝ) < u := hu
    have := phi_pos a u
    rw [Real.norm_of_nonneg (by positivity)]
    exact phi_sq_le hu0

/-- the mixture representation -/
theorem matern_mixture {a : ℝ} (ha : 0 ≤ a) :
    2 * ∫ u in Ioi (0 : ℝ), u ^ 2 * phi a u = gInt 0 * ((1 + 2 * a) * Real.exp (-(2 * a))) := by
  have hparts : ∫ u in Ioi (0 : ℝ), (phi a u - 2 * (u ^ 2 * phi a u) + 2 * (a ^ 2 / u ^ 2 * phi a u)) = 0 - 0 * phi a 0 := by
    refine integral_Ioi_of_hasDerivAt_of_tendsto (f := fun u => u * phi a u) ?_ ?_ ?_ ?_
    · -- continuity at 0
      suffices h : Tendsto (fun u => u * phi a u) (𝓝[Ici 0] 0) (𝓝 0) by simpa [ContinuousWithinAt] using h
      refine squeeze_zero_norm' (a := fun u => |u|) ?_ ?_
      · refine Eventually.of_forall fun u => ?_
        rw [norm_mul, Real.norm_eq_abs, Real.norm_of_nonneg (phi_pos a u).le]
        have : phi a u ≤ 1 := by
          refine Real.exp_le_one_iff.2 ?_
          have : 0 ≤ a ^ 2 / u ^ 2 := by positivity
          nlinarith [sq_nonneg u]
        nlinarith [abs_nonneg u]
      · have : Continuous fun u : ℝ => |u| := by fun_prop
        simpa using this.continuousWithinAt (s := Ici 0) (x := 0) |>.tendsto
    · intro u hu
      have hu0 : (u : ℝ) ≠ 0 := (show (0 : ℝ) < u from hu).ne'
      have h1 : HasDerivAt (fun u : ℝ => -u ^ 2 - a ^ 2 / u ^ 2) (-(2 * u) - a ^ 2 * (-(2 * u) / (u ^ 2) ^ 2)) u := by
        have hp : HasDerivAt (fun u : ℝ => u ^ 2) (2 * u) u := by simpa using hasDerivAt_pow 2 u
        have hq := (hp.inv (by positivity)).const_mul (a ^ 2)
        exact (hp.neg.sub hq)
      have h2 := (hasDerivAt_id u).mul h1.exp
      refine h2.congr_deriv ?_
      simp only [phi, id]
      field_simp
      ring
    · exact ((phi_int a).sub ((usq_phi_int a).const_mul 2)).add ((div_phi_int a).const_mul 2)
    · -- limit at infinity
      have h1 : Tendsto (fun u : ℝ => 2 * (u⁻¹)) atTop (𝓝 0) := by
        simpa using tendsto_inv_atTop_zero.const_mul (2 : ℝ)
      refine squeeze_zero' ?_ ?_ h1
      · filter_upwards [eventually_gt_atTop 0] with u hu
        exact mul_nonneg hu.le (phi_pos a u).le
      · filter_upwards [eventually_gt_atTop 0] with u hu
        have h2 := sq_gauss_le u
        have h3 : Real.exp (-(1 / 2) * u ^ 2) ≤ 1 := Real.exp_le_one_iff.2 (by nlinarith [sq_nonneg u])
        have h4 := phi_le a u
        have h5 : u * (u * phi a u) ≤ 2 := by
          calc u * (u * phi a u) = u ^ 2 * phi a u := by ring
            _ ≤ u ^ 2 * Real.exp (-1 * u ^ 2) := by gcongr
            _ ≤ 2 := by linarith
        rw [← div_eq_mul_inv, le_div_iff₀ hu]
        linarith
  have hI1 : IntegrableOn (fun u => phi a u - 2 * (u ^ 2 * phi a u)) (Ioi 0) := (phi_int a).sub ((usq_phi_int a).const_mul 2)
  rw [integral_add hI1 ((div_phi_int a).const_mul 2), integral_sub (phi_int a) ((usq_phi_int a).const_mul 2),
    integral_const_mul, integral_const_mul] at hparts
  have hdiv : ∫ u in Ioi (0 : ℝ), a ^ 2 / u ^ 2 * phi a u = a * gInt a := by
    rcases ha.eq_or_lt with rfl | ha
    · simp
    · rw [← gInt_subst ha, ← integral_const_mul]
      congr 1
      funext u
      ring
  rw [hdiv] at hparts
  have : (∫ u in Ioi (0 : ℝ), phi a u) = gInt a := rfl
  rw [this] at hparts
  have h2 := gInt_eq ha
  rw [h2] at hparts
  linarith

/-- the Matern-3/2 kernel is positive semi-definite in every inner product space -/
theorem psd_matern {ι : Type*} [Fintype ι] {V : Type*} [NormedAddCommGroup V] [InnerProductSpace ℝ V] (x : ι → V)
    {c : ℝ} (hc : 0 ≤ c) :
    (Matrix.of fun i j => (1 + c * ‖x i - x j‖) * Real.exp (-(c * ‖x i - x j‖))).PosSemidef := by
  rw [psd_iff_sum]
  refine ⟨fun i j => by simp only [Matrix.of_apply]; rw [norm_sub_rev], fun w => ?_⟩
  set a : ι → ι → ℝ := fun i j => c * ‖x i - x j‖ / 2
  have ha : ∀ i j, 0 ≤ a i j := fun i j => by positivity
  have hC := gInt_pos
  have e : ∀ i j, (1 + c * ‖x i - x j‖) * Real.exp (-(c * ‖x i - x j‖))
      = (2 / gInt 0) * ∫ u in Ioi (0 : ℝ), u ^ 2 * phi (a i j) u := by
    intro i j
    have := matern_mixture (ha i j)
    rw [show c * ‖x i - x j‖ = 2 * a i j by simp only [a]; ring]
    field_simp
    linarith
  simp only [Matrix.of_apply, e]
  have e2 : ∑ i, ∑ j, w i * w j * ((2 / gInt 0) * ∫ u in Ioi (0 : ℝ), u ^ 2 * phi (a i j) u)
      = (2 / gInt 0) * ∫ u in Ioi (0 : ℝ), ∑ i, ∑ j, w i * w j * (u ^ 2 * phi (a i j) u) := by
    rw [integral_finsetSum _ fun i _ => integrable_finsetSum _ fun j _ => (usq_phi_int (a i j)).const_mul _, Finset.mul_sum]
    refine Finset.sum_congr rfl fun i _ => ?_
    rw [integral_finsetSum _ fun j _ => (usq_phi_int (a i j)).const_mul _, Finset.mul_sum]
    refine Finset.sum_congr rfl fun j _ => ?_
    rw [integral_const_mul]
    ring
  rw [e2]
  refine mul_nonneg (by positivity) (setIntegral_nonneg measurableSet_Ioi fun u hu => ?_)
  have hu0 : (0 : ℝ) < u := hu
  have h := (psd_iff_sum.1 (psd_gaussian x (show 0 ≤ c ^ 2 / (4 * u ^ 2) by positivity))).2 w
  have e3 : ∑ i, ∑ j, w i * w j * (u ^ 2 * phi (a i j) u) = u ^ 2 * Real.exp (-u ^ 2) *
      ∑ i, ∑ j, w i * w j * (Matrix.of fun i j => Real.exp (-(c ^ 2 / (4 * u ^ 2) * ‖x i - x j‖ ^ 2))) i j := by
    simp only [Finset.mul_sum, Matrix.of_apply]
    refine Finset.sum_congr rfl fun i _ => Finset.sum_congr rfl fun j _ => ?_
    have : phi (a i j) u = Real.exp (-u ^ 2) * Real.exp (-(c ^ 2 / (4 * u ^ 2) * ‖x i - x j‖ ^ 2)) := by
      rw [phi, ← Real.exp_add]
      congr 1
      simp only [a]
      field_simp
      ring
    rw [this]
    ring
  rw [e3]
  exact mul_nonneg (by positivity) h

end Verif
