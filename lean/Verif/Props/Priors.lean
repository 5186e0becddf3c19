import Verif.Spec.Priors
import Mathlib.Analysis.SpecialFunctions.Log.Deriv
import Mathlib.Probability.Distributions.Gaussian.Real
import Mathlib.MeasureTheory.Integral.IntegralEqImproper
import Mathlib.Tactic.FieldSimp

/-! C53, C54: the priors' gradients, normalisation and moments. -/

namespace Verif

open MeasureTheory Set

/-! ### C53 -/

/-- C53: a Gaussian prior needs a positive variance, its gradient is the derivative of its log density, and both methods are elementwise. -/
theorem C53_gaussian (mu var : ℝ) : (var ≤ 0 → gaussianPrior mu var = .error .valueError) ∧
    (0 < var → ∃ p, gaussianPrior mu var = .ok p ∧ p.domain = some "real" ∧ p.GradientCorrect ∧ Vectorised p.lnpdf ∧ Vectorised p.lnpdfGrad) := by
  constructor
  · intro h; exact if_pos h
  · intro h
    unfold gaussianPrior
    rw [if_neg (not_le.2 h)]
    refine ⟨_, rfl, rfl, fun x _ => ⟨_, _, rfl, rfl, ?_⟩, fun xs => rfl, fun xs => rfl⟩
    show HasDerivAt (fun t : ℝ => -0.5 * Real.log (2 * Real.pi * var) - 0.5 * (t - mu) ^ 2 / var) (-(x - mu) / var) x
    have h1 : HasDerivAt (fun t : ℝ => (t - mu) ^ 2) (2 * (x - mu)) x := by
      refine (((hasDerivAt_id x).sub_const mu).fun_pow 2).congr_deriv ?_
      simp
    refine (((h1.const_mul 0.5).div_const var).const_sub _).congr_deriv ?_
    norm_num
    ring

/-- C53 for `Gamma` -/
theorem C53_gamma (a b : ℝ) : (gammaPrior a b).domain = some "positive" ∧ (gammaPrior a b).GradientCorrect ∧ Vectorised (gammaPrior a b).lnpdf ∧
    Vectorised (gammaPrior a b).lnpdfGrad := by
  refine ⟨rfl, fun x hx => ⟨_, _, rfl, rfl, ?_⟩, fun xs => rfl, fun xs => rfl⟩
  have hx : 0 < x := hx
  show HasDerivAt (fun t : ℝ => -gammaln a + a * Real.log b + (a - 1) * Real.log t - b * t) ((a - 1) / x - b) x
  refine ((((Real.hasDerivAt_log hx.ne').const_mul (a - 1)).const_add _).sub ((hasDerivAt_id x).const_mul b)).congr_deriv ?_
  rw [mul_one, div_eq_mul_inv]

/-- C53 for `InverseGamma` -/
theorem C53_inverse_gamma (a b : ℝ) : (inverseGammaPrior a b).domain = some "positive" ∧ (inverseGammaPrior a b).GradientCorrect ∧
    Vectorised (inverseGammaPrior a b).lnpdf ∧ Vectorised (inverseGammaPrior a b).lnpdfGrad := by
  refine ⟨rfl, fun x hx => ⟨_, _, rfl, rfl, ?_⟩, fun xs => rfl, fun xs => rfl⟩
  have hx : 0 < x := hx
  show HasDerivAt (fun t : ℝ => -gammaln a + a * Real.log b - (a + 1) * Real.log t - b / t) (-(a + 1) / x + b / x ^ 2) x
  have h1 : HasDerivAt (fun t : ℝ => b / t) (b * -(x ^ 2)⁻¹) x := (hasDerivAt_inv hx.ne').const_mul b
  refine ((((Real.hasDerivAt_log hx.ne').const_mul (a + 1)).const_sub _).sub h1).congr_deriv ?_
  field_simp
  ring

/-- C53 for `HalfLaplace`, except that the gradient is not elementwise (see `C53_half_laplace_not_elementwise`): at a number it is the derivative; at an array it
is the one number that is the derivative at each entry. -/
theorem C53_half_laplace_partial (b : ℝ) : (halfLaplacePrior b).domain = some "positive" ∧ (halfLaplacePrior b).GradientCorrect ∧
    Vectorised (halfLaplacePrior b).lnpdf ∧ ∀ xs, (halfLaplacePrior b).lnpdfGrad (.array xs) = .scalar (-1 / b) ∧
      ∀ x ∈ xs, HasDerivAt (halfLaplacePrior b).logDensity (-1 / b) x := by
  have key : ∀ x, HasDerivAt (halfLaplacePrior b).logDensity (-1 / b) x := by
    intro x
    show HasDerivAt (fun t : ℝ => -Real.log b - t / b) (-1 / b) x
    refine (((hasDerivAt_id x).div_const b).const_sub _).congr_deriv ?_
    ring
  exact ⟨rfl, fun x _ => ⟨_, _, rfl, rfl, key x⟩, fun xs => rfl, fun xs => ⟨rfl, fun x _ => key x⟩⟩

/-- C53 fails for arrays of `HalfLaplace` parameters: `lnpdf_grad` of an array is a number, whatever the scale and the array. -/
theorem C53_half_laplace_not_elementwise (b : ℝ) : ¬ Vectorised (halfLaplacePrior b).lnpdfGrad := fun h => by
  have := h []
  cases this

/-- the default noise prior is a case of C53: `Gamma(1, 2)` at 3 has gradient -2 -/
example : ∃ g, (gammaPrior 1 2).lnpdfGrad (.scalar 3) = .scalar g ∧ g = -2 ∧ HasDerivAt (gammaPrior 1 2).logDensity g 3 := by
  obtain ⟨v, g, h1, h2, h3⟩ := (C53_gamma 1 2).2.1 3 (show (0 : ℝ) < 3 by norm_num)
  refine ⟨g, h2, ?_, h3⟩
  have : PyNum.scalar ((1 - 1) / 3 - 2) = PyNum.scalar g := h2
  have := PyNum.scalar.inj this
  rw [← this]; norm_num

/-! ### C54 -/

theorem exp_gamma_density {a b x : ℝ} (ha : 0 < a) (hb : 0 < b) (hx : 0 < x) :
    Real.exp ((gammaPrior a b).logDensity x) = b ^ a / Real.Gamma a * (x ^ (a - 1) * Real.exp (-(b * x))) := by
  show Real.exp (-gammaln a + a * Real.log b + (a - 1) * Real.log x - b * x) = _
  unfold gammaln
  have hG := Real.Gamma_pos_of_pos ha
  rw [show -Real.log (Real.Gamma a) + a * Real.log b + (a - 1) * Real.log x - b * x =
    (a * Real.log b - Real.log (Real.Gamma a)) + ((a - 1) * Real.log x + -(b * x)) by ring, Real.exp_add, Real.exp_sub, Real.exp_add, Real.exp_log hG,
    Real.rpow_def_of_pos hb, Real.rpow_def_of_pos hx, mul_comm (Real.log b), mul_comm (Real.log x)]

theorem gamma_moment {a b : ℝ} (ha : 0 < a) (hb : 0 < b) (s : ℝ) (hs : 0 < a + s) :
    ∫ x in Ioi (0 : ℝ), x ^ s * Real.exp ((gammaPrior a b).logDensity x) = Real.Gamma (a + s) / (Real.Gamma a * b ^ s) := by
  have hG := Real.Gamma_pos_of_pos ha
  have e : ∀ x ∈ Ioi (0 : ℝ), x ^ s * Real.exp ((gammaPrior a b).logDensity x) = b ^ a / Real.Gamma a * (x ^ (a + s - 1) * Real.exp (-(b * x))) := by
    intro x hx
    rw [exp_gamma_density ha hb hx, show a + s - 1 = s + (a - 1) by ring, Real.rpow_add hx]
    ring
  rw [setIntegral_congr_fun measurableSet_Ioi e, integral_const_mul, Real.integral_rpow_mul_exp_neg_mul_Ioi hs hb, Real.div_rpow zero_le_one hb.le,
    Real.one_rpow, Real.rpow_add hb]
  have := Real.rpow_pos_of_pos hb a
  have := Real.rpow_pos_of_pos hb s
  field_simp

/-- C54: the density of a Gaussian prior with positive variance integrates to 1. -/
theorem C54_gaussian (mu var : ℝ) (h : 0 < var) : ∃ p, gaussianPrior mu var = .ok p ∧ ∫ x in domainSet p.domain, Real.exp (p.logDensity x) = 1 := by
  unfold gaussianPrior
  rw [if_neg (not_le.2 h)]
  refine ⟨_, rfl, ?_⟩
  show ∫ x in (univ : Set ℝ), Real.exp (-0.5 * Real.log (2 * Real.pi * var) - 0.5 * (x - mu) ^ 2 / var) = 1
  rw [Measure.restrict_univ]
  have hv : (Real.toNNReal var : ℝ) = var := Real.coe_toNNReal var h.le
  have h2 := ProbabilityTheory.integral_gaussianPDFReal_eq_one mu (v := Real.toNNReal var) (by rw [Ne, Real.toNNReal_eq_zero]; exact not_le.2 h)
  rw [← h2]
  congr 1
  funext x
  rw [ProbabilityTheory.gaussianPDFReal_def, Real.exp_sub]
  simp only [hv]
  have hp : 0 < 2 * Real.pi * var := by positivity
  rw [show -0.5 * Real.log (2 * Real.pi * var) = -(Real.log (2 * Real.pi * var) / 2) by ring, Real.exp_neg, ← Real.log_sqrt hp.le,
    Real.exp_log (Real.sqrt_pos.2 hp), div_eq_mul_inv, ← Real.exp_neg]
  congr 2
  field_simp
  norm_num
  ring

/-- C54 for `Gamma` with positive parameters -/
theorem C54_gamma (a b : ℝ) (ha : 0 < a) (hb : 0 < b) : ∫ x in domainSet (gammaPrior a b).domain, Real.exp ((gammaPrior a b).logDensity x) = 1 := by
  have := gamma_moment ha hb 0 (by linarith)
  simp only [Real.rpow_zero, one_mul, add_zero, mul_one] at this
  exact this.trans (div_self (Real.Gamma_pos_of_pos ha).ne')

theorem gamma_integrable {a b : ℝ} (ha : 0 < a) (hb : 0 < b) (s : ℝ) (hs : 0 < a + s) :
    IntegrableOn (fun x : ℝ => x ^ s * Real.exp ((gammaPrior a b).logDensity x)) (Ioi 0) := by
  by_contra h
  have h1 := gamma_moment ha hb s hs
  rw [integral_undef h] at h1
  have : 0 < Real.Gamma (a + s) / (Real.Gamma a * b ^ s) :=
    div_pos (Real.Gamma_pos_of_pos hs) (mul_pos (Real.Gamma_pos_of_pos ha) (Real.rpow_pos_of_pos hb s))
  linarith

/-- C54: `Gamma.from_EV(E, V)` has density integrating to 1, expected value `E` and variance `V`. -/
theorem C54_gamma_moments (E V : ℝ) (hE : 0 < E) (hV : 0 < V) :
    ∫ x in Ioi (0 : ℝ), Real.exp ((gammaFromEV E V).logDensity x) = 1 ∧ ∫ x in Ioi (0 : ℝ), x * Real.exp ((gammaFromEV E V).logDensity x) = E ∧
      ∫ x in Ioi (0 : ℝ), (x - E) ^ 2 * Real.exp ((gammaFromEV E V).logDensity x) = V := by
  have ha : 0 < E ^ 2 / V := by positivity
  have hb : 0 < E / V := by positivity
  have hG := (Real.Gamma_pos_of_pos ha).ne'
  have m0 := C54_gamma (E ^ 2 / V) (E / V) ha hb
  have m1 := gamma_moment ha hb 1 (by linarith)
  have m2 := gamma_moment ha hb 2 (by linarith)
  have i0 := gamma_integrable ha hb 0 (by linarith)
  have i1 := gamma_integrable ha hb 1 (by linarith)
  have i2 := gamma_integrable ha hb 2 (by linarith)
  rw [show E ^ 2 / V + 2 = E ^ 2 / V + 1 + 1 by ring, Real.Gamma_add_one (by positivity : E ^ 2 / V + 1 ≠ 0), Real.Gamma_add_one ha.ne'] at m2
  rw [Real.Gamma_add_one ha.ne'] at m1
  simp only [Real.rpow_one, Real.rpow_zero, one_mul, Real.rpow_ofNat] at m1 m2 i0 i1 i2
  have e0 : ∫ x in Ioi (0 : ℝ), Real.exp ((gammaFromEV E V).logDensity x) = 1 := m0
  have e1 : ∫ x in Ioi (0 : ℝ), x * Real.exp ((gammaFromEV E V).logDensity x) = E := by
    unfold gammaFromEV
    rw [m1]
    field_simp
  have e2 : ∫ x in Ioi (0 : ℝ), x ^ 2 * Real.exp ((gammaFromEV E V).logDensity x) = E ^ 2 + V := by
    unfold gammaFromEV
    rw [m2]
    field_simp
  refine ⟨e0, e1, ?_⟩
  have ex : ∀ x : ℝ, (x - E) ^ 2 * Real.exp ((gammaFromEV E V).logDensity x) = x ^ 2 * Real.exp ((gammaFromEV E V).logDensity x)
      - (2 * E) * (x * Real.exp ((gammaFromEV E V).logDensity x)) + E ^ 2 * Real.exp ((gammaFromEV E V).logDensity x) := fun x => by ring
  simp only [ex]
  have j0 : IntegrableOn (fun x : ℝ => E ^ 2 * Real.exp ((gammaFromEV E V).logDensity x)) (Ioi 0) := Integrable.const_mul i0 _
  have j2 : IntegrableOn (fun x : ℝ => x ^ 2 * Real.exp ((gammaFromEV E V).logDensity x)) (Ioi 0) := i2
  have j1 : IntegrableOn (fun x : ℝ => (2 * E) * (x * Real.exp ((gammaFromEV E V).logDensity x))) (Ioi 0) := Integrable.const_mul i1 _
  rw [integral_add (f := fun x : ℝ => x ^ 2 * Real.exp ((gammaFromEV E V).logDensity x) - (2 * E) * (x * Real.exp ((gammaFromEV E V).logDensity x)))
    (Integrable.sub j2 j1) j0, integral_sub j2 j1, integral_const_mul, integral_const_mul, e0, e1, e2]
  ring

/-- C54 for `InverseGamma` with positive parameters -/
theorem C54_inverse_gamma (a b : ℝ) (ha : 0 < a) (hb : 0 < b) :
    ∫ x in domainSet (inverseGammaPrior a b).domain, Real.exp ((inverseGammaPrior a b).logDensity x) = 1 := by
  rw [← C54_gamma a b ha hb]
  show ∫ x in Ioi (0 : ℝ), Real.exp ((inverseGammaPrior a b).logDensity x) = ∫ x in Ioi (0 : ℝ), Real.exp ((gammaPrior a b).logDensity x)
  rw [← integral_comp_rpow_Ioi (fun x => Real.exp ((gammaPrior a b).logDensity x)) (show (-1 : ℝ) ≠ 0 by norm_num)]
  refine setIntegral_congr_fun measurableSet_Ioi fun x (hx : 0 < x) => ?_
  show Real.exp (-gammaln a + a * Real.log b - (a + 1) * Real.log x - b / x) =
    (|(-1 : ℝ)| * x ^ ((-1 : ℝ) - 1)) • Real.exp (-gammaln a + a * Real.log b + (a - 1) * Real.log (x ^ (-1 : ℝ)) - b * x ^ (-1 : ℝ))
  rw [Real.log_rpow hx, abs_neg, abs_one, one_mul, smul_eq_mul, Real.rpow_def_of_pos hx (-1 - 1), ← Real.exp_add, Real.rpow_neg_one]
  congr 1
  rw [div_eq_mul_inv]
  ring

/-- C54 for `HalfLaplace` with a positive scale -/
theorem C54_half_laplace (b : ℝ) (hb : 0 < b) : ∫ x in domainSet (halfLaplacePrior b).domain, Real.exp ((halfLaplacePrior b).logDensity x) = 1 := by
  rw [← C54_gamma 1 (1 / b) one_pos (by positivity)]
  show ∫ x in Ioi (0 : ℝ), Real.exp ((halfLaplacePrior b).logDensity x) = ∫ x in Ioi (0 : ℝ), Real.exp ((gammaPrior 1 (1 / b)).logDensity x)
  congr 1
  funext x
  show Real.exp (-Real.log b - x / b) = Real.exp (-gammaln 1 + 1 * Real.log (1 / b) + (1 - 1) * Real.log x - 1 / b * x)
  rw [gammaln, Real.Gamma_one, Real.log_one, one_div, Real.log_inv]
  congr 1
  ring

/-- the numbers of `from_EV(2, 3)`: mean 2 and variance 3 -/
example : ∫ x in Ioi (0 : ℝ), x * Real.exp ((gammaFromEV 2 3).logDensity x) = 2 ∧ ∫ x in Ioi (0 : ℝ), (x - 2) ^ 2 * Real.exp ((gammaFromEV 2 3).logDensity x) = 3 :=
  (C54_gamma_moments 2 3 (by norm_num) (by norm_num)).2

end Verif
