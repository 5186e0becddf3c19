import Verif.Model.Base
import Mathlib.Analysis.SpecialFunctions.Log.Basic
import Mathlib.Analysis.SpecialFunctions.Gamma.Basic

/-! `runlmc/parameterization/priors.py`. -/

namespace Verif

/-- the arguments and results of the numeric methods: a float or a 1-D array -/
inductive PyNum where
  | scalar (x : ℝ)
  | array (xs : List ℝ)

/-- arithmetic on a float or, elementwise, on an array -/
def PyNum.map (f : ℝ → ℝ) : PyNum → PyNum
  | .scalar x => .scalar (f x)
  | .array xs => .array (xs.map f)

/-- A prior object: its `domain` and its methods, priors.py 23-64. (`__str__` is not modelled.) -/
structure PriorObj where
  domain : Option String
  lnpdf : PyNum → PyNum
  lnpdfGrad : PyNum → PyNum

/-- scipy's `gammaln`: `log |Γ(a)|` (`Real.log` takes the absolute value) -/
noncomputable def gammaln (a : ℝ) : ℝ := Real.log (Real.Gamma a)

/-- `Gaussian(mu, var)`, priors.py 76-95. (Hyperparameters are numbers; a `Param` used as one is read once here.) -/
noncomputable def gaussianPrior (mu var : ℝ) : Except PyErr PriorObj :=
  if var ≤ 0 then .error .valueError
  else
    let constant := -0.5 * Real.log (2 * Real.pi * var)
    .ok { domain := some "real"
          lnpdf := PyNum.map fun x => constant - 0.5 * (x - mu) ^ 2 / var
          lnpdfGrad := PyNum.map fun x => -(x - mu) / var }

/-- `Gamma(a, b)`, priors.py 98-115. Parameters that are not positive are not rejected (numpy would go on with NaN). -/
noncomputable def gammaPrior (a b : ℝ) : PriorObj :=
  let constant := -gammaln a + a * Real.log b
  { domain := some "positive"
    lnpdf := PyNum.map fun x => constant + (a - 1) * Real.log x - b * x
    lnpdfGrad := PyNum.map fun x => (a - 1) / x - b }

/-- `Gamma.from_EV(E, V)`, priors.py 117-127 -/
noncomputable def gammaFromEV (E V : ℝ) : PriorObj := gammaPrior (E ^ 2 / V) (E / V)

/-- `InverseGamma(a, b)`, priors.py 130-147 -/
noncomputable def inverseGammaPrior (a b : ℝ) : PriorObj :=
  let constant := -gammaln a + a * Real.log b
  { domain := some "positive"
    lnpdf := PyNum.map fun x => constant - (a + 1) * Real.log x - b / x
    lnpdfGrad := PyNum.map fun x => -(a + 1) / x + b / x ^ 2 }

/-- `HalfLaplace(b)`, priors.py 150-164. Its gradient ignores the argument and is a float whatever it was. -/
noncomputable def halfLaplacePrior (b : ℝ) : PriorObj :=
  let constant := -Real.log b
  { domain := some "positive"
    lnpdf := PyNum.map fun x => constant - x / b
    lnpdfGrad := fun _ => .scalar (-1 / b) }

end Verif
