import Verif.Model.Priors
import Mathlib.Analysis.Calculus.Deriv.Basic

/-! What a prior promises. -/

namespace Verif

/-- the number in a result, if it is one -/
def PyNum.item : PyNum → ℝ
  | .scalar x => x
  | .array _ => 0

/-- the log density at a point -/
def PriorObj.logDensity (p : PriorObj) (x : ℝ) : ℝ := (p.lnpdf (.scalar x)).item

/-- the set a domain name stands for -/
def domainSet : Option String → Set ℝ
  | some "real" => Set.univ
  | some "positive" => Set.Ioi 0
  | some "negative" => Set.Iio 0
  | _ => ∅

/-- at a number, `lnpdf` and `lnpdf_grad` give numbers, and the latter is the derivative of the former on the domain -/
def PriorObj.GradientCorrect (p : PriorObj) : Prop :=
  ∀ x ∈ domainSet p.domain, ∃ v g, p.lnpdf (.scalar x) = .scalar v ∧ p.lnpdfGrad (.scalar x) = .scalar g ∧ HasDerivAt p.logDensity g x

/-- "mapping over each point individually should produce the same result as passing in a list of those points" (priors.py 32-36) -/
def Vectorised (f : PyNum → PyNum) : Prop := ∀ xs : List ℝ, f (.array xs) = .array (xs.map fun x => (f (.scalar x)).item)

end Verif
