import Verif.Model.PriorOptim
import Verif.Spec.Optimizer
import Verif.Spec.Parameterization

/-! What `optimize` should maximise when the parameters have priors. -/

namespace Verif

/-- the parameter at an index of the flat array -/
def FK.slotAt (fk : FK) (k : ℕ) : Slot := fk.slots.getD k (.noise 0)

/-- The log density of the parameters that have a prior, in the coordinates of the optimiser: the parameter with coordinate `x` is `decode x`, so by the change of
variables the density of `x` is that of the parameter times the derivative of `decode`. -/
noncomputable def FK.logPriorAt (fk : FK) (p : PriorsOn) (x : List ℝ) : ℝ :=
  (p.priors.map fun e => ∑ j ∈ e.2, ((p.object e.1).logDensity ((fk.slotAt j).decode (x.getD j 0)) + Real.log (deriv (fk.slotAt j).decode (x.getD j 0)))).sum

/-- the negative log posterior density of the coordinates, up to a constant -/
noncomputable def LLGP.posteriorAt (m : LLGP) (extra : List ℕ × List ℕ → ℝ) (p : PriorsOn) (x : List ℝ) : ℝ := m.objectiveAt extra x - m.fk.logPriorAt p x

/-- Every parameter has at most one prior (C56), one of those the library has (or any other that keeps the promises of C53), on positive numbers for the parameters that are kept positive
and on all numbers for the others (so that `set_prior` does not change the constraints). -/
structure PriorsOn.Suit (p : PriorsOn) (fk : FK) : Prop where
  keys : (p.priors.map Prod.fst).Nodup
  unique : ∀ e ∈ p.priors, ∀ e' ∈ p.priors, ∀ j, j ∈ e.2 → j ∈ e'.2 → e.1 = e'.1
  range : ∀ e ∈ p.priors, ∀ j ∈ e.2, j < fk.slots.length
  behaves : ∀ e ∈ p.priors, (p.object e.1).Behaves
  domain : ∀ e ∈ p.priors, ∀ j ∈ e.2, (p.object e.1).domain = if (fk.slotAt j).logexp then some "positive" else some "real"

/-- parameter `k` has a prior, and its prior object is not the last of the dictionary -/
def PriorsOn.NotLast (p : PriorsOn) (k : ℕ) : Prop := ∃ e ∈ p.priors, k ∈ e.2 ∧ ∀ l, p.priors.getLast? = some l → e.1 ≠ l.1

end Verif
