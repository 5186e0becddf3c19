import Verif.Model.Parameterization
import Verif.Spec.Priors

/-! What is attached to the parameters, and what the objective gradient should be. -/

namespace Verif

/-- the priors attached to a parameter -/
def PState.priorsAt (s : PState) (i : ℕ) : Set ℕ := {p | ∃ e ∈ s.priors, e.1 = p ∧ i ∈ e.2}

/-- the constraints of a parameter -/
def PState.constraintsAt (s : PState) (i : ℕ) : Set Con := {c | ∃ e ∈ s.constraints, e.1 = c ∧ i ∈ e.2}

/-- a model with the given parameter values, before any prior or constraint is set -/
def PState.fresh (xs : List ℝ) : PState := ⟨xs, [], []⟩

/-- the state with one parameter value changed -/
def PState.setParam (s : PState) (i : ℕ) (t : ℝ) : PState := { s with params := s.params.set i t }

/-- the call is about parameters of a model with `n` of them -/
def POp.InRange (n : ℕ) : POp → Prop
  | .setPrior ix _ => ∀ i ∈ ix, i < n
  | .unsetPrior ix => ∀ i ∈ ix, i < n
  | .constrain ix _ => ∀ i ∈ ix, i < n
  | .unconstrain ix => ∀ i ∈ ix, i < n
  | .assign i _ => i < n

/-- a prior as the model may use it: a correct gradient, and elementwise (or constant) on arrays -/
def PriorObj.Behaves (p : PriorObj) : Prop :=
  p.GradientCorrect ∧ Vectorised p.lnpdf ∧ (Vectorised p.lnpdfGrad ∨ ∃ g, ∀ v, p.lnpdfGrad v = .scalar g)

/-- the ingredients of the objective are differentiable at the current parameters, with the gradients they claim -/
structure PState.Regular (env : ParamEnv) (s : PState) : Prop where
  priors : ∀ i, ∀ p ∈ s.priorsAt i, (env.prior p).Behaves ∧ s.params.getD i 0 ∈ domainSet (env.prior p).domain
  transf : ∀ i, ∀ c ∈ s.constraintsAt i, ∀ t, env.transf c = some t → HasDerivAt t.logJacobian (t.logJacobianGrad (s.params.getD i 0)) (s.params.getD i 0)
  size : (env.gradient s.params).length = s.params.length
  gradient : ∀ i < s.params.length, HasDerivAt (fun t => env.logLikelihood (s.params.set i t)) ((env.gradient s.params).getD i 0) (s.params.getD i 0)

/-- the gradient entry of parameter `i` is the derivative of the objective in that parameter -/
def PState.EntryCorrect (env : ParamEnv) (s : PState) (i : ℕ) : Prop :=
  HasDerivAt (fun t => (s.setParam i t).objective env) ((s.objectiveGradients env).getD i 0) (s.params.getD i 0)

/-- the parameter has a prior, which is not the last one of the dictionary, and its constraint is a transformation -/
def PState.Lacking (env : ParamEnv) (s : PState) (i : ℕ) (t : Transf) : Prop :=
  (∃ p ∈ s.priorsAt i, ∀ e, s.priors.getLast? = some e → p ≠ e.1) ∧ ∃ c ∈ s.constraintsAt i, env.transf c = some t

end Verif
