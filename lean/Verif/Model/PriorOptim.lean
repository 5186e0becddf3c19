import Verif.Model.Optimizer
import Verif.Model.Parameterization

/-! `optimize` on an `InterpolatedLLGP` whose parameters have priors. -/

namespace Verif

/-- what `set_prior` has left in the model (priorizable.py 48-64): for every prior object in use the indices, in the flat array of parameters, it was set on -/
structure PriorsOn where
  priors : IndexOps ℕ
  object : ℕ → PriorObj

/-- the surroundings as `log_prior` and `_log_prior_gradients` use them: of a `ParamEnv` they read the prior objects and the transformations only -/
noncomputable def PriorsOn.env (p : PriorsOn) : ParamEnv where
  prior := p.object
  other := fun _ => none
  negative := logexpTransf
  logLikelihood := fun _ => 0
  gradient := fun xs => xs.map fun _ => 0
  notify := fun _ => none
  seen := fun _ _ => []

/-- the indices of the parameters made with the constraint `Logexp()` (see `Slot.logexp`) -/
def FK.constrainedIx (fk : FK) : Finset ℕ := (Finset.range fk.slots.length).filter fun k => (fk.slots.getD k (.noise 0)).logexp = true

/-- the flat parameter array of the model, with priors, and the constraints its parameters were made with -/
def FK.priorState (fk : FK) (p : PriorsOn) : PState := ⟨fk.slots.map fk.read, p.priors, [(.logexp, fk.constrainedIx)]⟩

/-- `_transform_gradients(objective_function_gradients())`: model.py 75-77 and 106-125, then paramz's chain rule -/
noncomputable def LLGP.priorGrads (m : LLGP) (p : PriorsOn) : List ℝ :=
  (m.fk.slots.zip ((m.fk.priorState p).logPriorGradients p.env)).map fun sg =>
    sg.1.factor (m.fk.read sg.1) (-((m.grad.getD ⟨[], [], [], []⟩).read sg.1 + sg.2))

/-- paramz `_grads(x)`, the function `fp` the optimiser is given, as in `gradsAt`, for a model with priors -/
noncomputable def priorGradsAt (useCache : Bool) (sv : Solvers) (e : Env) (i : ℕ) (p : PriorsOn) (x : List ℝ) : PyM (List ℝ) := do
  modifySelf i fun m => { m with fk := m.fk.setOptimizerArray x }
  parametersChanged useCache sv e i
  let m ← self i
  return m.priorGrads p

end Verif
