import Verif.Model.Optimizer

/-! `optimize` with an optimiser that asks for values of the objective as well as for gradients: the default one, L-BFGS-B, and the others of paramz. -/

namespace Verif

/-- paramz `_objective_grads(x)`, the function `f_fp` the optimiser is given: sets the parameters, which calls `parameters_changed`, and returns the objective
(model.py 58-73, without priors) and its gradients (model.py 75-77). External; the exceptions that paramz ignores are raised, as in `gradsAt`. For a log
likelihood that is not a number the objective is 0 here. -/
noncomputable def objGradsAt (useCache : Bool) (sv : Solvers) (e : Env) (i : ℕ) (x : List ℝ) : PyM (ℝ × List ℝ) := do
  modifySelf i fun m => { m with fk := m.fk.setOptimizerArray x }
  parametersChanged useCache sv e i
  let l ← logLikelihoodM useCache i
  let m ← self i
  return (-(l.getD 0 + 0), m.objectiveGrads)

/-- What an optimiser does with the values and gradients it gets: from the start and those so far, the point where it asks for the next ones, if it goes on, and
the point it returns (`x_opt`). External; nothing else is assumed about it. -/
structure Search where
  next : List ℝ → List (ℝ × List ℝ) → Option (List ℝ)
  point : List ℝ → List (ℝ × List ℝ) → List ℝ

/-- the optimiser's run from `x`, with `vs` the values and gradients so far, ended after `n` more evaluations if it does not stop before -/
noncomputable def searchLoop (useCache : Bool) (sv : Solvers) (es : ℕ → Env) (i : ℕ) (c : Search) (x : List ℝ) : ℕ → List (ℝ × List ℝ) → PyM (List (ℝ × List ℝ))
  | 0, vs => return vs
  | n + 1, vs =>
    match c.next x vs with
    | none => return vs
    | some y => do
      let v ← objGradsAt useCache sv (es vs.length) i y
      searchLoop useCache sv es i c x n (vs ++ [v])

/-- `optimize(optimizer=c)`, in particular `optimize()`: interpolated_llgp.py 186-190 (new metrics), multigp.py 167-197, paramz `Model.optimize` (external: starts at
`optimizer_array`, and assigns `x_opt` to it at the end). `n` bounds the number of evaluations, `es k` are the circumstances of the `k`-th one, the last of which
is the assignment of `x_opt`. -/
noncomputable def searchM (useCache : Bool) (sv : Solvers) (es : ℕ → Env) (i : ℕ) (c : Search) (n : ℕ) : PyM Unit := do
  modifySelf i fun m => m.withMetrics (m.metrics.map fun _ => Metrics.new)
  let m ← self i
  let x := m.fk.optimizerArray
  let vs ← searchLoop useCache sv es i c x n []
  modifySelf i fun m => { m with fk := m.fk.setOptimizerArray (c.point x vs) }
  parametersChanged useCache sv (es vs.length) i

end Verif
