import Verif.Model.Parameterization

/-! Multilevel priors, as in the last cell of `examples/example.ipynb`: a prior whose parameter is itself a `Param` linked to the model. -/

namespace Verif

/-- an argument of a prior's constructor: a number, or a `Param` with one entry, which is the one at the given index of the flat parameter array of the model it
is linked to (example.ipynb 359-364, `shape = Param('shape', initial_value)`, `lmc.link_parameter(shape)`, `InverseGamma(0.5, shape)`) -/
inductive Hyper where
  | num (x : ℝ)
  | param (i : ℕ)

/-- the value of an argument when the parameters are as given: a `Param` is a view of its entry -/
def Hyper.read (ps : List ℝ) : Hyper → ℝ
  | .num x => x
  | .param i => ps.getD i 0

/-- a call of the constructor of a prior -/
inductive PriorCall where
  | gaussian (mu var : Hyper)
  | gamma (a b : Hyper)
  | inverseGamma (a b : Hyper)
  | halfLaplace (b : Hyper)

/-- The constructors when the parameters of the model are `built`, and the methods of the object made when they are `now`: `Gaussian` (priors.py 76-95),
`Gamma` (98-115), `InverseGamma` (130-147), `HalfLaplace` (150-164). All constants are numbers computed in the constructor; the methods use the attributes,
which are the arguments themselves, but for `Gamma`, which keeps `float` of them. -/
noncomputable def PriorCall.make (built : List ℝ) : PriorCall → Except PyErr (List ℝ → PriorObj)
  | .gaussian mu var =>
    if var.read built ≤ 0 then .error .valueError
    else
      let constant := -0.5 * Real.log (2 * Real.pi * var.read built)
      .ok fun now =>
        { domain := some "real"
          lnpdf := PyNum.map fun x => constant - 0.5 * (x - mu.read now) ^ 2 / var.read now
          lnpdfGrad := PyNum.map fun x => -(x - mu.read now) / var.read now }
  | .gamma a b =>
    let fa := a.read built
    let fb := b.read built
    let constant := -gammaln fa + a.read built * Real.log (b.read built)
    .ok fun _ =>
      { domain := some "positive"
        lnpdf := PyNum.map fun x => constant + (fa - 1) * Real.log x - fb * x
        lnpdfGrad := PyNum.map fun x => (fa - 1) / x - fb }
  | .inverseGamma a b =>
    let constant := -gammaln (a.read built) + a.read built * Real.log (b.read built)
    .ok fun now =>
      { domain := some "positive"
        lnpdf := PyNum.map fun x => constant - (a.read now + 1) * Real.log x - b.read now / x
        lnpdfGrad := PyNum.map fun x => -(a.read now + 1) / x + b.read now / x ^ 2 }
  | .halfLaplace b =>
    let constant := -Real.log (b.read built)
    .ok fun now =>
      { domain := some "positive"
        lnpdf := PyNum.map fun x => constant - x / b.read now
        lnpdfGrad := fun _ => .scalar (-1 / b.read now) }

/-- the surroundings when the parameters are `now`, for the prior objects given -/
def ParamEnv.live (env : ParamEnv) (objects : ℕ → List ℝ → PriorObj) (now : List ℝ) : ParamEnv := { env with prior := fun k => objects k now }

/-- `objective_function` (model.py 58-104) with these prior objects -/
noncomputable def PState.liveObjective (env : ParamEnv) (objects : ℕ → List ℝ → PriorObj) (s : PState) : ℝ := s.objective (env.live objects s.params)

/-- `objective_function_gradients` (model.py 75-77 and 106-125) with these prior objects -/
noncomputable def PState.liveGradients (env : ParamEnv) (objects : ℕ → List ℝ → PriorObj) (s : PState) : List ℝ := s.objectiveGradients (env.live objects s.params)

/-- a program of calls about the parameters, with these prior objects -/
noncomputable def runLive (env : ParamEnv) (objects : ℕ → List ℝ → PriorObj) (s : PState) (ops : List POp) : PState :=
  ops.foldl (fun s op => (op.run (env.live objects s.params) s).2) s

end Verif
