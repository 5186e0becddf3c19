import Verif.Model.Multilevel
import Verif.Spec.Parameterization

/-! What a multilevel prior should be. -/

namespace Verif

/-- the prior a call stands for when the parameters of the model have the given values: the one with these numbers as arguments -/
noncomputable def PriorCall.given (ps : List ℝ) : PriorCall → Except PyErr PriorObj
  | .gaussian mu var => gaussianPrior (mu.read ps) (var.read ps)
  | .gamma a b => .ok (gammaPrior (a.read ps) (b.read ps))
  | .inverseGamma a b => .ok (inverseGammaPrior (a.read ps) (b.read ps))
  | .halfLaplace b => .ok (halfLaplacePrior (b.read ps))

/-- the arguments of a call -/
def PriorCall.args : PriorCall → List Hyper
  | .gaussian mu var => [mu, var]
  | .gamma a b => [a, b]
  | .inverseGamma a b => [a, b]
  | .halfLaplace b => [b]

/-- every prior object was made by a constructor, at some values of the parameters -/
def MadePriors (objects : ℕ → List ℝ → PriorObj) : Prop := ∀ k, ∃ (call : PriorCall) (built : List ℝ), call.make built = .ok (objects k)

/-- the prior object does not change with parameter `i` -/
def IgnoresParam (o : List ℝ → PriorObj) (i : ℕ) : Prop := ∀ ps u, o (ps.set i u) = o ps

/-- the entry of parameter `i` of the gradient is the derivative of the objective in that parameter -/
def PState.LiveEntryCorrect (env : ParamEnv) (objects : ℕ → List ℝ → PriorObj) (s : PState) (i : ℕ) : Prop :=
  HasDerivAt (fun u => (s.setParam i u).liveObjective env objects) ((s.liveGradients env objects).getD i 0) (s.params.getD i 0)

end Verif
