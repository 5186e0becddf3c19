import Verif.Model.Search
import Verif.Spec.Documented
import Verif.Spec.LLGPValid

/-! What a program does that evaluates the objective at points. -/

namespace Verif

/-- the optimiser only makes points of the right length -/
def Search.Keeps (c : Search) : Prop := ∀ x vs, (∀ y, c.next x vs = some y → y.length = x.length) ∧ (c.point x vs).length = x.length

/-- the program that gives model `i` the parameters of the points `ys`, one after the other, and asks each time for the log likelihood, in the circumstances
`es k`, `es (k + 1)`, … -/
noncomputable def evaluations (i : ℕ) (fk : FK) (es : ℕ → Env) : ℕ → List (List ℝ) → List Op
  | _, [] => []
  | k, y :: ys => .set i (fk.setOptimizerArray y) (es k) :: .ask i .logLikelihood (es k) :: evaluations i fk es (k + 1) ys

/-- what the optimiser is told: at every point it asks for, when it asks for it, minus the log likelihood and the gradients of the objective of the model with these parameters -/
def Told (sv : Solvers) (i : ℕ) (fk : FK) (es : ℕ → Env) (c : Search) (x : List ℝ) (prog : List Op) (before : List (ℝ × List ℝ)) (ys : List (List ℝ)) (vs : List (ℝ × List ℝ)) : Prop :=
  vs.length = ys.length ∧ ∀ k < ys.length, c.next x (before ++ vs.take k) = some (ys.getD k []) ∧ ∃ m v,
    modelsAfter sv (prog ++ evaluations i fk es before.length (ys.take k) ++ [.set i (fk.setOptimizerArray (ys.getD k [])) (es (before.length + k))]) i = some m ∧
    m.fk = fk.setOptimizerArray (ys.getD k []) ∧
    Tells sv (prog ++ evaluations i fk es before.length (ys.take k) ++ [.set i (fk.setOptimizerArray (ys.getD k [])) (es (before.length + k))]) i .logLikelihood
      (es (before.length + k)) (.extended (some v)) ∧
    vs.getD k (0, []) = (-v, m.objectiveGrads)

end Verif
