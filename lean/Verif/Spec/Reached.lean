import Verif.Spec.LLGPValid
import Verif.Props.LLGPState
import Verif.Spec.Values

/-! Vocabulary for statements about models in programs. -/

namespace Verif

/-- after the program `ops`, which uses its models as documented, variable `i` holds the model `m`, which was made with the arguments `a` -/
structure Held (sv : Solvers) (ops : List Op) (i : ℕ) (a : LLGPArgs) (m : LLGP) : Prop where
  valid : ValidFrom [] ops
  model : modelsAfter sv ops i = some m
  args : ∃ given, setUp i none (trace sv ops) = some (a, given)

/-- if the program `ops` goes on to ask model `i` for predictions at `Qs`, the answer is `x` -/
def Predicts (sv : Solvers) (ops : List Op) (i : ℕ) (Qs : List (NDArr ℝ)) (e : Env) (x : Except PyErr Predicted) : Prop :=
  results sv (ops ++ [.ask i (.predict Qs) e]) = results sv ops ++ [x.map .predicted]

/-- query points for a model: one array of points for each output -/
def LLGP.Accepts (m : LLGP) (Qs : List (NDArr ℝ)) : Prop := QueriesOK m.gp.outputDim m.gp.inputDim Qs ∧ ∀ Q ∈ Qs, Q.WF

end Verif
