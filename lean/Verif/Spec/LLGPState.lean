import Verif.Spec.Predict
import Verif.Model.LLGPState

/-! Specification vocabulary for histories. -/

namespace Verif

/-- the environments of an operation -/
def Op.env : Op → Option Env
  | .new _ e => some e
  | .set _ _ e => some e
  | .optimize _ => none
  | .ask _ _ e => some e

/-- every pool an operation uses finishes its tasks -/
def Op.Works (op : Op) : Prop := ∀ e, op.env = some e → e.Works

/-- the answer to a question computed from nothing but the attributes of the model it is asked of -/
noncomputable def LLGP.answer (sv : Solvers) (e : Env) (m : LLGP) : Query → Except PyErr Answer
  | .predict Xs => (m.gp.predict (m.rawPredict sv e) Xs).map .predicted
  | .quantiles Xs qs => (m.gp.predictQuantiles (m.rawPredict sv e) Xs qs).map .quantiles
  | .covariance => m.dense.map fun l => .matrix l.K
  | .logDet => m.dense.map fun l => .extended (logDetOf l)
  | .normalQuadratic => m.normalQuadratic.map .number
  | .logLikelihood => (do let l ← m.dense; m.logLikelihoodOf l).map .extended

/-- creating a model, changing parameters or `optimize` (not: asking a question) -/
def Op.Changes : Op → Prop
  | .ask _ _ _ => False
  | _ => True

/-- In this history (the operations with what they returned or raised) no operation except questions raised. -/
def Completed (l : List (Op × Except PyErr Answer)) : Prop := ∀ p ∈ l, p.1.Changes → ∃ a, p.2 = .ok a

/-- the operations of a history with their results -/
noncomputable def trace (sv : Solvers) (ops : List Op) : List (Op × Except PyErr Answer) := ops.zip (history true sv ops World.start).1

/-- The number of updates of model `i` since it was created or since its last `optimize`, if there were `n` before. Creating it is one. -/
def updatesSince (i : ℕ) : ℕ → List (Op × Except PyErr Answer) → ℕ
  | n, [] => n
  | n, (.new _ _, r) :: l => updatesSince i (match r with | .ok (.model j) => if j = i then 1 else n | _ => n) l
  | n, (.set j _ _, _) :: l => updatesSince i (if j = i then n + 1 else n) l
  | n, (.optimize j, _) :: l => updatesSince i (if j = i then 0 else n) l
  | n, (.ask _ _ _, _) :: l => updatesSince i n l

/-- The constructor arguments of model `i` and the last parameter values it was given (`none`: those of the constructor), if it was created. -/
def setUp (i : ℕ) : Option (LLGPArgs × Option FK) → List (Op × Except PyErr Answer) → Option (LLGPArgs × Option FK)
  | s, [] => s
  | s, (.new a _, r) :: l => setUp i (match r with | .ok (.model j) => if j = i then some (a, none) else s | _ => s) l
  | s, (.set j fk _, _) :: l => setUp i (if j = i then s.map fun af => (af.1, some fk) else s) l
  | s, (.optimize _, _) :: l => setUp i s l
  | s, (.ask _ _ _, _) :: l => setUp i s l

/-- all five series have `n` entries -/
def Metrics.AllHave (x : Metrics) (n : ℕ) : Prop :=
  x.iterations.length = n ∧ x.gradNorms.length = n ∧ x.gradError.length = n ∧ x.solvError.length = n ∧ x.logLikely.length = n

end Verif
