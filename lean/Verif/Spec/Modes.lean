import Verif.Spec.LLGPState
import Verif.Model.Modes

/-! Vocabulary for programs that assign prediction modes. -/

namespace Verif

/-- what the operations of the program return or raise -/
noncomputable def modeResults (sv : Solvers) (M : List ModeOp) : List (Except PyErr Answer) := (modeHistory true sv M ModeWorld.start).1

/-- the operations with their results -/
noncomputable def modeTrace (sv : Solvers) (M : List ModeOp) : List (ModeOp × Except PyErr Answer) := M.zip (modeResults sv M)

/-- the same program without the assignments of modes -/
def withoutModes : List ModeOp → List Op
  | [] => []
  | .op o :: M => o :: withoutModes M
  | .mode _ _ :: M => withoutModes M

/-- the mode last assigned to model `i`, if there is one (assigning to a model that does not exist raises) -/
def lastMode (i : ℕ) : Option String → List (ModeOp × Except PyErr Answer) → Option String
  | s, [] => s
  | s, (.op _, _) :: l => lastMode i s l
  | s, (.mode j t, .ok _) :: l => lastMode i (if j = i then some t else s) l
  | s, (.mode _ _, .error _) :: l => lastMode i s l

/-- a question for a prediction -/
def Op.asksPrediction : Op → Bool
  | .ask _ (.predict _) _ => true
  | .ask _ (.quantiles _ _) _ => true
  | _ => false

/-- every pool finishes its tasks -/
def ModesWork (M : List ModeOp) : Prop := ∀ o, ModeOp.op o ∈ M → o.Works

/-- all operations other than questions for predictions, with their results -/
def otherResults (l : List (Op × Except PyErr Answer)) : List (Op × Except PyErr Answer) := l.filter fun p => !p.1.asksPrediction

/-- the ordinary operations with their results -/
def ordinary : List (ModeOp × Except PyErr Answer) → List (Op × Except PyErr Answer)
  | [] => []
  | (.op o, r) :: l => (o, r) :: ordinary l
  | (.mode _ _, _) :: l => ordinary l

end Verif
