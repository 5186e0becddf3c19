import Verif.Spec.LLGPValid
import Verif.Spec.Optimization
import Verif.Model.Optimizer
import Verif.Props.KernPsd

/-! Specification vocabulary for `optimize`. -/

namespace Verif

/-- The numbers of linked parameters are those the constructor leaves (see `C90_constructed`), and no periodic kernel reads two dimensions (see C25). -/
structure FK.Tunable (fk : FK) : Prop where
  vecs : fk.linkedVecs = fk.numLmcTotal + fk.numSlfmTotal
  diags : fk.linkedDiags = fk.numLmcTotal
  line : ∀ q < fk.Q, (fk.kernels.getD q (.identity none)).aperiodic ∨ ∃ c, fk.kdims q = [c]

/-- the period of a periodic kernel is above the limit under which `StdPeriodic` gives up -/
def Kern.PeriodOK : Kern → Prop
  | .stdPeriodic _ T _ => Real.exp (-200) < T
  | .scaled k _ _ => k.PeriodOK
  | _ => True

/-- the points of the optimiser have as many coordinates as the start -/
def Climb.Keeps (c : Climb) : Prop := ∀ x gs, (c.ask x gs).length = x.length ∧ (c.point x gs).length = x.length

/-- the program that gives model `i` the parameters of the points `xs`, one after the other, in the circumstances `es k`, `es (k + 1)`, … -/
noncomputable def visits (i : ℕ) (fk : FK) (es : ℕ → Env) : ℕ → List (List ℝ) → List Op
  | _, [] => []
  | k, x :: xs => .set i (fk.setOptimizerArray x) (es k) :: visits i fk es (k + 1) xs

/-- the objective of the optimiser at the point `x`: the negative log marginal likelihood with the interpolated covariance -/
noncomputable def LLGP.objectiveAt (m : LLGP) (extra : List ℕ × List ℕ → ℝ) (x : List ℝ) : ℝ := -(m.fk.setOptimizerArray x).skiLogLik m.axesOf extra m.gp.Xs m.gp.Ys

end Verif
