import Verif.Spec.Search
import Verif.Spec.Optimizer
import Verif.Spec.Iterative
import Mathlib.Analysis.Calculus.Deriv.Basic

/-! The objective an optimiser is given, as a function of the point. -/

namespace Verif

/-- After the program `ops`, in the circumstances `e` but with any probes `z`, an optimiser that asks for the objective of model `i` at a point `y` of `len` coordinates is told the
value `V y` and the gradient `G y z`. -/
def Objective (sv : Solvers) (ops : List Op) (i : ℕ) (e : Env) (len nIt n : ℕ) (V : List ℝ → ℝ) (G : List ℝ → (Fin nIt → Fin n → Bool) → List ℝ) : Prop :=
  ∀ y, y.length = len → ∀ z, (objGradsAt true sv { e with z := tableBits z } i y (history true sv ops World.start).2).1 = .ok (V y, G y z)

/-- the gradients `G` are, on average over the equally likely probes, those of the function `V`, at the point `x` along coordinate `k` -/
def AverageGradientOf {nIt n : ℕ} (V : List ℝ → ℝ) (G : List ℝ → (Fin nIt → Fin n → Bool) → List ℝ) (x : List ℝ) (k : ℕ) : Prop :=
  HasDerivAt (fun t => V (x.set k t)) ((∑ z, (G x z).getD k 0) / 2 ^ (nIt * n)) (x.getD k 0)

/-- half the difference of the log determinants of the exact and the interpolated covariance, for the parameters of the point `y` -/
noncomputable def LLGP.gapAt (m : LLGP) (y : List ℝ) : ℝ :=
  (Real.log ((m.fk.setOptimizerArray y).covMat m.gp.Xs).det - Real.log ((m.fk.setOptimizerArray y).skiMat m.axesOf m.fk.extraOf m.gp.Xs).det) / 2

end Verif
