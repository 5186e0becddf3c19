import Verif.Model.Gpy
import Verif.Spec.Kern
import Verif.Spec.MultiGP
import Verif.Spec.Predict

/-! What is expected of the GPy wrapper. -/

namespace Verif

/-- GPy's documented formulas, as functions of the distance between two points -/
noncomputable def GpyKern.formula : GpyKern → ℝ → ℝ
  | .rbf v l _, r => v * Real.exp (-(1 / 2) * (r / l) ^ 2)
  | .matern32 v l _, r => v * (1 + Real.sqrt 3 * (r / l)) * Real.exp (-(Real.sqrt 3 * (r / l)))
  | .stdPeriodic v l T _, r => v * Real.exp (-(1 / 2) * (Real.sin (Real.pi * r / T) / l) ^ 2)

/-- the dimensions it acts on -/
def GpyKern.dims : GpyKern → Option (List ℕ)
  | .rbf _ _ a => a
  | .matern32 _ _ a => a
  | .stdPeriodic _ _ _ a => a

/-- the columns of its input a GPy kernel with `input_dim=1` reads: `active_dims` or, without them, the first column (GPy's default is `range(input_dim)`) -/
def GpyKern.columns (k : GpyKern) : List ℕ := k.dims.getD [0]

/-- the kernels that read one coordinate: `active_dims` has one entry or is not given -/
def Kern.OneDim (k : Kern) : Prop := k.activeDims = none ∨ ∃ c, k.activeDims = some [c]

/-- the row for point `i` of output `d`: its coordinates, then `d` -/
def queryRow (P : ℕ) (Qs : List (NDArr ℝ)) (d i : ℕ) : List ℝ := vmk P (queryPoint P Qs d i) ++ [(d : ℝ)]

/-- a GPy model that predicts point by point: what it returns for a row depends on that row and its output index only -/
structure GpyModel.Pointwise (g : GpyModel) (P : ℕ) (mean var : List ℝ → ℕ → ℝ) (quant : ℝ → List ℝ → ℕ → ℝ) : Prop where
  predict : ∀ X mt, X.WF → X.rows = mt.length → X.cols = P + 1 →
    g.predict X mt = .ok (Arr2.of X.rows 1 fun i _ => mean (X.row i) (mt.getD i 0), Arr2.of X.rows 1 fun i _ => var (X.row i) (mt.getD i 0))
  quantiles : ∀ X qs mt, X.WF → X.rows = mt.length → X.cols = P + 1 →
    g.predictQuantiles X qs mt = .ok (qs.map fun q => Arr2.of X.rows 1 fun i _ => quant q (X.row i) (mt.getD i 0))

end Verif
