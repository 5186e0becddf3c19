import Verif.Spec.Calibration
import Mathlib.LinearAlgebra.Matrix.Trace

/-! Vocabulary for the mean of the log likelihood when data are drawn from a model. -/

namespace Verif

/-- the observations `Y` at the inputs `Xs` are drawn from the LMC model `fk`: jointly normal with its covariances -/
structure FK.Generates (fk : FK) (Xs : List (Arr2 ℝ)) {Ω : Type} [MeasurableSpace Ω] (μ : MeasureTheory.Measure Ω) (Y : Ω → List (NDArr ℝ)) : Prop where
  lens : ∀ ω, ((Y ω).map NDArr.data).map List.length = Xs.map Arr2.rows
  normal : JointlyNormal μ (Xs.map Arr2.rows).sum (fun ω => ((Y ω).map NDArr.data).flatten) (fk.fullCov Xs)

/-- the Kullback-Leibler divergence of the normal distribution of the observations under `fk` from that under `truth` -/
noncomputable def FK.divergence (truth fk : FK) (Xs : List (Arr2 ℝ)) : ℝ :=
  (((fk.covMat Xs)⁻¹ * truth.covMat Xs).trace - (Xs.map Arr2.rows).sum + Real.log (fk.covMat Xs).det - Real.log (truth.covMat Xs).det) / 2

end Verif
