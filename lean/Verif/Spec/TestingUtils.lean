import Verif.Model.TestingUtils
import Verif.Spec.Kern
import Mathlib.LinearAlgebra.Matrix.NonsingularInverse
import Mathlib.LinearAlgebra.Matrix.PosDef

/-! Vocabulary for the matrices of the test-data generators. -/

namespace Verif

/-- the symmetric Toeplitz matrix with the given top row -/
def toepMat (top : List ℝ) : Matrix (Fin top.length) (Fin top.length) ℝ := fun i j => top.getD ((i : ℤ) - (j : ℤ)).natAbs 0

end Verif

namespace Verif
open Matrix

/-- the covariance of equispaced points: `k` of the distance between them, where `dists` lists the distances from the first point -/
noncomputable def Kern.onLine (k : Kern) (dists : List ℝ) : Matrix (Fin dists.length) (Fin dists.length) ℝ :=
  fun i j => k.doc (dists.getD ((i : ℤ) - (j : ℤ)).natAbs 0)

/-- `-½ yᵀ K⁻¹ y - ½ log |K|`: the logarithm of the centred Gaussian density without its constant -/
noncomputable def gaussLog {n : ℕ} (K : Matrix (Fin n) (Fin n) ℝ) (y : Fin n → ℝ) : ℝ := -(1 / 2) * (y ⬝ᵥ K⁻¹ *ᵥ y) - 1 / 2 * Real.log K.det

end Verif
