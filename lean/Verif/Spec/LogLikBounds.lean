import Verif.Spec.Influence
import Verif.Spec.Likelihood

/-! Vocabulary for C116: the range of the log likelihood. -/

namespace Verif

/-- the log determinant the covariance would have if the observations were noise only -/
noncomputable def LLGPArgs.noiseLogDet (a : LLGPArgs) (noise : List ℝ) : ℝ :=
  ∑ d ∈ Finset.range a.Xs.length, (queryLens a.Xs).getD d 0 * Real.log (noise.getD d 0)

/-- the log determinant the covariance would have if the observations were independent: the sum of the logarithms of the variances of the observations (prior variance at the input plus noise) -/
noncomputable def LLGPArgs.freeLogDet (a : LLGPArgs) (P : ℕ) (fk : FK) : ℝ :=
  ∑ d ∈ Finset.range a.Xs.length, ∑ i ∈ Finset.range ((queryLens a.Xs).getD d 0), Real.log (fk.cov d d (queryPoint P a.Xs d i) (queryPoint P a.Xs d i) + fk.noise.getD d 0)

/-- the number of observations -/
def LLGPArgs.count (a : LLGPArgs) : ℕ := (queryLens a.Xs).sum

end Verif
