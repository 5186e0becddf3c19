import Verif.Spec.Repeated
import Verif.Spec.Fit

/-! Vocabulary for C113: a point at which an output was measured several times. -/

namespace Verif

open Classical in
/-- the observations of output `d` that were made at the point `x` -/
noncomputable def LLGPArgs.measuredAt (a : LLGPArgs) (P d : ℕ) (x : ℕ → ℝ) : Finset ℕ :=
  (Finset.range ((queryLens a.Xs).getD d 0)).filter fun i => ∀ c < P, queryPoint P a.Xs d i c = x c

/-- the average of the values of output `d` that were measured at the point `x` -/
noncomputable def LLGPArgs.averageAt (a : LLGPArgs) (P d : ℕ) (x : ℕ → ℝ) : ℝ := (∑ i ∈ a.measuredAt P d x, a.value d i) / (a.measuredAt P d x).card

/-- the average of the values measured at `x`, in the units the model works in -/
noncomputable def LLGPArgs.levelAt (a : LLGPArgs) (P d : ℕ) (x : ℕ → ℝ) : ℝ := (a.averageAt P d x - a.centreOf d) / a.scaleOf d

open Classical in
/-- How badly the observations other than those of output `d` at `x` agree with the average at `x`: their squared errors, relative to the noise, when they are predicted
from this average alone, that is by its multiple `cov (d', xᵢ) (d, x) / cov (d, x) (d, x)` in the units the model works in; plus the square of the average relative to the
prior variance `cov (d, x) (d, x)`. The number does not depend on how often `x` was measured. -/
noncomputable def LLGPArgs.tension (a : LLGPArgs) (P : ℕ) (noise : List ℝ) (cov : ℕ → ℕ → (ℕ → ℝ) → (ℕ → ℝ) → ℝ) (d : ℕ) (x : ℕ → ℝ) : ℝ :=
  a.levelAt P d x ^ 2 / cov d d x x +
    ∑ d' ∈ Finset.range a.Xs.length, ∑ i ∈ Finset.range ((queryLens a.Xs).getD d' 0), if d' = d ∧ i ∈ a.measuredAt P d x then 0 else
      ((a.value d' i - a.centreOf d') / a.scaleOf d' - a.levelAt P d x * cov d' d (queryPoint P a.Xs d' i) x / cov d d x x) ^ 2 / noise.getD d' 0

end Verif
