import Verif.Spec.Repeated

/-! Vocabulary for C115: how much a change of the observed values can change. -/

namespace Verif

/-- value `i` of output `d`, in the units the model works in -/
noncomputable def LLGPArgs.level (a : LLGPArgs) (d i : ℕ) : ℝ := (a.value d i - a.centreOf d) / a.scaleOf d

/-- how much the values of two data sets with the same inputs differ: the sum of the squared differences, in the units the models work in and relative to the noise of each
output -/
noncomputable def LLGPArgs.changeOf (a a' : LLGPArgs) (noise : List ℝ) : ℝ :=
  ∑ d ∈ Finset.range a.Xs.length, ∑ i ∈ Finset.range ((queryLens a.Xs).getD d 0), (a'.level d i - a.level d i) ^ 2 / noise.getD d 0

/-- the sum of the squared values, in the units the model works in and relative to the noise of each output -/
noncomputable def LLGPArgs.strengthOf (a : LLGPArgs) (noise : List ℝ) : ℝ :=
  ∑ d ∈ Finset.range a.Xs.length, ∑ i ∈ Finset.range ((queryLens a.Xs).getD d 0), a.level d i ^ 2 / noise.getD d 0

/-- a bound on the variance of the latent function of output `d` at `x` under the interpolated covariance: the prior variance, plus what the implementation adds (see C33),
times the most that cubic interpolation can overshoot -/
noncomputable def FK.latentBound (fk : FK) (P d : ℕ) (x : ℕ → ℝ) : ℝ := (25 / 16) ^ P * (fk.cov d d x x + (fk.activeDims.map fk.extraOf).sum)

/-- the data set `a'` is `a` with value `i` of output `d` replaced by `y` -/
def LLGPArgs.Replaces (a : LLGPArgs) (d i : ℕ) (y : ℝ) (a' : LLGPArgs) : Prop :=
  a.OtherValues a' ∧ ∀ d' < a.Xs.length, ∀ i' < (queryLens a.Xs).getD d' 0, a'.value d' i' = if d' = d ∧ i' = i then y else a.value d' i'

end Verif
