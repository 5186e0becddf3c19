import Verif.Spec.Repeated
import Verif.Spec.Grids

/-! Vocabulary for C117: what one more observation changes. -/

namespace Verif

open Matrix

/-- The data set `a'` is `a` with one more observation at the end of output `d₀`: the value `y₀` at `x₀`. Nothing is normalised, all other options are the same, the number of grid
points is given (by default it depends on the number of observations), and no coordinate of `x₀` is outside the range that the grids of `a` were made for. -/
structure LLGPArgs.Adds (P d₀ : ℕ) (x₀ : ℕ → ℝ) (y₀ : ℝ) (a a' : LLGPArgs) : Prop where
  plain : a.normalize = false
  options : a'.normalize = a.normalize ∧ a'.lo = a.lo ∧ a'.hi = a.hi ∧ a'.m = a.m ∧ a'.prediction = a.prediction
  size : ∀ c < P, a.m.at c ≠ none
  output : d₀ < a.Xs.length
  outputs : a'.Xs.length = a.Xs.length
  lens : ∀ d < a.Xs.length, (queryLens a'.Xs).getD d 0 = (queryLens a.Xs).getD d 0 + if d = d₀ then 1 else 0
  old : ∀ d < a.Xs.length, ∀ i < (queryLens a.Xs).getD d 0, a'.value d i = a.value d i ∧ ∀ c < P, queryPoint P a'.Xs d i c = queryPoint P a.Xs d i c
  new : a'.value d₀ ((queryLens a.Xs).getD d₀ 0) = y₀ ∧ ∀ c < P, queryPoint P a'.Xs d₀ ((queryLens a.Xs).getD d₀ 0) c = x₀ c
  inside : ∀ c < P, (∃ z ∈ a.coords P c ∪ {z | a.lo.at c = some z}, z ≤ x₀ c) ∧ ∃ z ∈ a.coords P c ∪ {z | a.hi.at c = some z}, x₀ c ≤ z

/-- the covariance of output `d` at `x` and output `d'` at `x'` that is left when the observations at `Xs` are known -/
noncomputable def FK.covLeft (fk : FK) (Xs : List (Arr2 ℝ)) (d : ℕ) (x : ℕ → ℝ) (d' : ℕ) (x' : ℕ → ℝ) : ℝ :=
  fk.cov d d' x x' - fk.crossCov Xs d x ⬝ᵥ (fk.covMat Xs)⁻¹ *ᵥ fk.crossCov Xs d' x'

/-- the same under the interpolated covariance -/
noncomputable def FK.skiLeft (fk : FK) (axes : List ℕ → List (List ℝ)) (extra : List ℕ × List ℕ → ℝ) (Xs : List (Arr2 ℝ)) (d : ℕ) (x : ℕ → ℝ) (d' : ℕ) (x' : ℕ → ℝ) : ℝ :=
  fk.skiCov axes extra d d' x x' - fk.skiCross axes extra Xs d x ⬝ᵥ (fk.skiMat axes extra Xs)⁻¹ *ᵥ fk.skiCross axes extra Xs d' x'

end Verif
