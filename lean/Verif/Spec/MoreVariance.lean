import Verif.Spec.SameCovariance

/-! Vocabulary for C119: a covariance function with more variance than another. -/

namespace Verif

/-- every weighted sum of values of the outputs at finitely many points has, a priori, at least the variance under `fk'` that it has under `fk`, and the observations are at
least as noisy -/
structure MoreVariance (fk fk' : FK) : Prop where
  outputs : fk'.D = fk.D
  sums : ∀ (n : ℕ) (o : Fin n → ℕ) (x : Fin n → ℕ → ℝ) (w : Fin n → ℝ), (∀ i, o i < fk.D) →
    ∑ i, ∑ j, w i * w j * fk.cov (o i) (o j) (x i) (x j) ≤ ∑ i, ∑ j, w i * w j * fk'.cov (o i) (o j) (x i) (x j)
  noise : ∀ a < fk.D, fk.noise.getD a 0 ≤ fk'.noise.getD a 0

/-- the kernels of `fk'` are those of `fk`, with the same coregionalization vectors and with diagonals that are at least as large, and possibly further kernels; the
observations are at least as noisy -/
structure Enlarged (fk fk' : FK) : Prop where
  outputs : fk'.D = fk.D
  kernels : fk.Q ≤ fk'.Q
  same : ∀ q < fk.Q, fk'.kernels.getD q (.identity none) = fk.kernels.getD q (.identity none) ∧ fk'.coregVecs.getD q ⟨0, 0, []⟩ = fk.coregVecs.getD q ⟨0, 0, []⟩
  diags : ∀ q < fk.Q, ∀ a < fk.D, (fk.coregDiags.getD q []).getD a 0 ≤ (fk'.coregDiags.getD q []).getD a 0
  noise : ∀ a < fk.D, fk.noise.getD a 0 ≤ fk'.noise.getD a 0

/-- the parameters `fk'` are those of `fk` but for the noise of the observations, which is at least as large -/
structure Noisier (fk fk' : FK) : Prop where
  same : fk' = { fk with noise := fk'.noise }
  noise : ∀ a < fk.D, fk.noise.getD a 0 ≤ fk'.noise.getD a 0

end Verif
