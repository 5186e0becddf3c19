import Verif.Spec.SameCovariance

/-! Vocabulary for C118: all variances multiplied by one factor. -/

namespace Verif

/-- the covariance function and the noise described by `fk'` are `c` times those described by `fk`: for the same outputs they read the same groups of dimensions, and each
group contributes `c` times as much at every distance -/
structure ScaledCovariance (c : ℝ) (fk fk' : FK) : Prop where
  outputs : fk'.D = fk.D
  dims : ∀ ad, (∃ q < fk'.Q, fk'.kdims q = ad) ↔ ∃ q < fk.Q, fk.kdims q = ad
  parts : ∀ ad, ∀ a < fk.D, ∀ b < fk.D, ∀ r ≥ 0, fk'.onDims ad a b r = c * fk.onDims ad a b r
  noise : ∀ a < fk.D, fk'.noise.getD a 0 = c * fk.noise.getD a 0

/-- no group of kernels is of the kind described in C33, for which the implementation adds an identity matrix -/
def FK.Unspoiled (fk : FK) : Prop := ∀ g ∈ fk.activeDims, ¬ Spoiled fk g

/-- the parameters `fk'` are those of `fk` with the coregionalization vectors multiplied by `√c` and the diagonals and the noise by `c` -/
structure ScaledParameters (c : ℝ) (fk fk' : FK) : Prop where
  shape : fk'.D = fk.D ∧ fk'.P = fk.P ∧ fk'.numLmcTotal = fk.numLmcTotal ∧ fk'.numSlfmTotal = fk.numSlfmTotal ∧ fk'.activeDims = fk.activeDims ∧
    fk'.numLmc = fk.numLmc ∧ fk'.numIndep = fk.numIndep ∧ ∀ q, (fk'.coregVecs.getD q ⟨0, 0, []⟩).rows = (fk.coregVecs.getD q ⟨0, 0, []⟩).rows
  kernels : fk'.kernels = fk.kernels
  vecs : ∀ q < fk.Q, ∀ r a, (fk'.coregVecs.getD q ⟨0, 0, []⟩).get r a = Real.sqrt c * (fk.coregVecs.getD q ⟨0, 0, []⟩).get r a
  diags : ∀ q < fk.Q, ∀ a, (fk'.coregDiags.getD q []).getD a 0 = c * (fk.coregDiags.getD q []).getD a 0
  noise : ∀ a < fk.D, fk'.noise.getD a 0 = c * fk.noise.getD a 0

/-- these parameters -/
noncomputable def FK.amplify (fk : FK) (c : ℝ) : FK :=
  { fk with
    coregVecs := fk.coregVecs.map fun A => ⟨A.rows, A.cols, A.data.map (Real.sqrt c * ·)⟩
    coregDiags := fk.coregDiags.map fun l => l.map (c * ·)
    noise := fk.noise.map (c * ·) }

end Verif
