import Verif.Spec.Reached

/-! Vocabulary for C96: parameters that describe the same covariance function. -/

namespace Verif

/-- what the kernels that read the dimensions `ad` contribute to the covariance of outputs `a` and `b` at points that are `r` apart in these dimensions -/
noncomputable def FK.onDims (fk : FK) (ad : List ℕ) (a b : ℕ) (r : ℝ) : ℝ :=
  ∑ q ∈ (Finset.range fk.Q).filter (fun q => fk.kdims q = ad), fk.B q a b * (fk.kernels.getD q (.identity none)).doc r

/-- two lists of kernels with their coregionalization matrices and noise describe the same covariance function: for the same outputs they read the same groups of
dimensions, each group contributes the same function of the distance, and the noise is the same -/
structure SameCovariance (fk fk' : FK) : Prop where
  outputs : fk'.D = fk.D
  dims : ∀ ad, (∃ q < fk'.Q, fk'.kdims q = ad) ↔ ∃ q < fk.Q, fk.kdims q = ad
  parts : ∀ ad, ∀ a < fk.D, ∀ b < fk.D, ∀ r ≥ 0, fk'.onDims ad a b r = fk.onDims ad a b r
  noise : ∀ a < fk.D, fk'.noise.getD a 0 = fk.noise.getD a 0

/-- the same data, grids and prediction mode (not necessarily the same kernel, tolerances or numbers of iterations) -/
def LLGPArgs.SameProblem (a a' : LLGPArgs) : Prop :=
  a'.Xs = a.Xs ∧ a'.Ys = a.Ys ∧ a'.normalize = a.normalize ∧ a'.lo = a.lo ∧ a'.hi = a.hi ∧ a'.m = a.m ∧ a'.prediction = a.prediction

/-- the two treat the groups of the kind described in C33 alike (in particular if there are none) -/
def SpoiledAlike (fk fk' : FK) : Prop := ∀ g ∈ fk.activeDims, ∀ g' ∈ fk'.activeDims, g'.1 = g.1 → (Spoiled fk' g' ↔ Spoiled fk g)

/-- any question about a model, at proper query points if at points -/
def LLGP.Understands (m : LLGP) : Query → Prop
  | .predict Qs => m.Accepts Qs
  | .quantiles Qs _ => m.Accepts Qs
  | _ => True

end Verif
