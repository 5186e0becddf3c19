import Verif.Spec.Observations

/-! What it means for outputs not to be coupled to the others. -/

namespace Verif

/-- the outputs in `S` have no covariance with the other outputs: every coregionalization matrix has zeros there -/
def FK.Uncoupled (fk : FK) (S : Finset ℕ) : Prop := ∀ q < fk.Q, ∀ a ∈ S, ∀ b < fk.D, b ∉ S → fk.B q a b = 0

/-- the same number of outputs, and the same observations of the outputs in `S` -/
structure LLGPArgs.SameOn (S : Finset ℕ) (a a' : LLGPArgs) : Prop where
  outputs : a'.Xs.length = a.Xs.length
  normalize : a'.normalize = a.normalize
  inputs : ∀ d ∈ S, a'.Xs.getD d ⟨[], []⟩ = a.Xs.getD d ⟨[], []⟩
  values : ∀ d ∈ S, a'.Ys.getD d ⟨[], []⟩ = a.Ys.getD d ⟨[], []⟩

end Verif
