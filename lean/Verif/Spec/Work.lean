import Verif.Model.Work
import Verif.Spec.LLGP

/-! What a product with the covariance of the observations should cost. -/

namespace Verif

/-- the added ranks of the coregionalization vectors of a group's kernels; those of independent kernels do not count -/
def FK.rankOf (fk : FK) (g : List ℕ × List ℕ) : ℕ :=
  ((g.2.filter fun q => q < fk.numLmcTotal + fk.numSlfmTotal).map fun q => (fk.coregVecs.getD q ⟨0, 0, []⟩).rows).sum

open Classical in
/-- the products with Toeplitz matrices that a group needs when its coregionalization matrices are kept apart in vectors and diagonals: one for each vector, and one for
each output unless all kernels are SLFM kernels, which have no diagonals -/
noncomputable def FK.apart (fk : FK) (g : List ℕ × List ℕ) : ℕ := fk.rankOf g + if ∀ q ∈ g.2, fk.IsSlfm q then 0 else fk.D

/-- the products with Toeplitz matrices for a group of kernels: one per output for a model with one kernel, and otherwise the lesser of the number above and one for each
pair of outputs -/
noncomputable def FK.toeplitzProducts (fk : FK) (g : List ℕ × List ℕ) : ℕ := if fk.Q = 1 then fk.D else min (fk.apart g) (fk.D ^ 2)

/-- the arithmetic of a group with a grid of `m` points outside of these products -/
noncomputable def FK.mixing (fk : FK) (g : List ℕ × List ℕ) (m : ℕ) : ℕ :=
  if fk.Q = 1 then 2 * fk.D ^ 2 * m + fk.D * m else if fk.apart g < fk.D ^ 2 then 4 * fk.D * fk.rankOf g * m + 2 * fk.D * m else fk.D ^ 2 * m

open Classical in
/-- the number of entries of a matrix that are not zero; the sparse matrices that scipy's additions and products return store these -/
noncomputable def Arr2.nonzeros (A : Arr2 ℝ) : ℕ := (A.data.filter (· ≠ 0)).length

/-- the entries that the interpolation matrix of a model stores for the kernels of the dimensions `ad` -/
noncomputable def LLGP.stored (m : LLGP) (ad : List ℕ) : ℕ := ((dictGet m.interp ad).map fun W => W.1.nonzeros).getD 0

end Verif
