import Verif.Spec.Observations
import Verif.Spec.LLGP

/-! What C95 says: how well a model fits its own observations. -/

namespace Verif

/-- the SKI covariance of the observations without the noise -/
noncomputable def FK.skiClean (fk : FK) (axes : List ℕ → List (List ℝ)) (extra : List ℕ × List ℕ → ℝ) (Xs : List (Arr2 ℝ)) :
    Matrix (Fin (Xs.map Arr2.rows).sum) (Fin (Xs.map Arr2.rows).sum) ℝ :=
  fnMatrix (Xs.map Arr2.rows).sum (Xs.map Arr2.rows).sum fun r s =>
    fk.skiCov axes extra (ownerOf (Xs.map Arr2.rows) r) (ownerOf (Xs.map Arr2.rows) s) (rowPoint Xs r) (rowPoint Xs s)

/-- The squared errors of the predictions `f d i` of the observations (value `i` of output `d`), in the units the model works in and relative to the noise
of each output. -/
noncomputable def LLGPArgs.errorOf (a : LLGPArgs) (noise : List ℝ) (f : ℕ → ℕ → ℝ) : ℝ :=
  ∑ d ∈ Finset.range a.Xs.length, ∑ i ∈ Finset.range ((queryLens a.Xs).getD d 0),
    (((a.Ys.getD d ⟨[], []⟩).data.getD i 0 - f d i) / a.scaleOf d) ^ 2 / noise.getD d 0

end Verif
