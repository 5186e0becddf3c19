import Verif.Spec.Grid
import Verif.Spec.LinAlg
import Verif.Model.Likelihood
import Mathlib.Analysis.SpecialFunctions.Log.Basic
import Mathlib.Analysis.SpecialFunctions.Trigonometric.Basic

/-! Specification vocabulary for the likelihoods. -/

namespace Verif

/-- the position of the first observation of output `a` when the outputs have `lens` observations -/
def offset (lens : List ℕ) (a : ℕ) : ℕ := (lens.take a).sum

/-- the dimensions kernel `q` reads -/
def FK.kdims (fk : FK) (q : ℕ) : List ℕ := ((fk.kernels.getD q (.identity none)).activeDims).getD []

/-- `B_q[a, b] = ∑_r A_q[r, a] A_q[r, b] + κ_q[a] δ_ab` -/
noncomputable def FK.B (fk : FK) (q a b : ℕ) : ℝ :=
  (∑ r ∈ Finset.range (fk.coregVecs.getD q ⟨0, 0, []⟩).rows,
    (fk.coregVecs.getD q ⟨0, 0, []⟩).get r a * (fk.coregVecs.getD q ⟨0, 0, []⟩).get r b) +
  if a = b then (fk.coregDiags.getD q []).getD a 0 else 0

/-- the Euclidean distance of `x` and `z` in the dimensions `ad` -/
noncomputable def distOn (ad : List ℕ) (x z : ℕ → ℝ) : ℝ := Real.sqrt (ad.map fun c => (x c - z c) ^ 2).sum

/-- The LMC covariance of output `a` at `x` and output `b` at `z`: `∑_q B_q[a, b] k_q(|x - z|_q)`. -/
noncomputable def FK.cov (fk : FK) (a b : ℕ) (x z : ℕ → ℝ) : ℝ :=
  ∑ q ∈ Finset.range fk.Q, fk.B q a b * (fk.kernels.getD q (.identity none)).doc (distOn (fk.kdims q) x z)

/-- A kernel ready for inputs of dimension `P` (see C29, C30), with valid hyperparameters. -/
structure FK.Ready (fk : FK) (P : ℕ) : Prop where
  wf : fk.WF
  kernel : 0 < fk.Q
  input : fk.P = some P
  Ppos : 0 < P
  valid : ∀ k ∈ fk.kernels, k.Valid
  dims : ∀ k ∈ fk.kernels, ∃ ad, k.activeDims = some ad ∧ ad ∈ fk.activeDims.map Prod.fst
  bound : ∀ ad ∈ fk.activeDims.map Prod.fst, ∀ c ∈ ad, c < P

/-- input point `i` of output `a` -/
def pointOf (Xs : List (Arr2 ℝ)) (a i : ℕ) : ℕ → ℝ := fun c => (Xs.getD a ⟨0, 0, []⟩).get i c

/-- one `n_a × P` array of inputs for each of `D` outputs -/
structure InputsOK (D P : ℕ) (Xs : List (Arr2 ℝ)) : Prop where
  len : Xs.length = D
  wf : ∀ X ∈ Xs, X.WF
  cols : ∀ X ∈ Xs, X.cols = P

/-- one array of observations per output, as long as its inputs -/
structure DataOK (D P : ℕ) (Xs : List (Arr2 ℝ)) (Ys : List (List ℝ)) : Prop where
  inputs : InputsOK D P Xs
  lens : Ys.map List.length = Xs.map Arr2.rows

/-- the log density at `y` of the centred Gaussian with covariance `K` -/
noncomputable def gaussLogDensity (n : ℕ) (K : ℕ → ℕ → ℝ) (y : List ℝ) : ℝ :=
  -(1 / 2) * (toVec n y ⬝ᵥ (fnMatrix n n K)⁻¹.mulVec (toVec n y) + Real.log (fnMatrix n n K).det + n * Real.log (2 * Real.pi))

/-- the index inside its output of observation `r` -/
def innerIdx (lens : List ℕ) (r : ℕ) : ℕ := r - offset lens (ownerOf lens r)

/-- entry `(r, s)` of the covariance of all observations, in order of outputs, with noise -/
noncomputable def FK.fullCov (fk : FK) (Xs : List (Arr2 ℝ)) (r s : ℕ) : ℝ :=
  let lens := Xs.map Arr2.rows
  fk.cov (ownerOf lens r) (ownerOf lens s) (pointOf Xs (ownerOf lens r) (innerIdx lens r)) (pointOf Xs (ownerOf lens s) (innerIdx lens s))
    + if r = s then fk.noise.getD (ownerOf lens r) 0 else 0

/-- the covariance of all observations as a matrix -/
noncomputable def FK.covMat (fk : FK) (Xs : List (Arr2 ℝ)) : Matrix (Fin (Xs.map Arr2.rows).sum) (Fin (Xs.map Arr2.rows).sum) ℝ :=
  fnMatrix (Xs.map Arr2.rows).sum (Xs.map Arr2.rows).sum (fk.fullCov Xs)

/-- the log marginal likelihood of the LMC model -/
noncomputable def FK.logLik (fk : FK) (Xs : List (Arr2 ℝ)) (Ys : List (List ℝ)) : ℝ :=
  gaussLogDensity (Xs.map Arr2.rows).sum (fk.fullCov Xs) Ys.flatten

/-- the kernel with entry `(i, j)` of its `q`-th coregionalization vectors changed to `t` -/
def FK.setVec (fk : FK) (q i j : ℕ) (t : ℝ) : FK :=
  { fk with coregVecs := fk.coregVecs.set q (Arr2.of (fk.coregVecs.getD q ⟨0, 0, []⟩).rows (fk.coregVecs.getD q ⟨0, 0, []⟩).cols
      fun r c => if r = i ∧ c = j then t else (fk.coregVecs.getD q ⟨0, 0, []⟩).get r c) }

/-- the kernel with `κ_q[i]` changed to `t` -/
def FK.setDiag (fk : FK) (q i : ℕ) (t : ℝ) : FK :=
  { fk with coregDiags := fk.coregDiags.set q ((fk.coregDiags.getD q []).set i t) }

/-- the kernel with hyperparameter `j` of its `q`-th kernel changed to `t` -/
def FK.setKern (fk : FK) (q j : ℕ) (t : ℝ) : FK :=
  { fk with kernels := fk.kernels.set q ((fk.kernels.getD q (.identity none)).setParam j t) }

/-- the kernel with the noise of output `i` changed to `t` -/
def FK.setNoise (fk : FK) (i : ℕ) (t : ℝ) : FK := { fk with noise := fk.noise.set i t }

end Verif
