import Verif.Spec.Predict

/-! What it means for a linear solve to report success. -/

namespace Verif

/-- solving `K x = b` returned without a message that it did not converge -/
def Converged (sv : Solvers) (K : MatObj) (b : List ℝ) (tol : ℝ) : Prop := ∃ x, iterativeSolve sv K b false true tol = .ok (.plain x, false)

/-- no output has less noise than `ν` -/
def FK.NoiseAtLeast (fk : FK) (ν : ℝ) : Prop := 0 < ν ∧ ∀ d < fk.D, ν ≤ fk.noise.getD d 0

/-- a vector of signs -/
def SignVec (n : ℕ) (b : List ℝ) : Prop := b.length = n ∧ ∀ i < n, b.getD i 0 = 1 ∨ b.getD i 0 = -1

/-- the part of the variance of output `d` at `x` that the observations explain, with the SKI covariance: `k_*ᵀ K⁻¹ k_*` -/
noncomputable def FK.skiExplained (fk : FK) (axes : List ℕ → List (List ℝ)) (extra : List ℕ × List ℕ → ℝ) (Xs : List (Arr2 ℝ)) (d : ℕ) (x : ℕ → ℝ) : ℝ :=
  fk.skiCross axes extra Xs d x ⬝ᵥ (fk.skiMat axes extra Xs)⁻¹.mulVec (fk.skiCross axes extra Xs d x)

/-- the Euclidean length of a vector -/
noncomputable def vecNorm {n : ℕ} (v : Fin n → ℝ) : ℝ := Real.sqrt (∑ i, v i ^ 2)

/-- the Euclidean length of a matrix (Frobenius norm) -/
noncomputable def matNorm {n : ℕ} (M : Matrix (Fin n) (Fin n) ℝ) : ℝ := Real.sqrt (∑ i, ∑ j, M i j ^ 2)

end Verif
