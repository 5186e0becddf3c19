import Verif.Spec.LinAlg
import Mathlib.LinearAlgebra.Matrix.PosDef

/-! Eigenvalue bounds and symmetry of square operators. -/

namespace Verif
open Matrix

/-- the square matrix an operator with equal sides stands for -/
def MatObj.sq (M : MatObj) : Matrix (Fin M.rows) (Fin M.rows) ℝ := fnMatrix M.rows M.rows M.asNumpy.get

/-- every real eigenvalue of `A` is at most `b` -/
def EigLE {n : ℕ} (A : Matrix (Fin n) (Fin n) ℝ) (b : ℝ) : Prop :=
  ∀ (μ : ℝ) (v : Fin n → ℝ), v ≠ 0 → A *ᵥ v = μ • v → μ ≤ b

/-- every real eigenvalue of `A` is at most `b` in absolute value -/
def EigAbsLE {n : ℕ} (A : Matrix (Fin n) (Fin n) ℝ) (b : ℝ) : Prop :=
  ∀ (μ : ℝ) (v : Fin n → ℝ), v ≠ 0 → A *ᵥ v = μ • v → |μ| ≤ b

end Verif
