import Verif.Model.Matrix
import Mathlib.Data.Matrix.Mul

/-!
Specification vocabulary for operators: the mathematical matrix an object stands for.
-/

namespace Verif

/-- The Mathlib matrix of a 2-D array. -/
def Arr2.toMatrix (A : Arr2 ℝ) : Matrix (Fin A.rows) (Fin A.cols) ℝ := fun i j => A.get i j

/-- The matrix given by the first `r × c` values of an index function. -/
def fnMatrix (r c : ℕ) (A : ℕ → ℕ → ℝ) : Matrix (Fin r) (Fin c) ℝ := fun i j => A i j

/-- A list of numbers as a column vector. -/
def toVec (n : ℕ) (x : List ℝ) : Fin n → ℝ := fun j => x.getD j 0

/-- `M` is a working operator for the matrix with entries `A i j`: its products, its dense form and its
shape all agree with `A`. -/
structure Represents (M : MatObj) (A : ℕ → ℕ → ℝ) : Prop where
  rpos : 0 < M.rows
  cpos : 0 < M.cols
  matvec : ∀ x : List ℝ, x.length = M.cols →
    M.matvec x = vmk M.rows fun i => ∑ j ∈ Finset.range M.cols, A i j * x.getD j 0
  matmat : ∀ X : Arr2 ℝ, X.WF → X.rows = M.cols →
    M.matmat X = Arr2.of M.rows X.cols fun i k => ∑ j ∈ Finset.range M.cols, A i j * X.get j k
  asNumpy : M.asNumpy = Arr2.of M.rows M.cols A

end Verif
