import Verif.Spec.Iterative
import Mathlib.Data.Matrix.Basic
import Mathlib.Data.Real.Basic
import Mathlib.Data.Fintype.BigOperators
import Mathlib.Data.Fintype.Pi

/-! Small specification for C86: how far random signs take an estimate from its average. -/

namespace Verif

open Matrix

/-- the average over all equally likely tables of `N` probes with `n` signs each -/
noncomputable def average {N n : ℕ} (f : (Fin N → Fin n → Bool) → ℝ) : ℝ := (∑ z, f z) / 2 ^ (N * n)

/-- the fraction of the tables of probes for which `p` holds -/
noncomputable def fraction {N n : ℕ} (p : (Fin N → Fin n → Bool) → Prop) : ℝ := by
  classical
  exact ((Finset.univ.filter p).card : ℝ) / 2 ^ (N * n)

/-- the mass a matrix has outside its diagonal, each pair of opposite entries taken together -/
noncomputable def offDiagonal {n : ℕ} (M : Matrix (Fin n) (Fin n) ℝ) : ℝ := ∑ i, ∑ j, if i = j then 0 else (M i j + M j i) ^ 2

end Verif
