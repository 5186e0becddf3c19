import Mathlib.Data.Nat.Basic
import Mathlib.Algebra.BigOperators.Group.List.Basic

/-! Specification of the index arithmetic of multi-level Toeplitz matrices. -/

namespace Verif

/-- `|i - j|` for natural numbers -/
def absDiff (i j : ℕ) : ℕ := if j ≤ i then i - j else j - i

/-- Flat position of the per-axis absolute differences of two grid positions given flat (last axis
fastest) on a grid with the given axis sizes. -/
def ravelDiff : List ℕ → ℕ → ℕ → ℕ
  | [], _, _ => 0
  | _ :: s, i, j => absDiff (i / s.prod) (j / s.prod) * s.prod + ravelDiff s (i % s.prod) (j % s.prod)

end Verif
