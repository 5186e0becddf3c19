import Verif.Model.TestHelpers

/-! What `check_np_lists` should accept. -/

namespace Verif

/-- two floats are close if both are not numbers or their difference is at most `atol + rtol * |y|` -/
def CloseTo (atol rtol : ℝ) (x y : Option ℝ) : Prop := (x = none ∧ y = none) ∨ ∃ a b, x = some a ∧ y = some b ∧ |a - b| ≤ atol + rtol * |b|

/-- entry `k` of the array; a scalar has its value everywhere -/
def entryOr (x : NDArr (Option ℝ)) (k : ℕ) : Option ℝ := if x.shape = [] then x.data.getD 0 none else x.data.getD k none

/-- shapes are equal or one of the arrays is a scalar, and all entries are close -/
def ArraysClose (atol rtol : ℝ) (x y : NDArr (Option ℝ)) : Prop :=
  (x.shape = y.shape ∨ x.shape = [] ∨ y.shape = []) ∧ ∀ k < (if x.shape = [] then y.data.length else x.data.length), CloseTo atol rtol (entryOr x k) (entryOr y k)

end Verif
