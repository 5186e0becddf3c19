import Mathlib.Data.Real.Basic
import Mathlib.Algebra.Order.Archimedean.Basic
import Mathlib.Data.Finset.Sort

/-! Reference notions for interpolation, independent of the model. -/

namespace Verif

/-- Keys' cubic convolution kernel (a = -1/2). -/
noncomputable def keys (x : ℝ) : ℝ :=
  if |x| ≤ 1 then 3 / 2 * |x| ^ 3 - 5 / 2 * |x| ^ 2 + 1
  else if |x| ≤ 2 then -1 / 2 * |x| ^ 3 + 5 / 2 * |x| ^ 2 - 4 * |x| + 2
  else 0

/-- the points of an equispaced grid: `g0, g0 + h, g0 + 2h, …` -/
def Equispaced (grid : List ℝ) (g0 h : ℝ) : Prop := ∀ i < grid.length, grid.getD i 0 = g0 + i * h

end Verif
