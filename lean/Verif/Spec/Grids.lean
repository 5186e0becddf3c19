import Verif.Spec.SkiAccuracy
import Verif.Spec.Reached
import Mathlib.Order.Bounds.Defs

/-! C103: where the points of the inducing grids are. -/

namespace Verif

/-- the coordinates `c` of all observed points -/
def LLGPArgs.coords (a : LLGPArgs) (P c : ℕ) : Set ℝ := {x | ∃ d < a.Xs.length, ∃ i < (queryLens a.Xs).getD d 0, queryPoint P a.Xs d i c = x}

/-- In dimension `c`: `L` is the least and `H` the greatest of all observed coordinates and the given bound, and `n` is the number of grid cells that was asked for (by default
the average number of observations of an output). -/
structure LLGPArgs.GridRange (a : LLGPArgs) (P c : ℕ) (L H : ℝ) (n : ℕ) : Prop where
  low : IsLeast (a.coords P c ∪ {x | a.lo.at c = some x}) L
  high : IsGreatest (a.coords P c ∪ {x | a.hi.at c = some x}) H
  given : ∀ v, a.m.at c = some v → v = n
  default : a.m.at c = none → n = (queryLens a.Xs).sum / a.Xs.length

/-- `axis` consists of `n + 4` points at equal distances, from two `n`-ths of the range below `L` to two `n`-ths of it above `H` -/
def AxisFor (axis : List ℝ) (L H : ℝ) (n : ℕ) : Prop :=
  axis.length = n + 4 ∧ ∀ j < n + 4, axis.getD j 0 = L - 2 * ((H - L) / n) + j * ((H - L + 4 * ((H - L) / n)) / (n + 3))

end Verif
