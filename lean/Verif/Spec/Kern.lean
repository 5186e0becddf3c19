import Verif.Model.Kern
import Mathlib.Analysis.SpecialFunctions.Exp

/-! The kernel functions as their documentation states them, and the hyperparameters of a kernel as a list. -/

namespace Verif

open Classical in
/-- `k(r)` as documented: rbf.py 24-26, matern32.py 24-26, std_periodic.py 24-26, identity.py 17-19; `Scaled` multiplies. -/
noncomputable def Kern.doc : Kern → ℝ → ℝ
  | .rbf g _, r => Real.exp (-g * r ^ 2 / 2)
  | .matern32 g _, r => (1 + r * g * Real.sqrt 3) * Real.exp (-(g * r * Real.sqrt 3))
  | .stdPeriodic g T _, r => Real.exp (-g / 2 * Real.sin (Real.pi * r / T) ^ 2)
  | .identity _, r => if r = 0 then 1 else 0
  | .scaled k s _, r => s * k.doc r

/-- the hyperparameters, innermost kernel first -/
def Kern.params : Kern → List ℝ
  | .rbf g _ => [g]
  | .matern32 g _ => [g]
  | .stdPeriodic g T _ => [g, T]
  | .identity _ => []
  | .scaled k s _ => k.params ++ [s]

/-- the kernel with its `j`-th hyperparameter changed to `t` -/
def Kern.setParam : Kern → ℕ → ℝ → Kern
  | .rbf g a, j, t => .rbf (if j = 0 then t else g) a
  | .matern32 g a, j, t => .matern32 (if j = 0 then t else g) a
  | .stdPeriodic g T a, j, t => .stdPeriodic (if j = 0 then t else g) (if j = 1 then t else T) a
  | .identity a, _, _ => .identity a
  | .scaled k s a, j, t => .scaled (k.setParam j t) (if j = k.params.length then t else s) a

/-- Positive hyperparameters; the period of a `StdPeriodic` must also exceed `exp(-200)`, below which `from_dist`
deliberately returns NaN. -/
def Kern.Valid : Kern → Prop
  | .rbf g _ => 0 < g
  | .matern32 g _ => 0 < g
  | .stdPeriodic g T _ => 0 < g ∧ Real.exp (-200) < T
  | .identity _ => True
  | .scaled k s _ => k.Valid ∧ 0 < s

/-- entry `i` of an array-valued result (0 for exceptions and NaN) -/
def entryOf (r : Except PyErr KVal) (i : ℕ) : ℝ :=
  match r with
  | .ok (.arr a) => a.data.getD i 0
  | _ => 0

/-- no `Scaled` node -/
def Kern.plain : Kern → Prop
  | .scaled _ _ _ => False
  | _ => True

end Verif
