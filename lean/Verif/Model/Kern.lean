import Verif.Model.Base
import Mathlib.Analysis.SpecialFunctions.Log.Basic
import Mathlib.Analysis.SpecialFunctions.Sqrt
import Mathlib.Analysis.SpecialFunctions.Trigonometric.Basic

/-! `runlmc/kern/*.py` -/

namespace Verif

/-- A kernel object: its class, the values of its hyperparameters (`Param`s of shape `(1,)`) and its `active_dims`
attribute (`None` or a sequence): rbf.py 33-37, matern32.py 33-37, std_periodic.py 34-42, identity.py 26-27,
scaled.py 15-20. -/
inductive Kern where
  | rbf (invLengthscale : ℝ) (activeDims : Option (List ℕ))
  | matern32 (invLengthscale : ℝ) (activeDims : Option (List ℕ))
  | stdPeriodic (invLengthscale period : ℝ) (activeDims : Option (List ℕ))
  | identity (activeDims : Option (List ℕ))
  | scaled (k : Kern) (scale : ℝ) (activeDims : Option (List ℕ))

namespace Kern

/-- the `active_dims` attribute, stationary_kern.py 48-50 -/
def activeDims : Kern → Option (List ℕ)
  | rbf _ a => a
  | matern32 _ a => a
  | stdPeriodic _ _ a => a
  | identity a => a
  | scaled _ _ a => a

/-- assignment to the `active_dims` attribute (only the outermost object is changed) -/
def setActiveDims (ad : Option (List ℕ)) : Kern → Kern
  | rbf g _ => rbf g ad
  | matern32 g _ => matern32 g ad
  | stdPeriodic g T _ => stdPeriodic g T ad
  | identity _ => identity ad
  | scaled k s _ => scaled k s ad

/-- `Scaled.__init__`, scaled.py 15-20 -/
def scaledNew (k : Kern) : Kern := scaled k 1 k.activeDims

end Kern

/-- The `dists` argument: a python number, or an ndarray (numpy scalars are 0-d arrays). -/
inductive DistArg where
  | py (r : ℝ)
  | arr (a : NDArr ℝ)

/-- What `from_dist` returns: an ndarray, or NaN (`StdPeriodic` with a tiny period; scaled NaN stays NaN). -/
inductive KVal where
  | nan
  | arr (a : NDArr ℝ)

/-- elementwise arithmetic of the argument with parameters of shape `(1,)`: 0-d operands broadcast to shape `(1,)` -/
def liftDist (f : ℝ → ℝ) : DistArg → NDArr ℝ
  | .py r => ⟨[1], [f r]⟩
  | .arr a => ⟨if a.shape = [] then [1] else a.shape, a.data.map f⟩

/-- `self.scale * v`, scaled.py 23 and 29 -/
def KVal.scale (s : ℝ) : KVal → KVal
  | .nan => .nan
  | .arr a => .arr (liftDist (s * ·) (.arr a))

open Classical in
/-- `from_dist` of each class: rbf.py 39-40, matern32.py 39-41, std_periodic.py 44-48, identity.py 29-30,
scaled.py 22-23. `(0 == 0.0).astype` is an AttributeError for python numbers. -/
noncomputable def Kern.fromDist : Kern → DistArg → Except PyErr KVal
  | .rbf g _, d => .ok (.arr (liftDist (fun r => Real.exp (-0.5 * r ^ 2 * g)) d))
  | .matern32 g _, d =>
    .ok (.arr (liftDist (fun r =>
      let scaledDist := r * Real.sqrt 3 * g
      (1 + scaledDist) * Real.exp (-scaledDist)) d))
  | .stdPeriodic g T _, d =>
    if Real.log T < -200 then .ok .nan
    else .ok (.arr (liftDist (fun r =>
      let sin := Real.sin ((Real.pi / T) * r)
      Real.exp (-0.5 * sin ^ 2 * g)) d))
  | .identity _, .py _ => .error .attributeError
  | .identity _, .arr a => .ok (.arr ⟨a.shape, a.data.map fun r => if r = 0 then 1 else 0⟩)
  | .scaled k s _, d => do
    let v ← k.fromDist d
    return v.scale s

/-- `kernel_gradient` of each class: rbf.py 51-54, matern32.py 52-57, std_periodic.py 60-67, identity.py 35-36,
scaled.py 28-31. -/
noncomputable def Kern.kernelGradient : Kern → DistArg → Except PyErr (List KVal)
  | .rbf g _, d =>
    .ok [.arr (liftDist (fun r =>
      let sqdists := r ^ 2
      let exp := Real.exp (-0.5 * sqdists * g)
      exp * -0.5 * sqdists) d)]
  | .matern32 g _, d =>
    .ok [.arr (liftDist (fun r =>
      let scaledDist := r * Real.sqrt 3 * g
      let dScaledDist := r * Real.sqrt 3
      let exp := Real.exp (-scaledDist)
      let dexp := exp * -dScaledDist
      (1 + scaledDist) * dexp + dScaledDist * exp) d)]
  | .stdPeriodic g T _, d =>
    let dsin := fun r =>
      let scaled := Real.pi / T * r
      (Real.cos scaled * scaled) * (-1 / T * g)
    .ok [.arr (liftDist (fun r =>
           let sin := Real.sin (Real.pi / T * r)
           let sqsin := sin ^ 2
           let exp := Real.exp (-0.5 * sqsin * g)
           exp * -0.5 * sqsin) d),
         .arr (liftDist (fun r =>
           let sin := Real.sin (Real.pi / T * r)
           let sqsin := sin ^ 2
           let exp := Real.exp (-0.5 * sqsin * g)
           exp * -1 * sin * dsin r) d)]
  | .identity _, _ => .ok []
  | .scaled k s _, d => do
    let gs ← k.kernelGradient d
    let v ← k.fromDist d
    return gs.map (KVal.scale s) ++ [v]

/-- Number of scalars registered with the optimiser through `link_parameter`: rbf.py 37, matern32.py 37,
std_periodic.py 39 and 42, scaled.py 19 (`Scaled` links `k` but never its own `scale`). -/
def Kern.linked : Kern → List ℝ
  | .rbf g _ => [g]
  | .matern32 g _ => [g]
  | .stdPeriodic g T _ => [g, T]
  | .identity _ => []
  | .scaled k _ _ => k.linked

/-- `update_gradient`: rbf.py 56-57, matern32.py 59-60, std_periodic.py 69-71, identity.py 38-39, scaled.py 33-35. Returns the
`gradient` attribute stored in each hyperparameter, innermost kernel first and a `Scaled`'s own scale last. -/
def Kern.updateGradient : Kern → List ℝ → Except PyErr (List ℝ)
  | .rbf _ _, grad => (grad[0]?).elim (.error .indexError) fun a => .ok [a]
  | .matern32 _ _, grad => (grad[0]?).elim (.error .indexError) fun a => .ok [a]
  | .stdPeriodic _ _ _, grad =>
    (grad[0]?).elim (.error .indexError) fun a =>
    (grad[1]?).elim (.error .indexError) fun b => .ok [a, b]
  | .identity _, _ => .ok []
  | .scaled k _ _, grad => do
    let inner ← k.updateGradient grad.dropLast
    (grad.getLast?).elim (.error .indexError) fun a => .ok (inner ++ [a])

end Verif
