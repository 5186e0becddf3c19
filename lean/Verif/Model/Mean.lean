import Verif.Model.MultiGP

/-! `runlmc/mean`: the mean functions. -/

namespace Verif

/-- `MeanFunction.__init__`, mean_function.py 21-26 -/
def meanInit (inputDim : ℕ) : Except PyErr Unit := if inputDim = 1 then .ok () else .error .assertionError

/-- `_validate_inputs`, mean_function.py 36-44 -/
def validateInputs (outputDim : ℕ) (Xs : List (NDArr ℝ)) : Except PyErr Unit :=
  if Xs.length ≠ outputDim then .error .valueError
  else if ∀ X ∈ Xs, X.ndim = 1 then .ok () else .error .valueError

/-- a `Zero` mean, zero.py 10-18 -/
structure ZeroMean where
  outputDim : ℕ

/-- zero.py 17-18 -/
def zeroMeanNew (inputDim outputDim : ℕ) : Except PyErr ZeroMean := do
  meanInit inputDim
  return ⟨outputDim⟩

/-- `Zero.f`, zero.py 20-22 -/
def ZeroMean.f (z : ZeroMean) (Xs : List (NDArr ℝ)) : Except PyErr (List (List ℝ)) := do
  validateInputs z.outputDim Xs
  mapExcept (fun X : NDArr ℝ => do let n ← X.len; return List.replicate n 0) Xs

/-- `Zero.mean_gradient`, zero.py 24-26 -/
def ZeroMean.meanGradient (_ : ZeroMean) (_ : List (NDArr ℝ)) : List (List (List ℝ)) := []

/-- a `Constant` mean: the number of outputs and the offsets -/
structure ConstantMean where
  outputDim : ℕ
  c : List ℝ

/-- `Constant.__init__`, constant.py 26-37 -/
noncomputable def constantMeanNew (inputDim outputDim : ℕ) (c0 : Option (NDArr ℝ)) : Except PyErr ConstantMean := do
  meanInit inputDim
  let c0 := c0.getD ⟨[outputDim], List.replicate outputDim 0⟩
  if c0.shape ≠ [outputDim] then .error .valueError
  else return ⟨outputDim, c0.data⟩

/-- `Constant.f`, constant.py 39-41; `zip` stops at the end of the shorter list -/
noncomputable def ConstantMean.f (m : ConstantMean) (Xs : List (NDArr ℝ)) : Except PyErr (List (List ℝ)) := do
  validateInputs m.outputDim Xs
  mapExcept (fun p : NDArr ℝ × ℝ => do let n ← p.1.len; return (List.replicate n 1).map (· * p.2)) (Xs.zip m.c)

/-- `Constant.mean_gradient`, constant.py 43-46: entry `i` is the list over outputs `j` of the derivatives with respect to offset `i` -/
def ConstantMean.meanGradient (m : ConstantMean) (Xs : List (NDArr ℝ)) : Except PyErr (List (List (List ℝ))) :=
  mapExcept (fun i => mapExcept (fun jX : ℕ × NDArr ℝ => do let n ← jX.2.len; return if i = jX.1 then List.replicate n 1 else List.replicate n 0)
    ((List.range Xs.length).zip Xs)) (List.range m.c.length)

end Verif
