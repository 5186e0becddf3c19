import Verif.Model.Kern
import Verif.Model.MultiGP
import Verif.Model.Likelihood
import Verif.Model.NumpyUtil
import Mathlib.Analysis.SpecialFunctions.Pow.Real

/-! `runlmc/models/gpy_lmc.py` and the kernels' `to_gpy`. -/

namespace Verif

/-- a GPy kernel object, as far as `to_gpy` determines it: class, `lengthscale`, `period`, `variance` and `active_dims` (`input_dim` is always 1) -/
inductive GpyKern where
  | rbf (variance lengthscale : ℝ) (activeDims : Option (List ℕ))
  | matern32 (variance lengthscale : ℝ) (activeDims : Option (List ℕ))
  | stdPeriodic (variance lengthscale period : ℝ) (activeDims : Option (List ℕ))

/-- what GPy's kernel constructors require: `active_dims` has as many entries as `input_dim`, which `to_gpy` always gives as 1. (External: GPy's
`Kern.__init__` asserts it.) -/
def gpyOneDim (ad : Option (List ℕ)) (k : GpyKern) : Except PyErr GpyKern :=
  match ad with
  | none => .ok k
  | some l => if l.length = 1 then .ok k else .error .assertionError

/-- `to_gpy`: rbf.py 42-49, matern32.py 43-50, std_periodic.py 50-58, identity.py 32-33, scaled.py 25-26. (The variance is also fixed at 1.) -/
noncomputable def Kern.toGpy : Kern → Except PyErr GpyKern
  | .rbf g ad => gpyOneDim ad (.rbf 1 (g ^ (-0.5 : ℝ)) ad)
  | .matern32 g ad => gpyOneDim ad (.matern32 1 (1 / g) ad)
  | .stdPeriodic g T ad => gpyOneDim ad (.stdPeriodic 1 (g ^ (-0.5 : ℝ)) T ad)
  | .identity _ => .error .notImplementedError
  | .scaled _ _ _ => .error .notImplementedError

/-- `_construct_gpy`, gpy_lmc.py 106-125: the terms `ICM(kernel, W_rank)` of the sum, in order. Indexing an empty list is an IndexError; `zip` stops at the
end of the shorter list. (Whether the result becomes a sparse or a dense regression model is GPy's matter.) -/
noncomputable def constructGpy (kernels : List Kern) (ranks : List ℕ) : Except PyErr (List (GpyKern × ℕ)) := do
  let ks ← mapExcept Kern.toGpy kernels
  match ks with
  | [] => .error .indexError
  | k :: ks =>
    match ranks with
    | [] => .error .indexError
    | r :: ranks => return (k, r) :: ks.zip ranks

/-- A fitted GPy model seen from the wrapper: prediction for an array of rows (the point, then the output index) and the column of output indices.
`predict` gives mean and variance, `predict_quantiles` one array per quantile. (External.) -/
structure GpyModel where
  predict : Arr2 ℝ → List ℕ → Except PyErr (Arr2 ℝ × Arr2 ℝ)
  predictQuantiles : Arr2 ℝ → List ℝ → List ℕ → Except PyErr (List (Arr2 ℝ))

/-- `np.hstack([X, meta])` for a column `meta` of output indices -/
def hstackMeta (X : Arr2 ℝ) (mt : List ℕ) : Except PyErr (Arr2 ℝ) :=
  if X.rows = mt.length then .ok (Arr2.of X.rows (X.cols + 1) fun i j => if j < X.cols then X.get i j else ((mt.getD i 0 : ℕ) : ℝ)) else .error .valueError

/-- `GPyLMC.predict`, gpy_lmc.py 76-88. (`vstack` gives a 2-D array, so lines 79-80 do nothing.) -/
noncomputable def gpyPredict (gp : MultiGP) (g : GpyModel) (Xs : List (NDArr ℝ)) : Except PyErr (List (List ℝ) × List (List ℝ)) := do
  let Xs ← padDims gp.inputDim Xs
  let X ← vstackX Xs
  let lenls := Xs.map Arr2.rows
  let mt := npRepeat (List.range Xs.length) lenls
  let XM ← hstackMeta X mt
  let (mu, var) ← g.predict XM mt
  let m ← tesselate mu.data lenls
  let v ← tesselate var.data lenls
  return (m, v)

/-- gpy_lmc.py 96-104: `np.array` of the list of 2-D arrays must be 3-D with last dimension 1 (an empty or ragged list is not 3-D: IndexError at
`shape[2]`); `reshape(len(quantiles), -1)` needs as many entries as fit; the transpose. -/
def stackQuantiles (Qs : List (Arr2 ℝ)) (q : ℕ) : Except PyErr (List (List ℝ)) :=
  match Qs with
  | [] => .error .indexError
  | Q :: rest =>
    if ∀ R ∈ rest, R.rows = Q.rows ∧ R.cols = Q.cols then
      if Q.cols ≠ 1 then .error .assertionError
      else
        let flat := Qs.flatMap Arr2.data
        if q = 0 ∨ flat.length % q ≠ 0 then .error .valueError
        else
          let n := flat.length / q
          .ok (vmk n fun i => vmk q fun k => flat.getD (k * n + i) 0)
    else .error .indexError

/-- `GPyLMC.predict_quantiles`, gpy_lmc.py 90-104: for each output an array of shape (points, quantiles) -/
noncomputable def gpyQuantiles (gp : MultiGP) (g : GpyModel) (Xs : List (NDArr ℝ)) (quantiles : List ℝ) : Except PyErr (List (List (List ℝ))) := do
  let Xs ← padDims gp.inputDim Xs
  let X ← vstackX Xs
  let mt := npRepeat (List.range Xs.length) (Xs.map Arr2.rows)
  let XM ← hstackMeta X mt
  let Qs ← g.predictQuantiles XM quantiles mt
  let QT ← stackQuantiles Qs quantiles.length
  tesselate QT (Xs.map Arr2.rows)

end Verif
