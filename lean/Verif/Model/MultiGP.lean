import Verif.Model.Likelihood
import Mathlib.Probability.Distributions.Gaussian.Real
import Mathlib.Probability.CDF

/-! `runlmc/util/normalizer.py` and `runlmc/models/multigp.py`. -/

namespace Verif

/-! ### `Norm` -/

/-- `a.mean()` of a 1-D array (numpy: NaN for an empty array, here 0) -/
noncomputable def arrMean (Y : List ℝ) : ℝ := Y.sum / Y.length

/-- `a.std()` of a 1-D array (numpy: NaN for an empty array, here 0) -/
noncomputable def arrStd (Y : List ℝ) : ℝ := Real.sqrt (arrMean (Y.map fun y => (y - arrMean Y) ^ 2))

/-- A `Norm`, normalizer.py 13-16. `none` is python's `None`. -/
structure Norm where
  mean : Option ℝ
  std : Option ℝ

/-- `Norm()`, normalizer.py 14-16 -/
def Norm.new : Norm := ⟨none, none⟩

/-- `scale_by`, normalizer.py 18-24; an entry `none` of the data is invalid (NaN or infinite) and is masked. -/
noncomputable def Norm.scaleBy (_ : Norm) (Y : List (Option ℝ)) : Norm := ⟨some (arrMean Y.reduceOption), some (arrStd Y.reduceOption)⟩

/-- `normalize`, normalizer.py 26-34, for finite entries. Division by a zero `std` gives NaN or infinities in numpy and 0 here. -/
noncomputable def Norm.normalize (n : Norm) (Y : List ℝ) : Except PyErr (List ℝ) :=
  match n.mean, n.std with
  | none, _ => .error .attributeError
  | some _, none => .error .typeError
  | some m, some s => .ok (Y.map fun y => (y - m) / s)

/-- `inverse_mean`, normalizer.py 36-40, for the entries of an array of any shape. `X * None` is a TypeError. -/
noncomputable def Norm.inverseMean (n : Norm) (X : List ℝ) : Except PyErr (List ℝ) :=
  match n.std, n.mean with
  | some s, some m => .ok (X.map fun x => x * s + m)
  | _, _ => .error .typeError

/-- `inverse_variance`, normalizer.py 42-43 -/
noncomputable def Norm.inverseVariance (n : Norm) (var : List ℝ) : Except PyErr (List ℝ) :=
  match n.std with
  | some s => .ok (var.map fun v => v * s ^ 2)
  | none => .error .typeError

/-! ### `MultiGP` -/

/-- A `MultiGP` instance, multigp.py 59-73 (without its parameters). -/
structure MultiGP where
  inputDim : ℕ
  outputDim : ℕ
  normalizer : Option (List Norm)
  Ys : List (List ℝ)
  Xs : List (Arr2 ℝ)

/-- the body of the loop of `_validate_io`, multigp.py 205-214 -/
def checkPair (XY : NDArr ℝ × NDArr ℝ) : Except PyErr Unit := do
  let lx ← XY.1.len
  let ly ← XY.2.len
  if lx ≠ ly then .error .valueError
  else if XY.1.ndim ≠ 1 ∧ XY.1.ndim ≠ 2 then .error .valueError
  else if XY.2.ndim ≠ 1 then .error .valueError
  else .ok ()

/-- `set(X.shape[1] for X in Xs if X.ndim > 1)`, multigp.py 216 -/
def dimSet (Xs : List (NDArr ℝ)) : List ℕ := ((Xs.filter fun X => decide (1 < X.ndim)).map fun X => X.shape.getD 1 0).dedup

open Classical in
/-- `np.std(Y) == 0`, multigp.py 224: the standard deviation of an empty array is NaN, which is not 0 -/
noncomputable def checkStd (Y : NDArr ℝ) : Except PyErr Unit :=
  if Y.data ≠ [] ∧ arrStd Y.data = 0 then .error .valueError else .ok ()

/-- multigp.py 216-221 -/
def inputDimOf (Xs : List (NDArr ℝ)) : Except PyErr ℕ :=
  let dims := if dimSet Xs = [] then [1] else dimSet Xs
  match dims with
  | [p] => .ok p
  | _ => .error .valueError

/-- `_validate_io`, multigp.py 199-227 -/
noncomputable def validateIO (Xs Ys : List (NDArr ℝ)) : Except PyErr (ℕ × ℕ) :=
  if Xs = [] then .error .valueError
  else if Xs.length ≠ Ys.length then .error .valueError
  else do
    let _ ← mapExcept checkPair (Xs.zip Ys)
    let p ← inputDimOf Xs
    let _ ← mapExcept checkStd Ys
    return (p, Xs.length)

/-- `X.reshape(-1, 1) if X.ndim == 1 else X`, and the test of `X.shape[1]`, multigp.py 229-235. An array with more than two axes would
pass here and fail when columns are taken; it is a ValueError here. -/
def padDim (p : ℕ) (X : NDArr ℝ) : Except PyErr (Arr2 ℝ) :=
  match X.shape with
  | [] => .error .indexError
  | [n] => if 1 ≠ p then .error .valueError else .ok ⟨n, 1, X.data⟩
  | [n, c] => if c ≠ p then .error .valueError else .ok ⟨n, c, X.data⟩
  | _ => .error .valueError

/-- `_pad_dims`, multigp.py 229-235 -/
def padDims (p : ℕ) (Xs : List (NDArr ℝ)) : Except PyErr (List (Arr2 ℝ)) := mapExcept (padDim p) Xs

/-- `MultiGP.__init__`, multigp.py 59-73. `Norm`s are created, scaled and applied in three passes, as in the code. -/
noncomputable def multiGPNew (Xs Ys : List (NDArr ℝ)) (normalize : Bool) : Except PyErr MultiGP := do
  let (p, d) ← validateIO Xs Ys
  if normalize then do
    let norms := (List.replicate Ys.length Norm.new).zipWith (fun n Y => n.scaleBy (Y.data.map some)) Ys
    let Ys' ← mapExcept (fun nY : Norm × NDArr ℝ => nY.1.normalize nY.2.data) (norms.zip Ys)
    let Xs' ← padDims p Xs
    return ⟨p, d, some norms, Ys', Xs'⟩
  else do
    let Xs' ← padDims p Xs
    return ⟨p, d, none, Ys.map NDArr.data, Xs'⟩

/-- means and variances, one array per output -/
abbrev Predicted := List (List ℝ) × List (List ℝ)

/-- un-normalising of a raw prediction, multigp.py 112-115 -/
noncomputable def denormalize (norms : List Norm) (p : Predicted) : Except PyErr Predicted := do
  let mu ← mapExcept (fun nm : Norm × List ℝ => nm.1.inverseMean nm.2) (norms.zip p.1)
  let var ← mapExcept (fun nv : Norm × List ℝ => nv.1.inverseVariance nv.2) (norms.zip p.2)
  return (mu, var)

/-- `_predict`, multigp.py 106-117; `raw` is `self._raw_predict`. A non-empty list of normalizers is truthy. -/
noncomputable def MultiGP.predictWith (gp : MultiGP) (raw : List (Arr2 ℝ) → Except PyErr Predicted) (Xs : List (Arr2 ℝ)) (normalize : Bool) :
    Except PyErr Predicted :=
  if Xs.length ≠ gp.outputDim then .error .assertionError
  else if ¬ ∀ X ∈ Xs, X.cols = gp.inputDim then .error .assertionError
  else do
    let p ← raw Xs
    match gp.normalizer with
    | some norms => if norms ≠ [] ∧ normalize then denormalize norms p else return p
    | none => return p

/-- `predict`, multigp.py 119-141 -/
noncomputable def MultiGP.predict (gp : MultiGP) (raw : List (Arr2 ℝ) → Except PyErr Predicted) (Xs : List (NDArr ℝ)) : Except PyErr Predicted := do
  let Xs ← padDims gp.inputDim Xs
  gp.predictWith raw Xs true

/-- `scipy.stats.norm.ppf(p)` for `0 < p < 1` (it is infinite at 0 and 1, NaN elsewhere): the quantile function of the standard normal
distribution -/
noncomputable def normPpf (p : ℝ) : ℝ := sInf {x | p ≤ ProbabilityTheory.cdf (ProbabilityTheory.gaussianReal 0 1) x}

/-- multigp.py 158-161 for one output: `np.outer(np.sqrt(v), ppf(quantiles / 100)) + m[:, np.newaxis]`. (`np.sqrt` of a negative number
is NaN in numpy, 0 here; means and variances of different lengths do not broadcast.) -/
noncomputable def quantilesOf (qs : List ℝ) (m v : List ℝ) : Except PyErr (Arr2 ℝ) :=
  if m.length ≠ v.length then .error .valueError
  else .ok (Arr2.of v.length qs.length fun i k => Real.sqrt (v.getD i 0) * normPpf (qs.getD k 0 / 100) + m.getD i 0)

/-- `inverse_mean` of a 2-D array -/
noncomputable def Norm.inverseMean2 (n : Norm) (q : Arr2 ℝ) : Except PyErr (Arr2 ℝ) := do
  let data ← n.inverseMean q.data
  return ⟨q.rows, q.cols, data⟩

/-- `predict_quantiles`, multigp.py 143-165 -/
noncomputable def MultiGP.predictQuantiles (gp : MultiGP) (raw : List (Arr2 ℝ) → Except PyErr Predicted) (Xs : List (NDArr ℝ)) (qs : List ℝ) :
    Except PyErr (List (Arr2 ℝ)) := do
  let Xs ← padDims gp.inputDim Xs
  let p ← gp.predictWith raw Xs false
  let quantiles ← mapExcept (fun mv : List ℝ × List ℝ => quantilesOf qs mv.1 mv.2) (p.1.zip p.2)
  match gp.normalizer with
  | some norms => if norms ≠ [] then mapExcept (fun nq : Norm × Arr2 ℝ => nq.1.inverseMean2 nq.2) (norms.zip quantiles) else return quantiles
  | none => return quantiles

end Verif
