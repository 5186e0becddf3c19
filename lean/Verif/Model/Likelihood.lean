import Verif.Model.GridKernel
import Mathlib.LinearAlgebra.Matrix.NonsingularInverse
import Mathlib.Data.Real.Basic

/-! `runlmc/lmc/likelihood.py`, `runlmc/lmc/exact_deriv.py`, `runlmc/lmc/derivative.py`. -/

namespace Verif

/-! ### scipy / numpy -/

/-- `np.vstack(Xs)` for a list of 2-D arrays: ValueError for no arrays or different widths. -/
def vstackX : List (Arr2 ℝ) → Except PyErr (Arr2 ℝ)
  | [] => .error .valueError
  | X :: rest => if ∀ Y ∈ rest, Y.cols = X.cols then .ok (npVstack (X :: rest)) else .error .valueError

/-- `X[:, ad]` for a tuple of column indices -/
def takeCols (X : Arr2 ℝ) (ad : List ℕ) : Except PyErr (Arr2 ℝ) :=
  if ∀ c ∈ ad, c < X.cols then .ok (Arr2.of X.rows ad.length fun i k => X.get i (ad.getD k 0)) else .error .indexError

/-- `scipy.spatial.distance.cdist(X, Z)` (Euclidean), ValueError for different widths -/
noncomputable def cdist (X Z : Arr2 ℝ) : Except PyErr (Arr2 ℝ) :=
  if X.cols = Z.cols then .ok (Arr2.of X.rows Z.rows fun i j => laNorm (vsub (X.row i) (Z.row j))) else .error .valueError

/-- python's `sum` of a generator of arrays of one shape (ValueError for different shapes; an empty sum is the number 0, on which the
callers' array operations fail: TypeError here, but a `FunctionalKernel` always has a kernel). -/
noncomputable def pySum : List (Arr2 ℝ) → Except PyErr (Arr2 ℝ)
  | [] => .error .typeError
  | A :: rest => rest.foldlM (fun S B => if S.rows = B.rows ∧ S.cols = B.cols then .ok (S.add B) else .error .valueError) A

/-- `U` is upper triangular with positive diagonal and `Uᵀ U` has the same upper triangle as `K`. -/
structure CholeskyOf (n : ℕ) (K : ℕ → ℕ → ℝ) (U : Matrix (Fin n) (Fin n) ℝ) : Prop where
  upper : ∀ i j, j < i → U i j = 0
  pos : ∀ i, 0 < U i i
  prod : U.transpose * U = Matrix.of fun i j : Fin n => K (min i j) (max i j)

open Classical in
/-- the factorisation of the `n × n` matrix with entries `K i j` -/
noncomputable def cholesky (n : ℕ) (K : ℕ → ℕ → ℝ) : Except PyErr (Arr2 ℝ) :=
  if h : ∃ U, CholeskyOf n K U then
    .ok (Arr2.of n n fun i j => if hij : i < n ∧ j < n ∧ i ≤ j then h.choose ⟨i, hij.1⟩ ⟨j, hij.2.1⟩ else K i j)
  else .error .linAlgError

/-- `la.cho_factor(K)` (`lower=False`) in exact arithmetic: reads the upper triangle of `K`, LinAlgError unless that describes a positive
definite matrix, ValueError unless square. The strict lower triangle of the result is left over from `K` (scipy documents it as
arbitrary). -/
noncomputable def choFactor (K : Arr2 ℝ) : Except PyErr (Arr2 ℝ) :=
  if K.rows ≠ K.cols then .error .valueError else cholesky K.rows K.get

/-- the upper triangle of a factor -/
noncomputable def upperPart (L : Arr2 ℝ) : Matrix (Fin L.rows) (Fin L.rows) ℝ :=
  Matrix.of fun i j => if i ≤ j then L.get i j else 0

/-- `la.cho_solve((L, False), b)` for a 1-D `b` in exact arithmetic: the solution `x` of `Uᵀ U x = b` -/
noncomputable def choSolve (L : Arr2 ℝ) (b : List ℝ) : Except PyErr (List ℝ) :=
  if b.length ≠ L.rows then .error .valueError
  else .ok (vmk L.rows fun i => if hi : i < L.rows then
    (((upperPart L).transpose * upperPart L)⁻¹.mulVec fun j => b.getD j 0) ⟨i, hi⟩ else 0)

/-- `la.cho_solve((L, False), B)` for a 2-D `B`: column by column -/
noncomputable def choSolve2 (L B : Arr2 ℝ) : Except PyErr (Arr2 ℝ) := do
  let cols ← mapExcept (fun j => choSolve L (B.col j)) (List.range B.cols)
  return Arr2.of L.rows B.cols fun i j => (cols.getD j []).getD i 0

/-! ### `LMCLikelihood` -/

/-- What the subclasses of `LMCLikelihood` implement, likelihood.py 33-43; `δ` is the type of `dK/dt`. -/
structure LikOps (δ : Type) where
  dKdA : Arr2 ℝ → ℕ → Except PyErr δ
  dKq : Arr2 ℝ → ℕ → Except PyErr (List δ)
  dKEps : List ℝ → Except PyErr δ
  dL : δ → Except PyErr ℝ

/-- likelihood.py 54-57: `dAdt = zeros; dAdt[j] += ai; dAdt.T[j] += ai` -/
noncomputable def dAdt (D : ℕ) (ai : List ℝ) (j : ℕ) : Arr2 ℝ :=
  let A0 := Arr2.zeros D D
  let A1 := Arr2.of D D fun r c => A0.get r c + if r = j then ai.getD c 0 else 0
  Arr2.of D D fun r c => A1.get r c + if c = j then ai.getD r 0 else 0

/-- likelihood.py 51-60: the gradient array of one coregionalization vector parameter -/
noncomputable def coregVecGradient {δ : Type} (ops : LikOps δ) (D q : ℕ) (a : Arr2 ℝ) : Except PyErr (Arr2 ℝ) := do
  let rows ← mapExcept (fun i => mapExcept (fun j => do
    let dK ← ops.dKdA (dAdt D (a.row i) j) q
    ops.dL dK) (List.range D)) (List.range a.rows)
  return Arr2.of a.rows a.cols fun i j => (rows.getD i []).getD j 0

/-- `coreg_vec_gradients`, likelihood.py 48-62 -/
noncomputable def coregVecGradients {δ : Type} (fk : FK) (ops : LikOps δ) : Except PyErr (List (Arr2 ℝ)) :=
  mapExcept (fun q => coregVecGradient ops fk.D q (fk.coregVecs.getD q ⟨0, 0, []⟩)) (List.range fk.coregVecs.length)

/-- `Z[i, i] = v` -/
noncomputable def setDiagEntry (Z : Arr2 ℝ) (i : ℕ) (v : ℝ) : Arr2 ℝ :=
  Arr2.of Z.rows Z.cols fun r c => if r = i ∧ c = i then v else Z.get r c

/-- likelihood.py 71-75: the body of the inner loop; the state is the reused array `zeros` and the entries of `grad` so far -/
noncomputable def diagGradStep {δ : Type} (ops : LikOps δ) (q : ℕ) (s : Arr2 ℝ × List ℝ) (i : ℕ) : Except PyErr (Arr2 ℝ × List ℝ) := do
  let Z := setDiagEntry s.1 i 1
  let dK ← ops.dKdA Z q
  let g ← ops.dL dK
  return (setDiagEntry Z i 0, s.2 ++ [g])

/-- `coreg_diags_gradients`, likelihood.py 64-77 -/
noncomputable def coregDiagsGradients {δ : Type} (fk : FK) (ops : LikOps δ) : Except PyErr (List (List ℝ)) :=
  mapExcept (fun q => do
    let s ← (List.range fk.D).foldlM (diagGradStep ops q) (Arr2.zeros fk.D fk.D, [])
    return s.2) (List.range fk.Q)

/-- `kernel_gradients`, likelihood.py 79-87 -/
noncomputable def kernelGradients {δ : Type} (fk : FK) (ops : LikOps δ) : Except PyErr (List (List ℝ)) :=
  mapExcept (fun q => do
    let dKs ← ops.dKq (fk.coregMats.getD q ⟨0, 0, []⟩) q
    mapExcept ops.dL dKs) (List.range fk.coregMats.length)

/-- `noise_gradient`, likelihood.py 89-96 -/
noncomputable def noiseGradient {δ : Type} (fk : FK) (ops : LikOps δ) : Except PyErr (List ℝ) :=
  mapExcept (fun i => do
    let dK ← ops.dKEps (vmk fk.D fun j => if j = i then 1 else 0)
    ops.dL dK) (List.range fk.D)

/-! ### `ExactDeriv` -/

/-- `ExactDeriv`, exact_deriv.py 9-17 -/
structure ExactDerivObj where
  Kinv : Arr2 ℝ
  alpha : List ℝ

/-- `ExactDeriv.__init__`, exact_deriv.py 13-17 -/
noncomputable def exactDerivNew (L : Arr2 ℝ) (y : List ℝ) : Except PyErr ExactDerivObj := do
  let Kinv ← choSolve2 L (Arr2.eye L.rows)
  let alpha ← choSolve L y
  return ⟨Kinv, alpha⟩

/-- `u.dot(v)` of 1-D arrays of equal length -/
noncomputable def vdot (u v : List ℝ) : ℝ := ∑ i ∈ Finset.range u.length, u.getD i 0 * v.getD i 0

/-- `A.sum()` -/
noncomputable def Arr2.total (A : Arr2 ℝ) : ℝ := ∑ i ∈ Finset.range A.rows, ∑ j ∈ Finset.range A.cols, A.get i j

/-- `d_normal_quadratic`, exact_deriv.py 19-20 -/
noncomputable def ExactDerivObj.dNormalQuadratic (d : ExactDerivObj) (dK : Arr2 ℝ) : ℝ := vdot d.alpha (dK.dotv d.alpha)

/-- `d_logdet_K`, exact_deriv.py 22-23 -/
noncomputable def ExactDerivObj.dLogdetK (d : ExactDerivObj) (dK : Arr2 ℝ) : ℝ := (dK.hmul d.Kinv).total

/-- `Derivative.derivative`, derivative.py 5-6; a wrongly shaped `dKdt` is a ValueError. -/
noncomputable def ExactDerivObj.derivative (d : ExactDerivObj) (dK : Arr2 ℝ) : Except PyErr ℝ :=
  if dK.rows = d.alpha.length ∧ dK.cols = d.alpha.length then .ok (0.5 * (d.dNormalQuadratic dK - d.dLogdetK dK))
  else .error .valueError

/-! ### `ExactLMCLikelihood` -/

/-- `_gen_dists`, likelihood.py 170-177 -/
noncomputable def genDists (keys : List (List ℕ)) (X Z : Arr2 ℝ) : Except PyErr (List (List ℕ × DistArg)) :=
  mapExcept (fun ad => do
    let x ← takeCols X ad
    let z ← takeCols Z ad
    let d ← cdist x z
    return (ad, .arr ⟨[d.rows, d.cols], d.data⟩)) keys

/-- a kernel value used as the 2-D array `K` of `_coreg_scale`: slicing a scalar NaN is an IndexError -/
def kvalArr2 : KVal → Except PyErr (Arr2 ℝ)
  | .arr ⟨[r, c], data⟩ => .ok ⟨r, c, data⟩
  | _ => .error .indexError

/-- `K[rb:re, cb:ce] *= x` -/
noncomputable def scaleBlock (K : Arr2 ℝ) (rb re cb ce : ℕ) (x : ℝ) : Arr2 ℝ :=
  Arr2.of K.rows K.cols fun r s => if rb ≤ r ∧ r < re ∧ cb ≤ s ∧ s < ce then K.get r s * x else K.get r s

/-- `itertools.product(range(D), range(D))` -/
def pairs (D : ℕ) : List (ℕ × ℕ) := (List.range D).flatMap fun i => (List.range D).map fun j => (i, j)

/-- `_coreg_scale`, likelihood.py 155-164. `A` is always `D × D`. -/
noncomputable def coregScale (A K : Arr2 ℝ) (rlens clens : List ℕ) (D : ℕ) : Except PyErr (Arr2 ℝ) := do
  let (rb, re) ← beginEndIndices rlens
  let (cb, ce) ← beginEndIndices clens
  if D ≤ rlens.length ∧ D ≤ clens.length then
    return (pairs D).foldl (fun K ij => scaleBlock K (rb.getD ij.1 0) (re.getD ij.1 0) (cb.getD ij.2 0) (ce.getD ij.2 0)
      (A.get ij.1 ij.2)) K
  else .error .indexError

/-- the sum over kernels of likelihood.py 146-148 and 197-199 -/
noncomputable def lmcSum (fk : FK) (Kqs : List (Arr2 ℝ)) (rlens clens : List ℕ) : Except PyErr (Arr2 ℝ) := do
  let scaled ← mapExcept (fun AK => coregScale AK.1 AK.2 rlens clens fk.D) (fk.coregMats.zip Kqs)
  pySum scaled

/-- `kernel_from_indices`, likelihood.py 179-200, for lists of 2-D arrays (for which the `ndim` tests after `vstack` never fire) -/
noncomputable def kernelFromIndices (Xs Zs : List (Arr2 ℝ)) (fk : FK) : Except PyErr (Arr2 ℝ) := do
  let X ← vstackX Xs
  let Z ← vstackX Zs
  let dists ← genDists (fk.activeDims.map Prod.fst) X Z
  let vals ← fk.evalKernels dists
  let Kqs ← mapExcept kvalArr2 vals
  lmcSum fk Kqs (Xs.map Arr2.rows) (Zs.map Arr2.rows)

/-- An `ExactLMCLikelihood` instance, likelihood.py 137-153. -/
structure ExactLMC where
  fk : FK
  y : List ℝ
  lens : List ℕ
  kernels : List (Arr2 ℝ)
  K : Arr2 ℝ
  L : Arr2 ℝ
  deriv : ExactDerivObj
  grads : List (List KVal)

/-- `A += B` for 2-D arrays of equal shape -/
noncomputable def addInPlace (A B : Arr2 ℝ) : Except PyErr (Arr2 ℝ) :=
  if A.rows = B.rows ∧ A.cols = B.cols then .ok (A.add B) else .error .valueError

/-- `ExactLMCLikelihood.__init__`, likelihood.py 28-31 and 138-153. -/
noncomputable def exactLMCNew (fk : FK) (Xs : List (Arr2 ℝ)) (Ys : List (List ℝ)) : Except PyErr ExactLMC :=
  if Ys = [] then .error .valueError
  else do
    let y := Ys.flatten
    let lens := Ys.map List.length
    let X ← vstackX Xs
    let dists ← genDists (fk.activeDims.map Prod.fst) X X
    let vals ← fk.evalKernels dists
    let Kqs ← mapExcept kvalArr2 vals
    let S ← lmcSum fk Kqs lens lens
    let K ← addInPlace S (npDiagMat (npRepeat fk.noise lens))
    let L ← choFactor K
    let deriv ← exactDerivNew L y
    let grads ← fk.evalKernelGradients dists
    return ⟨fk, y, lens, Kqs, K, L, deriv, grads⟩

/-- the methods of `ExactLMCLikelihood` used by the base class, likelihood.py 202-214 -/
noncomputable def ExactLMC.ops (l : ExactLMC) : LikOps (Arr2 ℝ) where
  dKdA A q := coregScale A (l.kernels.getD q ⟨0, 0, []⟩) l.lens l.lens l.fk.D
  dKq A q := mapExcept (fun v => do
    let K ← kvalArr2 v
    coregScale A K l.lens l.lens l.fk.D) (l.grads.getD q [])
  dKEps e := .ok (npDiagMat (npRepeat e l.lens))
  dL dK := l.deriv.derivative dK

/-- `alpha`, likelihood.py 216-217 -/
def ExactLMC.alpha (l : ExactLMC) : List ℝ := l.deriv.alpha

/-! ### `FunctionalKernel.update_gradient` -/

/-- the `gradient` attributes of the parameters of a `FunctionalKernel` -/
structure FKGrad where
  vecs : List (Arr2 ℝ)
  diags : List (List ℝ)
  kernels : List (List ℝ)
  noise : List ℝ

/-- `update_gradient`, functional_kernel.py 212-223: the gradients stored in the parameters -/
noncomputable def FK.updateGradient {δ : Type} (fk : FK) (ops : LikOps δ) : Except PyErr FKGrad := do
  fk.assertP
  let vecs ← coregVecGradients fk ops
  let diags ← coregDiagsGradients fk ops
  let kg ← kernelGradients fk ops
  let kernels ← mapExcept (fun kd => kd.1.updateGradient kd.2) (fk.kernels.zip kg)
  let noise ← noiseGradient fk ops
  return ⟨vecs, diags, kernels, noise⟩

end Verif
