import Verif.Model.Iterative
import Verif.Model.MultiGP
import Verif.Model.Interp
import Mathlib.Analysis.SpecialFunctions.Log.Basic

/-! `runlmc/models/interpolated_llgp.py`: what is computed from the state of one model. `LLGPState.lean` has the caches and the updates. -/

namespace Verif

/-! ### grids -/

/-- the dense meaning of a sparse matrix -/
noncomputable def Csr.dense (A : Csr) : Arr2 ℝ := Arr2.of A.rows A.cols A.get

/-- the `lo`, `hi` and `m` arguments of the constructor: `None`, a number or a vector -/
inductive GridOpt where
  | none
  | scalar (v : ℝ)
  | vec (v : List ℝ)

/-- `_wrap`, interpolated_llgp.py 406-413. Indexing with a list copies, so `autogrid` does not write to the caller's vector. (It would write to
a 0-d ndarray; numbers are python numbers here.) -/
def wrapOpt (x : GridOpt) (ad : List ℕ) : Except PyErr GridArg :=
  match x with
  | .none => .ok .none
  | .scalar v => if ad.length = 1 then .ok (.ndarray [v]) else .error .assertionError
  | .vec v => if ∀ c ∈ ad, c < v.length then .ok (.ndarray (ad.map fun c => v.getD c 0)) else .error .indexError

/-- what is stored for one group of active dimensions: `grid_axes`, `dists` and `interpolants` -/
structure GroupGrid where
  axes : List (List ℝ)
  dists : NDArr ℝ
  W : Arr2 ℝ
  WT : Arr2 ℝ

/-- a 2-D array as an ndarray -/
def Arr2.nd (A : Arr2 ℝ) : NDArr ℝ := ⟨[A.rows, A.cols], A.data⟩

/-- the body of the loop of `_generate_grids`, interpolated_llgp.py 418-443; sparse matrices are kept as their dense meaning -/
noncomputable def generateGrid (Xs : List (Arr2 ℝ)) (lo hi m : GridOpt) (ad : List ℕ) : Except PyErr GroupGrid := do
  let wlo ← wrapOpt lo ad
  let whi ← wrapOpt hi ad
  let wm ← wrapOpt m ad
  let Xa ← mapExcept (fun X => takeCols X ad) Xs
  let g ← autogrid Xa wlo whi wm
  let dists ← gridDists g.grids
  let W ← multiInterpolant (Xa.map Arr2.nd) (g.grids.map NDArr.vec)
  return ⟨g.grids, dists, W.dense, W.dense.T⟩

/-- `_generate_grids`, interpolated_llgp.py 415-443 -/
noncomputable def generateGrids (fk : FK) (Xs : List (Arr2 ℝ)) (lo hi m : GridOpt) : Except PyErr (List (List ℕ × GroupGrid)) :=
  mapExcept (fun ad => do let g ← generateGrid Xs lo hi m ad; return (ad, g)) (fk.activeDims.map Prod.fst)

/-! ### the object -/

/-- the recognised values of `prediction`, interpolated_llgp.py 317-322 -/
inductive PredMode where
  | onTheFly | precompute | exact

/-- `_prediction_methods`, interpolated_llgp.py 317-322 -/
def predMode (s : String) : Option PredMode :=
  if s = "on-the-fly" then some .onTheFly
  else if s = "precompute" then some .precompute
  else if s = "exact" then some .exact
  else none

/-- `self.kernel` with its `_grid_kernels` attribute, interpolated_llgp.py 200-207 -/
structure LLKernel where
  approx : ApproxLMC
  grids : List (List ℕ × GridKernelObj)

/-- An `InterpolatedLLGP`, interpolated_llgp.py 128-160: `gp` are the attributes of the base class, `fk` is the functional kernel with the current
parameter values, `grids` are `grid_axes`, `dists` and `interpolants`, `nIt` and `tol` belong to the derivative service, which shares the
`metrics` object. `grad` is what the last `update_gradient` stored. -/
structure LLGP where
  gp : MultiGP
  fk : FK
  grids : List (List ℕ × GroupGrid)
  prediction : PredMode
  nIt : ℕ
  tol : ℝ
  metrics : Option Metrics
  kernel : Option LLKernel
  grad : Option FKGrad

/-- `self.dists` -/
def LLGP.dists (m : LLGP) : List (List ℕ × NDArr ℝ) := m.grids.map fun g => (g.1, g.2.dists)

/-- `self.interpolants` -/
def LLGP.interp (m : LLGP) : List (List ℕ × (Arr2 ℝ × Arr2 ℝ)) := m.grids.map fun g => (g.1, (g.2.W, g.2.WT))

/-- `self.grid_axes` -/
def LLGP.gridAxes (m : LLGP) : List (List ℕ × List (List ℝ)) := m.grids.map fun g => (g.1, g.2.axes)

/-- `self.y`, interpolated_llgp.py 147 -/
def LLGP.y (m : LLGP) : List ℝ := m.gp.Ys.flatten

/-- `list(map(len, self.Ys))` -/
def LLGP.lens (m : LLGP) : List ℕ := m.gp.Ys.map List.length

/-- constructor arguments, interpolated_llgp.py 128-132 (`name` has no effect; `max_procs` decides between a pool and none, see `Env`) -/
structure LLGPArgs where
  Xs : List (NDArr ℝ)
  Ys : List (NDArr ℝ)
  normalize : Bool
  lo : GridOpt
  hi : GridOpt
  m : GridOpt
  metrics : Bool
  prediction : String
  traceIterations : ℕ
  tolerance : ℝ
  functionalKernel : Option FK

/-- `InterpolatedLLGP.__init__`, interpolated_llgp.py 128-160 (`parameters_changed`, which is called afterwards, is separate). -/
noncomputable def llgpInit (a : LLGPArgs) : Except PyErr LLGP := do
  let gp ← multiGPNew a.Xs a.Ys a.normalize
  match a.functionalKernel with
  | none => .error .valueError
  | some fk =>
    match predMode a.prediction with
    | none => .error .valueError
    | some mode => do
      let fk ← fk.setInputDim gp.inputDim
      let grids ← generateGrids fk gp.Xs a.lo a.hi a.m
      return ⟨gp, fk, grids, mode, a.traceIterations, a.tolerance, if a.metrics then some Metrics.new else none, none, none⟩

/-- What one operation meets in its environment: the random bits it draws, how a pool schedules a call with the given number of tasks (or that
there is no pool), whether debug logging is on, and where, if anywhere, an exception from outside (ctrl-C, lack of memory) hits. -/
structure Env where
  z : ℕ → ℕ → Bool
  pool : ℕ → PoolArg
  debug : Bool
  interrupt : Option ℕ

/-! ### the cached quantities -/

/-- `_dense`, interpolated_llgp.py 247-250 -/
noncomputable def LLGP.dense (m : LLGP) : Except PyErr ExactLMC := exactLMCNew m.fk m.gp.Xs m.gp.Ys

/-- `self.kernel.…` of a kernel that may be `None` -/
def LLGP.theKernel (m : LLGP) : Except PyErr LLKernel :=
  match m.kernel with
  | some k => .ok k
  | none => .error .attributeError

/-- `A.dot(v)` of a sparse matrix; ValueError if the lengths differ -/
noncomputable def csrDot (A : Arr2 ℝ) (v : List ℝ) : Except PyErr (List ℝ) := if A.cols = v.length then .ok (A.dotv v) else .error .valueError

/-- `grid_K.matvec(v)`: ValueError if the length differs -/
def matvecOf (K : MatObj) (v : List ℝ) : Except PyErr (List ℝ) := if K.cols = v.length then .ok (K.matvec v) else .error .valueError

/-- `_grid_alpha`, interpolated_llgp.py 293-300 -/
noncomputable def LLGP.gridAlpha (m : LLGP) : Except PyErr (List (List ℕ × List ℝ)) :=
  mapExcept (fun ad => do
    let WW ← dictIdx m.interp ad
    let k ← m.theKernel
    let gk ← dictIdx k.grids ad
    let v ← csrDot WW.2 k.approx.alpha
    let u ← matvecOf gk.gridK v
    return (ad, u)) (m.fk.activeDims.map Prod.fst)

/-- a kernel value used as a number in `coregs.dot(kernels)`, interpolated_llgp.py 312: shape `(1,)`; NaN is a ValueError here (numpy raises
for a mixture of arrays and NaN and returns NaNs if there is nothing else) -/
def kvalNumber : KVal → Except PyErr ℝ
  | .arr ⟨[1], [v]⟩ => .ok v
  | _ => .error .valueError

/-- `_native_variance`, interpolated_llgp.py 304-314. (`np.column_stack` of a generator works in the numpy versions of this project.) -/
noncomputable def LLGP.nativeVariance (m : LLGP) : Except PyErr (List ℝ) := do
  let vals ← m.fk.evalKernels (m.fk.activeDims.map fun g => (g.1, .py 0))
  let ks ← mapExcept kvalNumber vals
  return vmk m.fk.D fun d =>
    (∑ q ∈ Finset.range m.fk.Q, ((∑ r ∈ Finset.range (m.fk.coregVecs.getD q ⟨0, 0, []⟩).rows, (m.fk.coregVecs.getD q ⟨0, 0, []⟩).get r d ^ 2) +
      (m.fk.coregDiags.getD q []).getD d 0) * ks.getD q 0) + m.fk.noise.getD d 0

/-- `_var_solve`, interpolated_llgp.py 358-365 -/
noncomputable def varSolve (sv : Solvers) (K KXU KUX : MatObj) (i : ℕ) : Except PyErr ℝ := do
  let x := vmk KXU.cols fun j => if j = i then 1 else 0
  let x ← matvecOf KXU x
  let r ← iterativeSolve sv K x false true 1e-4
  let x ← plainOf r.1
  let x ← matvecOf KUX x
  match x[i]? with
  | some v => .ok v
  | none => .error .indexError

/-- `self.kernel.K.Ks[0].grid_K`, interpolated_llgp.py 373: the first summand of `gen_grid_kernel` is the grid kernel of the first group (with no
group it would be the noise, which has no `grid_K`) -/
def firstGridK (k : LLKernel) : Except PyErr MatObj :=
  match k.grids with
  | g :: _ => .ok g.2.gridK
  | [] => .error .attributeError

/-- `_precomputed_nu`, interpolated_llgp.py 367-382 -/
noncomputable def LLGP.nu (sv : Solvers) (e : Env) (m : LLGP) : Except PyErr (List ℝ) :=
  if m.interp.length ≠ 1 then .error .valueError
  else do
    let WW ← dictIdx m.interp (List.range m.gp.inputDim)
    let k ← m.theKernel
    let KUU ← firstGridK k
    let Wm ← wrapNew WW.1.rows WW.1.cols WW.1.dotv
    let KXU ← compositionNew [Wm, KUU]
    let WTm ← wrapNew WW.2.rows WW.2.cols WW.2.dotv
    let KUX ← compositionNew [KUU, WTm]
    starmap (e.pool KXU.cols) (varSolve sv k.approx.K KXU KUX) (List.range KXU.cols)

/-! ### likelihood -/

/-- `np.diag(L)` -/
noncomputable def npDiagOf (A : Arr2 ℝ) : List ℝ := vmk (min A.rows A.cols) fun i => A.get i i

open Classical in
/-- `log_det_K`, interpolated_llgp.py 262-276, from `_dense()`; `none` is `-inf` -/
noncomputable def logDetOf (l : ExactLMC) : Option ℝ :=
  let diag := npDiagOf l.L
  let lgdet := (diag.map Real.log).sum * 2
  let sgn := (diag.map fun x => (SignType.sign x : ℝ)).prod
  if sgn ≤ 0 then none else some lgdet

/-- `normal_quadratic`, interpolated_llgp.py 278-285: ValueError if the lengths differ -/
noncomputable def LLGP.normalQuadratic (m : LLGP) : Except PyErr ℝ := do
  let k ← m.theKernel
  if m.y.length = k.approx.alpha.length then return vdot m.y k.approx.alpha else .error .valueError

/-- `log_likelihood`, interpolated_llgp.py 287-290, from `_dense()`; `none` is `+inf` -/
noncomputable def LLGP.logLikelihoodOf (m : LLGP) (l : ExactLMC) : Except PyErr (Option ℝ) := do
  let q ← m.normalQuadratic
  return (logDetOf l).map fun d => -0.5 * (d + q + m.y.length * Real.log (2 * Real.pi))

/-! ### prediction -/

/-- interpolated_llgp.py 335-338 for one group: `W` and `W.dot(grid_alpha_ad)` -/
noncomputable def LLGP.predictGroup (m : LLGP) (Xs : List (Arr2 ℝ)) (ga : List ℕ × List ℝ) : Except PyErr (Arr2 ℝ × List ℝ) := do
  let Xa ← mapExcept (fun X => takeCols X ga.1) Xs
  let axes ← dictIdx m.gridAxes ga.1
  let W ← multiInterpolant (Xa.map Arr2.nd) (axes.map NDArr.vec)
  let v ← csrDot W.dense ga.2
  return (W.dense, v)

/-- interpolated_llgp.py 332-338: `prediction_W` and `mean` -/
noncomputable def LLGP.predictMean (m : LLGP) (Xs : List (Arr2 ℝ)) (ga : List (List ℕ × List ℝ)) : Except PyErr (List (List ℕ × Arr2 ℝ) × List ℝ) := do
  let parts ← mapExcept (m.predictGroup Xs) ga
  let n := (Xs.map Arr2.rows).sum
  if ∀ p ∈ parts, p.2.length = n then
    return ((ga.map Prod.fst).zip (parts.map Prod.fst), (parts.map Prod.snd).foldl vadd (vmk n fun _ => 0))
  else .error .valueError

/-- `_var_predict_exact`, interpolated_llgp.py 350-356 -/
noncomputable def LLGP.varExact (m : LLGP) (exact : ExactLMC) (Xs : List (Arr2 ℝ)) : Except PyErr (List ℝ) := do
  let KtX ← kernelFromIndices Xs m.gp.Xs m.fk
  let S ← choSolve2 exact.L KtX.T
  return npDiagOf (KtX.dot S)

/-- `_var_predict_precompute`, interpolated_llgp.py 384-388, after `_precomputed_nu` -/
noncomputable def varPrecompute (Ws : List (List ℕ × Arr2 ℝ)) (nu : List ℝ) : Except PyErr (List ℝ) :=
  match Ws with
  | [W] => csrDot W.2 nu
  | _ => .error .assertionError

/-- `_var_predict_on_the_fly`, interpolated_llgp.py 390-397. With no query points at all `np.array([]).T` does not fit `K_test_X`. -/
noncomputable def LLGP.varOnTheFly (sv : Solvers) (e : Env) (m : LLGP) (Xs : List (Arr2 ℝ)) : Except PyErr (List ℝ) := do
  let KtX ← kernelFromIndices Xs m.gp.Xs m.fk
  let k ← m.theKernel
  let inverted ← starmap (e.pool KtX.rows) (fun i => do
    let r ← iterativeSolve sv k.approx.K (KtX.row i) false true 1e-4
    plainOf r.1) (List.range KtX.rows)
  if KtX.rows = 0 then .error .valueError
  else return npDiagOf (KtX.dot (Arr2.of KtX.cols KtX.rows fun i j => (inverted.getD j []).getD i 0))

open Classical in
/-- interpolated_llgp.py 340 and 344-348: `native_variance - explained_variance` clamped at zero, and the splits into outputs -/
noncomputable def splitPrediction (lens : List ℕ) (mean native explained : List ℝ) : Except PyErr Predicted :=
  let nat := npRepeat native lens
  if native.length ≠ lens.length then .error .valueError
  else if nat.length ≠ explained.length then .error .valueError
  else
    let var := (vsub nat explained).map fun v => if v < 0 then 0 else v
    let endpoints := (accumulate lens).dropLast
    .ok (npSplit mean 0 endpoints, npSplit var 0 endpoints)

/-- the explained variance by the chosen method, interpolated_llgp.py 342-343, with the results of the cached methods it uses -/
noncomputable def LLGP.explained (sv : Solvers) (e : Env) (m : LLGP) (Xs : List (Arr2 ℝ)) (Ws : List (List ℕ × Arr2 ℝ)) : Except PyErr (List ℝ) :=
  match m.prediction with
  | .exact => do
    let ex ← m.dense
    m.varExact ex Xs
  | .precompute => do
    let nu ← m.nu sv e
    varPrecompute Ws nu
  | .onTheFly => m.varOnTheFly sv e Xs

/-- `_raw_predict`, interpolated_llgp.py 324-348, for a model whose `kernel` is set, when every cached method computes its value -/
noncomputable def LLGP.rawPredict (sv : Solvers) (e : Env) (m : LLGP) (Xs : List (Arr2 ℝ)) : Except PyErr Predicted := do
  let ga ← m.gridAlpha
  let native ← m.nativeVariance
  let wm ← m.predictMean Xs ga
  let ex ← m.explained sv e Xs wm.1
  splitPrediction (Xs.map Arr2.rows) wm.2 native ex

end Verif
