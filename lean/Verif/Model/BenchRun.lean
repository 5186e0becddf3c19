import Verif.Model.Bench
import Verif.Model.Setters

/-! The rest of `benchmarks/benchlib/bench.py`: the set-up, and what it prints about the solvers and the gradients. Times are not modelled. -/

namespace Verif

/-- The numbers `_main` draws, bench.py 111-115 and 125: truncated normals for the vectors, gamma variates for `kappa` and the noise, uniform numbers for the
inputs and observations. `init` are the draws of the constructor of the kernel, which are overwritten. -/
structure BenchDraws where
  vecs : ℕ → ℕ → ℕ → ℝ
  gammaDiags : ℕ → ℕ → ℝ
  gammaNoise : ℕ → ℝ
  xs : ℕ → ℕ → ℝ
  ys : ℕ → ℕ → ℝ
  init : ℕ → ℕ → ℕ → ℝ

/-- what `run_kernel_benchmark` gets (the pairwise distances `dists` it does not read are left out), with the test type -/
structure BenchSetup where
  fkern : FK
  Xs : List (Arr2 ℝ)
  Ys : List (List ℝ)
  gridDists : NDArr ℝ
  W : Arr2 ℝ
  WT : Arr2 ℝ
  testtype : String

/-- `prep`, bench.py 146-164: the distances of the grid points from the first and the interpolation matrix, with its transpose. The pairwise distances it also
returns are not read afterwards. -/
noncomputable def benchPrep (Xs : List (Arr2 ℝ)) : Except PyErr (NDArr ℝ × Arr2 ℝ × Arr2 ℝ) := do
  let g ← autogrid Xs .none .none .none
  match g.grids with
  | [] => .error .indexError
  | grid :: _ =>
    match grid with
    | [] => .error .indexError
    | g0 :: _ => do
      let W ← multiInterpolant (Xs.map Arr2.nd) [NDArr.vec grid]
      return (NDArr.vec (grid.map fun g => g - g0), W.dense, W.dense.T)

/-- `_main`, bench.py 86-143, up to the call of `run_kernel_benchmark`. `np.reciprocal` of a positive number; `[len(x) for x in coreg_vecs]` is `r_q` for every
kernel. -/
noncomputable def benchMain (a : BenchArgs) (r : BenchDraws) : Except PyErr BenchSetup := do
  let c ← benchChecks a
  let d := a.d.toNat
  let q := a.q.toNat
  let nO := a.nO.toNat
  let Xs := vmk d fun i => Arr2.of nO 1 fun j _ => r.xs i j
  let Ys := vmk d fun i => vmk nO (r.ys i)
  let p ← benchPrep Xs
  let k ← dictIdx (["rbf", "periodic", "matern", "mix"].zip (genKernels q)) c.1
  let fk ← fkNew r.init ⟨some a.d, some k, some (vmk q fun _ => a.rq), none, none, none⟩
  match fk.applyAll [.noise (NDArr.vec (vmk d fun i => (r.gammaNoise i)⁻¹)), .vecs (vmk q fun k => (Arr2.of a.rq.toNat d (r.vecs k)).nd),
      .diags (vmk q fun k => NDArr.vec (vmk d fun i => (r.gammaDiags k i)⁻¹))] with
  | (.error e, _) => .error e
  | (.ok _, fk) => do
    let fk ← fk.setInputDim 1
    return ⟨fk, Xs, Ys, p.1, p.2.1, p.2.2, c.2.2⟩

/-- the operator of `make_solve`, bench.py 187-192 -/
noncomputable def BenchSetup.operator (b : BenchSetup) (kt : KType) : Except PyErr MatObj := do
  let k ← gridKernelNew b.fkern b.gridDists b.W b.WT kt [0]
  let n ← diagNew (.vec (npRepeat b.fkern.noise (b.Xs.map Arr2.rows)))
  sumMatrixNew [k.obj, n]

/-- the four solves, bench.py 195-199: representation and whether it is `minres` -/
def benchMethods : List (KType × Bool) := [(.sum, true), (.bt, true), (.slfm, true), (.slfm, false)]

/-- a line of bench.py 201-210: the norm of the difference between the observations and their reconstruction, and the number of iterations -/
structure BenchLine where
  recon : ℝ
  iterations : ℕ

/-- one solve, bench.py 206-208, `solve(k, y, verbose=True, minres=minres, tol=1e-4)` -/
noncomputable def BenchSetup.solve (sv : Solvers) (b : BenchSetup) (m : KType × Bool) : Except PyErr BenchLine := do
  let K ← b.operator m.1
  let out ← iterativeSolve sv K b.Ys.flatten true m.2 1e-4
  let r ← verboseOf out.1
  return ⟨r.2.2, r.2.1⟩

/-- `run_kernel_benchmark` with test type `inv`, bench.py 170-212: the line of the Cholesky factorization and those of the iterative methods. The eigenvalues
of bench.py 175-180 are not modelled. -/
noncomputable def BenchSetup.inv (sv : Solvers) (b : BenchSetup) : Except PyErr (List BenchLine) := do
  let exact ← exactLMCNew b.fkern b.Xs b.Ys
  let cholErr := laNorm (vsub b.Ys.flatten (exact.K.dotv exact.deriv.alpha))
  let rest ← mapExcept (b.solve sv) benchMethods
  return ⟨cholErr, 0⟩ :: rest

/-- `np.fabs(v).mean()` -/
noncomputable def meanAbs (v : List ℝ) : ℝ := npMean (v.map fun x => |x|)

/-- `la.norm(v, 1)` -/
noncomputable def oneNorm (v : List ℝ) : ℝ := (v.map fun x => |x|).sum

/-- `vector_errors`, bench.py 302-306. Division by zero is a NaN in python. -/
noncomputable def vectorErrors (approx exact : List ℝ) : ℝ × ℝ :=
  (oneNorm (vsub approx exact) / oneNorm exact, laNorm (vsub approx exact) / laNorm exact)

/-- one of the four gradients as `check_grads` handles it: the sum of the `len` of its arrays, and `np.hstack` of them, ravelled by `np.append` -/
structure GradParts where
  count : ℕ
  flat : List ℝ

/-- a list of 1-D arrays -/
def parts1 (g : List (List ℝ)) : GradParts := ⟨(g.map List.length).sum, g.flatten⟩

/-- A list of 2-D arrays: `len` is the number of rows. `np.hstack` puts them side by side; a ValueError unless they have equally many rows. -/
def parts2 (g : List (Arr2 ℝ)) : Except PyErr GradParts :=
  let rows := (g.headD ⟨0, 0, []⟩).rows
  if ∀ A ∈ g, A.rows = rows then .ok ⟨(g.map Arr2.rows).sum, (List.range rows).flatMap fun i => g.flatMap fun A => A.row i⟩ else .error .valueError

/-- `check_grads`, bench.py 235-253: the number of gradients it prints, the errors and the exact gradient -/
noncomputable def checkGrads (exact approx : Except PyErr GradParts) : Except PyErr (ℕ × List ℝ × List ℝ) := do
  let e ← exact
  let a ← approx
  if e.count = a.count then
    if e.flat.length = a.flat.length then return (e.count, vsub e.flat a.flat, e.flat) else .error .valueError
  else .error .assertionError

/-- the four kinds of gradients, bench.py 255-259 -/
noncomputable def gradKinds {δ : Type} (fk : FK) (ops : LikOps δ) : List (Except PyErr GradParts) :=
  [do let g ← kernelGradients fk ops; return parts1 g,
   do let g ← coregVecGradients fk ops; parts2 g,
   do let g ← coregDiagsGradients fk ops; return parts1 g,
   do let g ← noiseGradient fk ops; return parts1 [g]]

/-- what is printed with test type `opt`, bench.py 229-283, without the times: the mean absolute difference of the two covariances, the relative errors of
`alpha`, the number of gradients of each kind, the number of all partial derivatives, the mean absolute error and size of the gradient, and the
relative errors of the gradient -/
structure BenchReport where
  matrixDiff : ℝ
  alphaErr : ℝ × ℝ
  counts : List ℕ
  total : ℕ
  avgErr : ℝ
  avgGrad : ℝ
  gradErr : ℝ × ℝ

/-- `run_kernel_benchmark` with test type `opt`, bench.py 170-283. `pool` is what `Pool(processes=cpu_count())` does with the solves, `z` are the random bits of the
trace estimate. -/
noncomputable def BenchSetup.opt (sv : Solvers) (b : BenchSetup) (pool : PoolArg) (z : ℕ → ℕ → Bool) : Except PyErr BenchReport := do
  let gridDists := [([0], b.gridDists)]
  let interpolants := [([0], (b.W, b.WT))]
  let exact ← exactLMCNew b.fkern b.Xs b.Ys
  let gk ← genGridKernel b.fkern gridDists interpolants (b.Xs.map Arr2.rows)
  let approx ← approxLMCNew sv b.fkern gk.1 gridDists interpolants b.Ys ⟨pool, 10, 1e-4⟩ none z
  let matrixDiff := meanAbs (vsub approx.1.K.asNumpy.data exact.K.data)
  let alphaErr := vectorErrors approx.1.deriv.alpha exact.deriv.alpha
  let res ← mapExcept (fun ea => checkGrads ea.1 ea.2) ((gradKinds b.fkern exact.ops).zip (gradKinds b.fkern approx.1.ops))
  let errs := res.flatMap fun r => r.2.1
  let grads := res.flatMap fun r => r.2.2
  return ⟨matrixDiff, alphaErr, res.map fun r => r.1, errs.length, meanAbs errs, meanAbs grads, vectorErrors (List.zipWith (· + ·) errs grads) grads⟩

/-- The whole program, bench.py 86-283: what it prints, for test type `inv` or else `opt` (bench.py 182). -/
noncomputable def benchProgram (a : BenchArgs) (r : BenchDraws) (sv : Solvers) (pool : PoolArg) (z : ℕ → ℕ → Bool) : Except PyErr (List BenchLine ⊕ BenchReport) := do
  let b ← benchMain a r
  if b.testtype = "inv" then do
    let l ← b.inv sv
    return .inl l
  else do
    let p ← b.opt sv pool z
    return .inr p

end Verif
