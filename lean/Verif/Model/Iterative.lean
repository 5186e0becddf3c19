import Verif.Model.Likelihood
import Verif.Model.PyUtil

/-! `runlmc/approx/iterative.py`, `runlmc/lmc/stochastic_deriv.py`, `runlmc/lmc/metrics.py` and `ApproxLMCLikelihood` of
`runlmc/lmc/likelihood.py`. -/

namespace Verif

/-! ### `Iterative` -/

/-- What a scipy Krylov method does when nothing interrupts it: the iterates it passes to the callback, and the pair it returns. -/
structure KrylovRun where
  iterates : List (List ℝ)
  x : List ℝ
  info : ℤ

/-- `sla.minres` and `sla.cg` as functions of operator, right hand side, tolerance and iteration limit. They are not part of this
library: nothing is assumed about the runs. (`preconditioner` is an attribute of no class in this library, so `M=None`.) -/
structure Solvers where
  minres : MatObj → List ℝ → ℝ → ℕ → KrylovRun
  cg : MatObj → List ℝ → ℝ → ℕ → KrylovRun

/-- `la.norm(y - op.matvec(x))`, iterative.py 40 and 54 -/
noncomputable def residual (K : MatObj) (y x : List ℝ) : ℝ := laNorm (vsub y (K.matvec x))

open Classical in
/-- The calls of `cb`, iterative.py 36-42, starting with counter `ctr`: the final counter, and the vector carried by `_EarlyTerm` if it
was raised. -/
noncomputable def runCallbacks (K : MatObj) (y : List ℝ) (tol : ℝ) : ℕ → List (List ℝ) → ℕ × Option (List ℝ)
  | ctr, [] => (ctr, none)
  | ctr, x :: xs =>
    if (ctr + 1) % 100 = 0 ∧ residual K y x < tol then (ctr + 1, some x) else runCallbacks K y tol (ctr + 1) xs

/-- what `solve` returns: the vector, or with `verbose` also the counter and the error -/
inductive SolveRet where
  | plain (x : List ℝ)
  | verbose (x : List ℝ) (ctr : ℕ) (error : ℝ)

open Classical in
/-- `Iterative.solve`, iterative.py 24-62, with a flag saying whether the critical message was logged. The scipy methods raise
ValueError unless the operator is square and `y` fits. -/
noncomputable def iterativeSolve (s : Solvers) (K : MatObj) (y : List ℝ) (verbose minres : Bool) (tol : ℝ) : Except PyErr (SolveRet × Bool) :=
  if K.rows ≠ K.cols ∨ y.length ≠ K.rows then .error .valueError
  else
    let run := (if minres then s.minres else s.cg) K y (min 1e-10 tol) K.rows
    let cb := runCallbacks K y tol 0 run.iterates
    let res : List ℝ × ℤ := match cb.2 with
      | some x => (x, 0)
      | none => (run.x, run.info)
    let error := residual K y res.1
    let logged := decide (error > tol ∨ res.2 ≠ 0)
    .ok (if verbose then .verbose res.1 cb.1 error else .plain res.1, logged)

/-! ### `StochasticDerivService` -/

/-- `Metrics`, metrics.py 4-10 -/
structure Metrics where
  iterations : List ℝ
  gradNorms : List ℝ
  gradError : List ℝ
  solvError : List ℝ
  logLikely : List ℝ

/-- `Metrics()` -/
def Metrics.new : Metrics := ⟨[], [], [], [], []⟩

/-- `np.mean` of a sequence -/
noncomputable def npMean (l : List ℝ) : ℝ := l.sum / l.length

/-- `pool.starmap(f, ls)` as a list. A slot that was never filled cannot be returned by `starmap` (it waits): RuntimeError stands for
waiting forever. -/
def starmap {α β : Type} (p : PoolArg) (f : α → Except PyErr β) (ls : List α) : Except PyErr (List β) := do
  let out ← inlineStarmap p f ls
  mapExcept (fun o : Option β => match o with
    | some v => .ok v
    | none => .error .runtimeError) out

/-- `StochasticDeriv`, stochastic_deriv.py 55-67 -/
structure StochDeriv where
  alpha : List ℝ
  rs : List (List ℝ)
  invRs : List (List ℝ)
  nIt : ℕ

/-- `StochasticDerivService`, stochastic_deriv.py 27-31 (the metrics object is passed separately) -/
structure DerivService where
  pool : PoolArg
  nIt : ℕ
  tol : ℝ

/-- `np.random.randint(0, 2, (n_it, n)) * 2 - 1` for drawn bits `z`, stochastic_deriv.py 35 -/
def signRows (nIt n : ℕ) (z : ℕ → ℕ → Bool) : List (List ℝ) := vmk nIt fun k => vmk n fun i => (if z k i then 1 else 0) * 2 - 1

/-- unpacking `solved` and `zip(*solved)`, stochastic_deriv.py 42-47 -/
def plainOf : SolveRet → Except PyErr (List ℝ)
  | .plain x => .ok x
  | .verbose .. => .error .typeError

/-- see `plainOf` -/
def verboseOf : SolveRet → Except PyErr (List ℝ × ℕ × ℝ)
  | .verbose x c e => .ok (x, c, e)
  | .plain _ => .error .typeError

/-- `solved`, and the metrics with the appended means, stochastic_deriv.py 42-47 -/
noncomputable def recordSolved (metrics : Option Metrics) (outs : List SolveRet) : Except PyErr (List (List ℝ) × Option Metrics) :=
  match metrics with
  | some m => do
    let vs ← mapExcept verboseOf outs
    return (vs.map fun v => v.1, some { m with iterations := m.iterations ++ [npMean (vs.map fun v => (v.2.1 : ℝ))],
                                               solvError := m.solvError ++ [npMean (vs.map fun v => v.2.2)] })
  | none => do
    let xs ← mapExcept plainOf outs
    return (xs, none)

/-- `generate`, stochastic_deriv.py 33-49; `z` are the drawn bits. Returns the new metrics as well. -/
noncomputable def DerivService.generate (sv : Solvers) (s : DerivService) (metrics : Option Metrics) (z : ℕ → ℕ → Bool) (K : MatObj) (y : List ℝ) :
    Except PyErr (StochDeriv × Option Metrics) := do
  let rs := signRows s.nIt K.rows z
  let outs ← starmap s.pool (fun b => (iterativeSolve sv K b metrics.isSome true s.tol).map Prod.fst) (y :: rs)
  let (solved, metrics') ← recordSolved metrics outs
  return (⟨solved.getD 0 [], rs, solved.drop 1, s.nIt⟩, metrics')

/-- `d_normal_quadratic`, stochastic_deriv.py 69-70 -/
noncomputable def StochDeriv.dNormalQuadratic (d : StochDeriv) (dK : MatObj) : ℝ := vdot d.alpha (dK.matvec d.alpha)

/-- `d_logdet_K`, stochastic_deriv.py 72-78: ZeroDivisionError for no probes -/
noncomputable def StochDeriv.dLogdetK (d : StochDeriv) (dK : MatObj) : Except PyErr ℝ :=
  if d.nIt = 0 then .error .zeroDivisionError
  else .ok (((d.rs.zip d.invRs).foldl (fun trace rr => trace + vdot rr.2 (dK.matvec rr.1)) 0) / d.nIt)

/-- `Derivative.derivative`, derivative.py 5-6. A `dKdt` of the wrong shape is a ValueError (its `matvec` would not fit). -/
noncomputable def StochDeriv.derivative (d : StochDeriv) (dK : MatObj) : Except PyErr ℝ :=
  if dK.rows = d.alpha.length ∧ dK.cols = d.alpha.length then do
    let t ← d.dLogdetK dK
    return 0.5 * (d.dNormalQuadratic dK - t)
  else .error .valueError

/-! ### `ApproxLMCLikelihood` -/

/-- An `ApproxLMCLikelihood` instance, likelihood.py 99-110. -/
structure ApproxLMC where
  fk : FK
  y : List ℝ
  lens : List ℕ
  kernels : List MatObj
  K : MatObj
  deriv : StochDeriv
  grads : List (List KVal)
  interp : List (List ℕ × (Arr2 ℝ × Arr2 ℝ))

/-- `BTTB(d.ravel(), d.shape)` for a kernel value, likelihood.py 105 and 124: a scalar NaN has shape `()`, which `BTTB` rejects -/
noncomputable def kvalBttb : KVal → Except PyErr MatObj
  | .arr a => gridBttb a.shape a.data
  | .nan => .error .valueError

/-- `ApproxLMCLikelihood.__init__`, likelihood.py 28-31 and 100-110; `z` are the bits drawn by `deriv.generate`. -/
noncomputable def approxLMCNew (sv : Solvers) (fk : FK) (gridKern : MatObj) (dists : List (List ℕ × NDArr ℝ))
    (interp : List (List ℕ × (Arr2 ℝ × Arr2 ℝ))) (Ys : List (List ℝ)) (deriv : DerivService) (metrics : Option Metrics) (z : ℕ → ℕ → Bool) :
    Except PyErr (ApproxLMC × Option Metrics) :=
  if Ys = [] then .error .valueError
  else do
    let y := Ys.flatten
    let vals ← fk.evalKernels (dists.map fun kd => (kd.1, .arr kd.2))
    let kernels ← mapExcept kvalBttb vals
    let (d, metrics') ← deriv.generate sv metrics z gridKern y
    let grads ← fk.evalKernelGradients (dists.map fun kd => (kd.1, .arr kd.2))
    return (⟨fk, y, Ys.map List.length, kernels, gridKern, d, grads, interp⟩, metrics')

/-- `_ski`, likelihood.py 112-115 -/
noncomputable def ApproxLMC.ski (l : ApproxLMC) (q : ℕ) (X : MatObj) : Except PyErr MatObj := do
  let ad ← l.fk.getActiveDims q
  let WW ← dictIdx l.interp ad
  skiNew X WW.1 WW.2

/-- the methods of `ApproxLMCLikelihood` used by the base class, likelihood.py 117-131 -/
noncomputable def ApproxLMC.ops (l : ApproxLMC) : LikOps MatObj where
  dKdA A q := do
    let K ← match l.kernels[q]? with
      | some K => .ok K
      | none => .error .indexError
    let X ← kronOf (A, K)
    l.ski q X
  dKq A q := mapExcept (fun v => do
    let K ← kvalBttb v
    let X ← kronOf (A, K)
    l.ski q X) (l.grads.getD q [])
  dKEps e := diagNew (.vec (npRepeat e l.lens))
  dL dK := l.deriv.derivative dK

/-- `alpha`, likelihood.py 133-134 -/
def ApproxLMC.alpha (l : ApproxLMC) : List ℝ := l.deriv.alpha

end Verif
