import Verif.Model.LLGP

/-! `runlmc/models/interpolated_llgp.py`: the state shared by all models of a program (objects and the class-level caches), updates that can
fail half way, and the public methods. -/

namespace Verif

/-! ### state and exceptions -/

/-- The four `functools.lru_cache(maxsize=1)` caches, interpolated_llgp.py 247, 293, 304, 367. They belong to the class: each holds at most one
value, for the object it was computed for (objects are compared by identity). -/
structure Caches where
  dense : Option (ℕ × ExactLMC)
  gridAlpha : Option (ℕ × List (List ℕ × List ℝ))
  nativeVariance : Option (ℕ × List ℝ)
  nu : Option (ℕ × List ℝ)

/-- All models of the program, by object identity, and the caches. -/
structure World where
  heap : ℕ → Option LLGP
  next : ℕ
  caches : Caches

/-- empty caches -/
def Caches.empty : Caches := ⟨none, none, none, none⟩

/-- the start of the program -/
def World.start : World := ⟨fun _ => none, 0, Caches.empty⟩

/-- python code: it may raise, and what it did to the state before raising stays -/
def PyM (α : Type) : Type := World → Except PyErr α × World

instance : Monad PyM where
  pure a := fun w => (.ok a, w)
  bind x f := fun w => match x w with
    | (.ok a, w') => f a w'
    | (.error e, w') => (.error e, w')

/-- a computation that does not touch the state -/
def PyM.lift {α : Type} (x : Except PyErr α) : PyM α := fun w => (x, w)

/-- an exception from outside hits here if the environment says so -/
def checkpoint (e : Env) (k : ℕ) : PyM Unit := fun w => (if e.interrupt = some k then .error .keyboardInterrupt else .ok (), w)

/-- reads the object (an object that does not exist cannot be used: RuntimeError stands for that) -/
def self (i : ℕ) : PyM LLGP := fun w => (match w.heap i with | some m => .ok m | none => .error .runtimeError, w)

/-- changes the attributes of the object -/
def modifySelf (i : ℕ) (f : LLGP → LLGP) : PyM Unit := fun w => (.ok (), { w with heap := fun j => if j = i then (w.heap i).map f else w.heap j })

/-- a call of a method decorated with `lru_cache(maxsize=1)`. With `useCache = false` it is a call of the undecorated method: the
implementation has `useCache = true`. -/
def cachedCall {α : Type} (useCache : Bool) (get : Caches → Option (ℕ × α)) (set : Option (ℕ × α) → Caches → Caches) (compute : LLGP → Except PyErr α) (i : ℕ) : PyM α :=
  fun w =>
    match w.heap i with
    | none => (.error .runtimeError, w)
    | some m =>
      match get w.caches with
      | some (j, v) =>
        if useCache ∧ j = i then (.ok v, w)
        else match compute m with
          | .ok v => (.ok v, { w with caches := set (some (i, v)) w.caches })
          | .error e => (.error e, w)
      | none => match compute m with
          | .ok v => (.ok v, { w with caches := set (some (i, v)) w.caches })
          | .error e => (.error e, w)

/-- `self._dense()` -/
noncomputable def denseM (useCache : Bool) (i : ℕ) : PyM ExactLMC := cachedCall useCache Caches.dense (fun v c => { c with dense := v }) LLGP.dense i

/-- `self._grid_alpha()` -/
noncomputable def gridAlphaM (useCache : Bool) (i : ℕ) : PyM (List (List ℕ × List ℝ)) :=
  cachedCall useCache Caches.gridAlpha (fun v c => { c with gridAlpha := v }) LLGP.gridAlpha i

/-- `self._native_variance()` -/
noncomputable def nativeVarianceM (useCache : Bool) (i : ℕ) : PyM (List ℝ) :=
  cachedCall useCache Caches.nativeVariance (fun v c => { c with nativeVariance := v }) LLGP.nativeVariance i

/-- `self._precomputed_nu()` -/
noncomputable def nuM (useCache : Bool) (sv : Solvers) (e : Env) (i : ℕ) : PyM (List ℝ) :=
  cachedCall useCache Caches.nu (fun v c => { c with nu := v }) (LLGP.nu sv e) i

/-- `_clear_caches`, interpolated_llgp.py 399-403: `cache_clear` on the four class-level caches, whatever object they are for -/
def clearCaches : PyM Unit := fun w => (.ok (), { w with caches := Caches.empty })

/-! ### `parameters_changed` -/

/-- `log_likelihood`, interpolated_llgp.py 287-290 -/
noncomputable def logLikelihoodM (useCache : Bool) (i : ℕ) : PyM (Option ℝ) := do
  let l ← denseM useCache i
  let m ← self i
  PyM.lift (m.logLikelihoodOf l)

/-- `log_det_K`, interpolated_llgp.py 262-276 -/
noncomputable def logDetM (useCache : Bool) (i : ℕ) : PyM (Option ℝ) := do
  let l ← denseM useCache i
  return logDetOf l

/-- `normal_quadratic`, interpolated_llgp.py 278-285 -/
noncomputable def normalQuadraticM (i : ℕ) : PyM ℝ := do
  let m ← self i
  PyM.lift m.normalQuadratic

/-- `la.norm(v, np.inf)` -/
noncomputable def infNorm (v : List ℝ) : ℝ := (v.map fun x => |x|).foldr max 0

/-- the flattened gradient of interpolated_llgp.py 231-238 -/
noncomputable def flatGradient {δ : Type} (fk : FK) (ops : LikOps δ) : Except PyErr (List ℝ) := do
  let vecs ← coregVecGradients fk ops
  let diags ← coregDiagsGradients fk ops
  let kernels ← kernelGradients fk ops
  let noise ← noiseGradient fk ops
  return vecs.flatMap Arr2.data ++ diags.flatten ++ kernels.flatten ++ noise

/-- the object with another `metrics` -/
def LLGP.withMetrics (m : LLGP) (x : Option Metrics) : LLGP := { m with metrics := x }

/-- the derivative service used in this environment -/
def LLGP.service (m : LLGP) (e : Env) : DerivService := ⟨e.pool (m.nIt + 1), m.nIt, m.tol⟩

/-- the first part of `ApproxLMCLikelihood.__init__`, likelihood.py 100-107, up to and including `deriv.generate`; see `approxLMCNew` -/
noncomputable def approxFirst (sv : Solvers) (e : Env) (m : LLGP) (K : MatObj) : Except PyErr (List MatObj × StochDeriv × Option Metrics) :=
  if m.gp.Ys = [] then .error .valueError
  else do
    let vals ← m.fk.evalKernels (m.dists.map fun kd => (kd.1, .arr kd.2))
    let kernels ← mapExcept kvalBttb vals
    let d ← (m.service e).generate sv m.metrics e.z K m.y
    return (kernels, d.1, d.2)

/-- interpolated_llgp.py 195-207: `gen_grid_kernel`, `ApproxLMCLikelihood(...)` in two steps (the metrics get entries in the first) and the
assignments to `self.kernel` -/
noncomputable def replaceKernel (sv : Solvers) (e : Env) (i : ℕ) : PyM Unit := do
  let m ← self i
  checkpoint e 0
  let Kg ← PyM.lift (genGridKernel m.fk m.dists m.interp m.lens)
  checkpoint e 1
  let kd ← PyM.lift (approxFirst sv e m Kg.1)
  modifySelf i fun m => m.withMetrics kd.2.2
  checkpoint e 2
  let grads ← PyM.lift (m.fk.evalKernelGradients (m.dists.map fun kd => (kd.1, .arr kd.2)))
  modifySelf i fun m => { m with kernel := some ⟨⟨m.fk, m.y, m.lens, kd.1, Kg.1, kd.2.1, grads, m.interp⟩, Kg.2⟩ }

/-- the debug messages, interpolated_llgp.py 209-224: the quantities they print are computed (and can fail) -/
noncomputable def debugMessages (useCache : Bool) (e : Env) (i : ℕ) : PyM Unit :=
  if e.debug then do
    let _ ← logLikelihoodM useCache i
    let _ ← normalQuadraticM i
    let _ ← logDetM useCache i
    return ()
  else return ()

/-- interpolated_llgp.py 226: the gradients are stored in the parameters (all of them at once here) -/
noncomputable def storeGradient (i : ℕ) : PyM Unit := do
  let m ← self i
  let k ← PyM.lift m.theKernel
  let g ← PyM.lift (m.fk.updateGradient k.approx.ops)
  modifySelf i fun m => { m with grad := some g }

/-- `approx_norm` and `diff_norm / exact_norm`, interpolated_llgp.py 240-244; gradients of different lengths do not broadcast -/
noncomputable def gradNorms (approx exact : List ℝ) : Except PyErr (ℝ × ℝ) :=
  if approx.length = exact.length then .ok (infNorm approx, infNorm (vsub approx exact) / infNorm exact) else .error .valueError

/-- interpolated_llgp.py 228-245 -/
noncomputable def recordMetrics (useCache : Bool) (e : Env) (i : ℕ) : PyM Unit := do
  let m ← self i
  match m.metrics with
  | none => return ()
  | some _ => do
    let k ← PyM.lift m.theKernel
    let exact ← denseM useCache i
    let ag ← PyM.lift (flatGradient m.fk k.approx.ops)
    let eg ← PyM.lift (flatGradient m.fk exact.ops)
    let ne ← PyM.lift (gradNorms ag eg)
    modifySelf i fun m => m.withMetrics (m.metrics.map fun x => { x with gradNorms := x.gradNorms ++ [ne.1], gradError := x.gradError ++ [ne.2] })
    checkpoint e 5
    let ll ← logLikelihoodM useCache i
    modifySelf i fun m => m.withMetrics (m.metrics.map fun x => { x with logLikely := x.logLikely ++ [ll.getD 0] })

/-- `parameters_changed`, interpolated_llgp.py 192-245 -/
noncomputable def parametersChanged (useCache : Bool) (sv : Solvers) (e : Env) (i : ℕ) : PyM Unit := do
  clearCaches
  replaceKernel sv e i
  checkpoint e 3
  debugMessages useCache e i
  storeGradient i
  checkpoint e 4
  recordMetrics useCache e i

/-! ### the public methods -/

/-- interpolated_llgp.py 326-327 -/
noncomputable def ensureKernel (useCache : Bool) (sv : Solvers) (e : Env) (i : ℕ) : PyM Unit := do
  let m ← self i
  match m.kernel with
  | none => parametersChanged useCache sv e i
  | some _ => return ()

/-- the explained variance by the chosen method, interpolated_llgp.py 342-343 -/
noncomputable def explainedM (useCache : Bool) (sv : Solvers) (e : Env) (i : ℕ) (m : LLGP) (Xs : List (Arr2 ℝ)) (Ws : List (List ℕ × Arr2 ℝ)) : PyM (List ℝ) :=
  match m.prediction with
  | .exact => do
    let ex ← denseM useCache i
    PyM.lift (m.varExact ex Xs)
  | .precompute => do
    let nu ← nuM useCache sv e i
    PyM.lift (varPrecompute Ws nu)
  | .onTheFly => PyM.lift (m.varOnTheFly sv e Xs)

/-- `_raw_predict`, interpolated_llgp.py 324-348 -/
noncomputable def rawPredictM (useCache : Bool) (sv : Solvers) (e : Env) (i : ℕ) (Xs : List (Arr2 ℝ)) : PyM Predicted := do
  ensureKernel useCache sv e i
  let ga ← gridAlphaM useCache i
  let native ← nativeVarianceM useCache i
  let m ← self i
  let wm ← PyM.lift (m.predictMean Xs ga)
  let ex ← explainedM useCache sv e i m Xs wm.1
  PyM.lift (splitPrediction (Xs.map Arr2.rows) wm.2 native ex)

/-- The assertions of `_predict`, multigp.py 107-109 -/
def MultiGP.queriesFit (gp : MultiGP) (Xs : List (Arr2 ℝ)) : Prop := Xs.length = gp.outputDim ∧ ∀ X ∈ Xs, X.cols = gp.inputDim

instance (gp : MultiGP) (Xs : List (Arr2 ℝ)) : Decidable (gp.queriesFit Xs) := inferInstanceAs (Decidable (_ ∧ _))

/-- a method of the base class that calls `_raw_predict` once, with arguments `Xs` -/
noncomputable def callRaw {α : Type} (useCache : Bool) (sv : Solvers) (e : Env) (i : ℕ) (Xs : List (Arr2 ℝ)) (method : Except PyErr Predicted → Except PyErr α) : PyM α :=
  fun w => (method (rawPredictM useCache sv e i Xs w).1, (rawPredictM useCache sv e i Xs w).2)

/-- A public prediction method of the base class (`predict` or `predict_quantiles`, multigp.py 119-165) applied to `_raw_predict`: the
arguments are padded and checked, then `_raw_predict` is called once, then its result is processed. -/
noncomputable def publicPredict {α : Type} (useCache : Bool) (sv : Solvers) (e : Env) (i : ℕ)
    (method : MultiGP → (List (Arr2 ℝ) → Except PyErr Predicted) → Except PyErr α) (Xs : List (NDArr ℝ)) : PyM α := do
  let m ← self i
  match padDims m.gp.inputDim Xs with
  | .error _ => PyM.lift (method m.gp fun _ => .error .runtimeError)
  | .ok Xs' =>
    if m.gp.queriesFit Xs' then callRaw useCache sv e i Xs' fun r => method m.gp fun _ => r
    else PyM.lift (method m.gp fun _ => .error .runtimeError)

/-- questions a user can ask a model -/
inductive Query where
  | predict (Xs : List (NDArr ℝ))
  | quantiles (Xs : List (NDArr ℝ)) (qs : List ℝ)
  | covariance
  | logDet
  | normalQuadratic
  | logLikelihood

/-- the answers -/
inductive Answer where
  | unit
  | model (i : ℕ)
  | predicted (p : Predicted)
  | quantiles (q : List (Arr2 ℝ))
  | matrix (K : Arr2 ℝ)
  | number (x : ℝ)
  | extended (x : Option ℝ)

/-- the method call -/
noncomputable def askM (useCache : Bool) (sv : Solvers) (e : Env) (i : ℕ) : Query → PyM Answer
  | .predict Xs => do
    let p ← publicPredict useCache sv e i (fun gp raw => gp.predict raw Xs) Xs
    return .predicted p
  | .quantiles Xs qs => do
    let p ← publicPredict useCache sv e i (fun gp raw => gp.predictQuantiles raw Xs qs) Xs
    return .quantiles p
  | .covariance => do
    let l ← denseM useCache i
    return .matrix l.K
  | .logDet => do
    let d ← logDetM useCache i
    return .extended d
  | .normalQuadratic => do
    let q ← normalQuadraticM i
    return .number q
  | .logLikelihood => do
    let l ← logLikelihoodM useCache i
    return .extended l

/-- what a program does with models: creating one, giving one new parameter values (which calls `parameters_changed`), starting `optimize` (which
only replaces the metrics, interpolated_llgp.py 186-190; the optimiser's steps are parameter changes and questions), and asking. -/
inductive Op where
  | new (a : LLGPArgs) (e : Env)
  | set (i : ℕ) (fk : FK) (e : Env)
  | optimize (i : ℕ)
  | ask (i : ℕ) (q : Query) (e : Env)

/-- allocates the object -/
def allocate (m : LLGP) : PyM ℕ := fun w => (.ok w.next, { w with heap := fun j => if j = w.next then some m else w.heap j, next := w.next + 1 })

/-- one operation. The metaclass calls `parameters_changed` after `__init__`. -/
noncomputable def execOp (useCache : Bool) (sv : Solvers) : Op → PyM Answer
  | .new a e => do
    let m ← PyM.lift (llgpInit a)
    let i ← allocate m
    parametersChanged useCache sv e i
    return .model i
  | .set i fk e => do
    modifySelf i fun m => { m with fk := fk }
    parametersChanged useCache sv e i
    return .unit
  | .optimize i => do
    modifySelf i fun m => m.withMetrics (m.metrics.map fun _ => Metrics.new)
    return .unit
  | .ask i q e => askM useCache sv e i q

/-- a history of operations: what each of them returned or raised (the program may catch exceptions), and the state afterwards -/
noncomputable def history (useCache : Bool) (sv : Solvers) : List Op → World → List (Except PyErr Answer) × World
  | [], w => ([], w)
  | op :: ops, w =>
    let r := execOp useCache sv op w
    let rest := history useCache sv ops r.2
    (r.1 :: rest.1, rest.2)

end Verif
