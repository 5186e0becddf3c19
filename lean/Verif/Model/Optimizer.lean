import Verif.Model.LLGPState
import Verif.Model.Optimization

/-! What `optimize` does to an `InterpolatedLLGP`: the flat array of its parameters that the optimiser works on, the gradient it is given, and the run of
`AdaDelta` on a model. -/

namespace Verif

/-! ### the flat array -/

/-- One scalar of the flat parameter array: hyperparameter `j` of kernel `q`, entry `(i, j)` of the coregionalization vectors of kernel `q`, entry `i` of
its `kappa`, or the noise of output `i`. -/
inductive Slot where
  | kern (q j : ℕ)
  | vec (q i j : ℕ)
  | diag (q i : ℕ)
  | noise (i : ℕ)
  deriving DecidableEq

/-- The scalars of the flat array, in order: paramz concatenates the linked parameters in the order of the `link_parameter` calls, arrays row by row:
functional_kernel.py 112-114 (kernels), 185-186 (vectors of LMC and SLFM kernels), 193-198 (`kappa` of LMC kernels), 130-131 (noise). -/
def FK.slots (fk : FK) : List Slot :=
  ((List.range fk.kernels.length).flatMap fun q => (List.range (fk.kernels.getD q (.identity none)).linked.length).map fun j => .kern q j) ++
  ((List.range fk.linkedVecs).flatMap fun q => (List.range (fk.coregVecs.getD q ⟨0, 0, []⟩).rows).flatMap fun i =>
    (List.range (fk.coregVecs.getD q ⟨0, 0, []⟩).cols).map fun j => .vec q i j) ++
  ((List.range fk.linkedDiags).flatMap fun q => (List.range (fk.coregDiags.getD q []).length).map fun i => .diag q i) ++
  (List.range fk.noise.length).map fun i => .noise i

/-- the parameters created with the constraint `Logexp()`: rbf.py 35-36, matern32.py 35-36, std_periodic.py 37-41, functional_kernel.py 130 and 196-197;
the coregionalization vectors have none (182) -/
def Slot.logexp : Slot → Bool
  | .vec _ _ _ => false
  | _ => true

/-- the scalar in the parameter object -/
def FK.read (fk : FK) : Slot → ℝ
  | .kern q j => (fk.kernels.getD q (.identity none)).linked.getD j 0
  | .vec q i j => (fk.coregVecs.getD q ⟨0, 0, []⟩).get i j
  | .diag q i => (fk.coregDiags.getD q []).getD i 0
  | .noise i => fk.noise.getD i 0

/-- the kernel with another value of its `j`-th linked hyperparameter -/
def Kern.write : Kern → ℕ → ℝ → Kern
  | .rbf g a, j, t => .rbf (if j = 0 then t else g) a
  | .matern32 g a, j, t => .matern32 (if j = 0 then t else g) a
  | .stdPeriodic g T a, j, t => .stdPeriodic (if j = 0 then t else g) (if j = 1 then t else T) a
  | .identity a, _, _ => .identity a
  | .scaled k s a, j, t => .scaled (k.write j t) s a

/-- the array with another entry `(i, j)` -/
def Arr2.write (a : Arr2 ℝ) (i j : ℕ) (t : ℝ) : Arr2 ℝ := Arr2.of a.rows a.cols fun r c => if r = i ∧ c = j then t else a.get r c

/-- assignment to one scalar of the flat array (paramz: the parameters are views of it) -/
def FK.write (fk : FK) : Slot → ℝ → FK
  | .kern q j, t => { fk with kernels := fk.kernels.set q ((fk.kernels.getD q (.identity none)).write j t) }
  | .vec q i j, t => { fk with coregVecs := fk.coregVecs.set q ((fk.coregVecs.getD q ⟨0, 0, []⟩).write i j t) }
  | .diag q i, t => { fk with coregDiags := fk.coregDiags.set q ((fk.coregDiags.getD q []).set i t) }
  | .noise i, t => { fk with noise := fk.noise.set i t }

/-- the gradient stored in the parameter object, a view of the flat `gradient` array -/
def FKGrad.read (g : FKGrad) : Slot → ℝ
  | .kern q j => (g.kernels.getD q []).getD j 0
  | .vec q i j => (g.vecs.getD q ⟨0, 0, []⟩).get i j
  | .diag q i => (g.diags.getD q []).getD i 0
  | .noise i => g.noise.getD i 0

/-- paramz `Logexp.f` on parameters with that constraint. The cut-off at 36 and the `1e-20` are left out. External. -/
noncomputable def Slot.decode (s : Slot) (x : ℝ) : ℝ := if s.logexp then Real.log (1 + Real.exp x) else x

/-- paramz `Logexp.finv` on parameters with that constraint. External. -/
noncomputable def Slot.encode (s : Slot) (v : ℝ) : ℝ := if s.logexp then Real.log (Real.exp v - 1) else v

/-- paramz `Logexp.gradfactor` on parameters with that constraint. External. -/
noncomputable def Slot.factor (s : Slot) (v d : ℝ) : ℝ := if s.logexp then d * (1 - Real.exp (-v)) else d

/-- paramz `optimizer_array`, when the program has neither fixed nor tied parameters nor changed their constraints. External. -/
noncomputable def FK.optimizerArray (fk : FK) : List ℝ := fk.slots.map fun s => s.encode (fk.read s)

/-- what the assignment `optimizer_array = x` does to the parameters. External (paramz). -/
noncomputable def FK.setOptimizerArray (fk : FK) (x : List ℝ) : FK := (fk.slots.zip x).foldl (fun fk p => fk.write p.1 (p.1.decode p.2)) fk

/-- `_transform_gradients(objective_function_gradients())`: model.py 75-77 without priors, then paramz's chain rule -/
noncomputable def LLGP.objectiveGrads (m : LLGP) : List ℝ :=
  m.fk.slots.map fun s => s.factor (m.fk.read s) (-((m.grad.getD ⟨[], [], [], []⟩).read s + 0))

/-- paramz `_grads(x)`, the function `fp` the optimiser is given: sets the parameters, which calls `parameters_changed`, and returns the gradients of the
objective. (External; up to ten `ValueError`s, `LinAlgError`s and `ZeroDivisionError`s are ignored by paramz, here they are raised.) -/
noncomputable def gradsAt (useCache : Bool) (sv : Solvers) (e : Env) (i : ℕ) (x : List ℝ) : PyM (List ℝ) := do
  modifySelf i fun m => { m with fk := m.fk.setOptimizerArray x }
  parametersChanged useCache sv e i
  let m ← self i
  return m.objectiveGrads

/-! ### the run -/

/-- What `climin.Adadelta` does with the gradients it gets: from the start and the gradients so far, the point where it asks for the next one, and the
point it has reached. External; nothing else is assumed about it. -/
structure Climb where
  ask : List ℝ → List (List ℝ) → List ℝ
  point : List ℝ → List (List ℝ) → List ℝ

/-- the state of a run of the optimiser on a model: the gradients it has got so far, and the state of the program -/
structure Run where
  grads : List (List ℝ)
  world : World

/-- one step of the iterator: asks for the gradient at its next point. `es k` are the circumstances of the `k`-th update. -/
noncomputable def Run.step (useCache : Bool) (sv : Solvers) (es : ℕ → Env) (i : ℕ) (c : Climb) (x : List ℝ) (s : Run) : Except PyErr (List ℝ) × Run :=
  match gradsAt useCache sv (es s.grads.length) i (c.ask x s.grads) s.world with
  | (.ok g, w) => (.ok g, ⟨s.grads ++ [g], w⟩)
  | (.error e, w) => (.error e, ⟨s.grads, w⟩)

/-- The loop of `opt`, optimization.py 69-81, as in `adaLoop`, with the state kept when something raises. -/
noncomputable def runLoop {σ : Type*} (next : σ → Except PyErr (List ℝ) × σ) (o : AdaOpts) (cb : ℕ → Except PyErr Unit) (s : σ) (n : ℕ) (drops : ℤ) (rollingMax : ℝ) :
    Except PyErr Unit × σ :=
  match next s with
  | (.error e, s') => (.error e, s')
  | (.ok g, s') =>
    match gradNorm g with
    | .error e => (.error e, s')
    | .ok norm =>
      let rollingMax' := max norm rollingMax
      match cb n with
      | .error e => (.error e, s')
      | .ok _ =>
        let drops' := if norm < o.minGradRatio * rollingMax' then drops - 1 else drops
        if h : o.maxIt ≤ ((n + 1 : ℕ) : ℤ) ∨ drops' ≤ 0 then (.ok (), s') else runLoop next o cb s' (n + 1) drops' rollingMax'
termination_by (o.maxIt - (n : ℤ)).toNat
decreasing_by push_cast at h; omega

/-- `AdaDelta.opt`, optimization.py 59-83, on model `i` from the point `x`: returns the gradients the iterator has got -/
noncomputable def runAda (useCache : Bool) (sv : Solvers) (es : ℕ → Env) (i : ℕ) (c : Climb) (o : AdaOpts) (cb : ℕ → Except PyErr Unit) (x : List ℝ) : PyM (List (List ℝ)) := fun w =>
  let r := runLoop (Run.step useCache sv es i c x) o cb ⟨[], w⟩ 0 o.permittedDrops 0
  (r.1.map fun _ => r.2.grads, r.2.world)

/-- `optimize(optimizer=AdaDelta(...))`: interpolated_llgp.py 186-190 (new metrics), multigp.py 167-197 (a `KeyboardInterrupt` is announced and raised
again), paramz `Model.optimize` (external: starts at `optimizer_array`, and assigns `x_opt` to it at the end), optimization.py 59-83. `cb k` is what the
`k`-th call of the callback does, `es k` are the circumstances of the `k`-th update, the last of which is the assignment of `x_opt`. -/
noncomputable def optimizeM (useCache : Bool) (sv : Solvers) (es : ℕ → Env) (i : ℕ) (c : Climb) (o : AdaOpts) (cb : ℕ → Except PyErr Unit) : PyM Unit := do
  modifySelf i fun m => m.withMetrics (m.metrics.map fun _ => Metrics.new)
  let m ← self i
  let x := m.fk.optimizerArray
  let gs ← runAda useCache sv es i c o cb x
  modifySelf i fun m => { m with fk := m.fk.setOptimizerArray (c.point x gs) }
  parametersChanged useCache sv (es gs.length) i

end Verif
