import Verif.Model.LLGPState

/-! Programs that also assign to the attribute `prediction` of a model, as `/repo/benchmarks/pictures/pics.py` does (61, 148). It is a plain attribute
(interpolated_llgp.py 139): nothing is checked or computed when it is assigned, and it is read when something is predicted (342). -/

namespace Verif

/-- an operation of `Op`, or `model.prediction = s`. pics.py:61 -/
inductive ModeOp where
  | op (o : Op)
  | mode (i : ℕ) (s : String)

/-- the state of the program; `unknown` tells the objects whose attribute `prediction` is no key of `_prediction_methods()` (for them the mode in `world` is not used) -/
structure ModeWorld where
  world : World
  unknown : ℕ → Bool

/-- the start of the program -/
def ModeWorld.start : ModeWorld := ⟨World.start, fun _ => false⟩

/-- `_raw_predict`, interpolated_llgp.py 324-348, of an object with an unknown mode: `self._prediction_methods()[self.prediction]` in line 342 raises -/
noncomputable def rawUnknownM (useCache : Bool) (sv : Solvers) (e : Env) (i : ℕ) (Xs : List (Arr2 ℝ)) : PyM Predicted := do
  ensureKernel useCache sv e i
  let ga ← gridAlphaM useCache i
  let _ ← nativeVarianceM useCache i
  let m ← self i
  let _ ← PyM.lift (m.predictMean Xs ga)
  PyM.lift (.error .keyError)

/-- `callRaw` for an object with an unknown mode -/
noncomputable def callUnknown {α : Type} (useCache : Bool) (sv : Solvers) (e : Env) (i : ℕ) (Xs : List (Arr2 ℝ)) (method : Except PyErr Predicted → Except PyErr α) : PyM α :=
  fun w => (method (rawUnknownM useCache sv e i Xs w).1, (rawUnknownM useCache sv e i Xs w).2)

/-- `publicPredict` for an object with an unknown mode -/
noncomputable def publicUnknown {α : Type} (useCache : Bool) (sv : Solvers) (e : Env) (i : ℕ)
    (method : MultiGP → (List (Arr2 ℝ) → Except PyErr Predicted) → Except PyErr α) (Xs : List (NDArr ℝ)) : PyM α := do
  let m ← self i
  match padDims m.gp.inputDim Xs with
  | .error _ => PyM.lift (method m.gp fun _ => .error .runtimeError)
  | .ok Xs' =>
    if m.gp.queriesFit Xs' then callUnknown useCache sv e i Xs' fun r => method m.gp fun _ => r
    else PyM.lift (method m.gp fun _ => .error .runtimeError)

/-- `askM` for an object with an unknown mode -/
noncomputable def askUnknown (useCache : Bool) (sv : Solvers) (e : Env) (i : ℕ) : Query → PyM Answer
  | .predict Xs => do
    let p ← publicUnknown useCache sv e i (fun gp raw => gp.predict raw Xs) Xs
    return .predicted p
  | .quantiles Xs qs => do
    let p ← publicUnknown useCache sv e i (fun gp raw => gp.predictQuantiles raw Xs qs) Xs
    return .quantiles p
  | q => askM useCache sv e i q

/-- what an ordinary operation does when some modes are unknown -/
noncomputable def execKnown (useCache : Bool) (sv : Solvers) (unknown : ℕ → Bool) : Op → PyM Answer
  | .ask i q e => if unknown i then askUnknown useCache sv e i q else execOp useCache sv (.ask i q e)
  | o => execOp useCache sv o

/-- one operation -/
noncomputable def execMode (useCache : Bool) (sv : Solvers) : ModeOp → ModeWorld → Except PyErr Answer × ModeWorld
  | .op o, s =>
    let r := execKnown useCache sv s.unknown o s.world
    (r.1, ⟨r.2, s.unknown⟩)
  | .mode i t, s =>
    match s.world.heap i with
    | none => (.error .runtimeError, s)
    | some _ =>
      match predMode t with
      | some p => (.ok .unit, ⟨(modifySelf i (fun m => { m with prediction := p }) s.world).2, fun j => if j = i then false else s.unknown j⟩)
      | none => (.ok .unit, ⟨s.world, fun j => if j = i then true else s.unknown j⟩)

/-- a history of operations -/
noncomputable def modeHistory (useCache : Bool) (sv : Solvers) : List ModeOp → ModeWorld → List (Except PyErr Answer) × ModeWorld
  | [], s => ([], s)
  | op :: ops, s =>
    let r := execMode useCache sv op s
    let rest := modeHistory useCache sv ops r.2
    (r.1 :: rest.1, rest.2)

end Verif
