import Verif.Model.LLGPState

/-! Programs in which several models are made with the same `FunctionalKernel` object. -/

namespace Verif

/-- All functional kernels and models of a program. `uses` tells which kernel object a model refers to (`_functional_kernel`), `linked` in which model the kernel
object is a parameter at the moment, if that model exists. paramz allows one parent: `link_parameter` of an object that has a parent removes it there first
(external). The `fk` of each model in `world` is the current value of the kernel object it uses. -/
structure Shelf where
  world : World
  kernels : ℕ → Option FK
  count : ℕ
  uses : ℕ → Option ℕ
  linked : ℕ → Option ℕ

/-- the start of the program -/
def Shelf.start : Shelf := ⟨World.start, fun _ => none, 0, fun _ => none, fun _ => none⟩

/-- what a program does: making a functional kernel (`fk` is the result of the constructor), making a model with kernel object `k` (instead of the
`functional_kernel` of `a`), assigning parameter values to a kernel object, starting `optimize`, and asking a model -/
inductive ShOp where
  | kernel (fk : FK)
  | model (k : ℕ) (a : LLGPArgs) (e : Env)
  | assign (k : ℕ) (fk : FK) (e : Env)
  | optimize (i : ℕ)
  | ask (i : ℕ) (q : Query) (e : Env)

/-- the constructor arguments with this functional kernel -/
def LLGPArgs.withKernel (a : LLGPArgs) (fk : FK) : LLGPArgs := { a with functionalKernel := some fk }

/-- interpolated_llgp.py 136-146: the kernel object after `set_input_dim`, if `__init__` gets as far as linking it -/
noncomputable def linkedKernel (a : LLGPArgs) (fk : FK) : Option FK :=
  match multiGPNew a.Xs a.Ys a.normalize, predMode a.prediction with
  | .ok gp, some _ => (fk.setInputDim gp.inputDim).toOption
  | _, _ => none

/-- the models that use kernel object `k` see its new values -/
def showKernel (uses : ℕ → Option ℕ) (k : ℕ) (fk : FK) (w : World) : World :=
  { w with heap := fun j => if uses j = some k then (w.heap j).map fun m => { m with fk := fk } else w.heap j }

/-- a function changed at one place -/
def setAt {α : Type} (f : ℕ → Option α) (k : ℕ) (x : Option α) : ℕ → Option α := fun j => if j = k then x else f j

/-- One operation. A model is made by `InterpolatedLLGP(…)`, interpolated_llgp.py 128-160: if it fails after line 146 the kernel object stays linked to the
unfinished model, whose updates are switched off (line 135), so that no model learns of assignments. An assignment is followed by `parameters_changed` of the model
in which the kernel object is linked, and of no other. -/
noncomputable def shExec (sv : Solvers) : ShOp → Shelf → Except PyErr Answer × Shelf
  | .kernel fk, s => (.ok .unit, { s with kernels := setAt s.kernels s.count (some fk), count := s.count + 1 })
  | .model k a e, s =>
    match s.kernels k with
    | none => (.error .runtimeError, s)
    | some fk =>
      match linkedKernel a fk with
      | none => ((execOp true sv (.new (a.withKernel fk) e) s.world).1, { s with world := (execOp true sv (.new (a.withKernel fk) e) s.world).2 })
      | some fk' =>
        let r := execOp true sv (.new (a.withKernel fk) e) s.world
        let i := s.world.next
        let made := r.2.next ≠ i
        (r.1, { world := showKernel s.uses k fk' r.2, kernels := setAt s.kernels k (some fk'), count := s.count,
                uses := if made then setAt s.uses i (some k) else s.uses, linked := setAt s.linked k (if made then some i else none) })
  | .assign k fk e, s =>
    match s.kernels k with
    | none => (.error .runtimeError, s)
    | some _ =>
      let w := showKernel s.uses k fk s.world
      let s' := { s with world := w, kernels := setAt s.kernels k (some fk) }
      match s.linked k with
      | none => (.ok .unit, s')
      | some i => ((parametersChanged true sv e i w).1.map fun _ => .unit, { s' with world := (parametersChanged true sv e i w).2 })
  | .optimize i, s => ((execOp true sv (.optimize i) s.world).1, { s with world := (execOp true sv (.optimize i) s.world).2 })
  | .ask i q e, s => ((execOp true sv (.ask i q e) s.world).1, { s with world := (execOp true sv (.ask i q e) s.world).2 })

/-- what each operation of a program returned or raised, and the state afterwards -/
noncomputable def shHistory (sv : Solvers) : List ShOp → Shelf → List (Except PyErr Answer) × Shelf
  | [], s => ([], s)
  | op :: ops, s =>
    let r := shExec sv op s
    let rest := shHistory sv ops r.2
    (r.1 :: rest.1, rest.2)

end Verif
