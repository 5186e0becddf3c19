import Verif.Spec.LLGPValid
import Verif.Model.Shared

/-! Specification vocabulary for programs that share functional kernels. -/

namespace Verif

/-- what the operations return or raise -/
noncomputable def shResults (sv : Solvers) (ops : List ShOp) : List (Except PyErr Answer) := (shHistory sv ops Shelf.start).1

/-- the current values of the kernel objects after a program -/
noncomputable def kernelsAfter (sv : Solvers) (ops : List ShOp) : ℕ → Option FK := (shHistory sv ops Shelf.start).2.kernels

/-- `ops` is a program that uses its models as documented, except that a kernel object may be used for several models of inputs of the same dimension; `fks` are the
kernel objects that exist. -/
def ShValid : List FK → List ShOp → Prop
  | _, [] => True
  | fks, .kernel fk :: ops => ShValid (fks ++ [fk]) ops
  | fks, .model k a e :: ops => ∃ P fk₀ fk₁ fk fk', fks[k]? = some fk ∧ 0 < P ∧ (a.withKernel fk₀).Documented P fk₀ ∧ 0 < a.traceIterations ∧ fk₀.setInputDim P = .ok fk₁ ∧
      (fk = fk₀ ∧ fk' = fk₁ ∨ fk₁.Retuned fk ∧ fk' = fk) ∧ fk'.Sound ∧ e.Calm ∧ ShValid (fks.set k fk') ops
  | fks, .assign k fk' e :: ops => ∃ fk, fks[k]? = some fk ∧ fk.Retuned fk' ∧ fk'.Sound ∧ e.Calm ∧ ShValid (fks.set k fk') ops
  | fks, .optimize _ :: ops => ShValid fks ops
  | fks, .ask _ _ e :: ops => e.Works ∧ ShValid fks ops

/-- the operation makes a model with kernel object `k` -/
def ShOp.Makes (k : ℕ) : ShOp → Prop
  | .model k' _ _ => k' = k
  | _ => False

/-- the operation assigns parameter values to kernel object `k` -/
def ShOp.Assigns (k : ℕ) : ShOp → Prop
  | .assign k' _ _ => k' = k
  | _ => False

/-- the number of models a program makes (models are numbered in the order in which they are made) -/
def modelsMade : List ShOp → ℕ
  | [] => 0
  | .model _ _ _ :: ops => modelsMade ops + 1
  | _ :: ops => modelsMade ops

end Verif
