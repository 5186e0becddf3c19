import Verif.Spec.LLGPState

/-! Specification vocabulary for programs that use models as documented. -/

namespace Verif

/-- `fk'` is the functional kernel `fk` with other valid parameter values: the same outputs, kernels on the same dimensions and groups, arrays of
the right shapes, kernel parameters in their documented ranges. -/
structure FK.Retuned (fk fk' : FK) : Prop where
  wf : fk'.WF
  outputs : fk'.D = fk.D
  input : fk'.P = fk.P
  lmcTotal : fk'.numLmcTotal = fk.numLmcTotal
  slfmTotal : fk'.numSlfmTotal = fk.numSlfmTotal
  groups : fk'.activeDims = fk.activeDims
  lmc : fk'.numLmc = fk.numLmc
  slfm : fk'.numSlfm = fk.numSlfm
  indep : fk'.numIndep = fk.numIndep
  count : fk'.kernels.length = fk.kernels.length
  dims : ∀ q < fk.kernels.length, (fk'.kernels.getD q (.identity none)).activeDims = (fk.kernels.getD q (.identity none)).activeDims
  valid : ∀ k ∈ fk'.kernels, k.Valid

/-- the working conditions of an update: every pool finishes its tasks and nothing interrupts it from outside -/
def Env.Calm (e : Env) : Prop := e.Works ∧ e.interrupt = none

/-- `ops` is a program that uses its models as documented, when models with functional kernels `fks` (by order of creation) exist: constructor
arguments are as documented, parameters are only given valid values, to existing models. Questions can be any, to anything. -/
def ValidFrom : List FK → List Op → Prop
  | _, [] => True
  | fks, .new a e :: ops => ∃ P fk fk', 0 < P ∧ a.Documented P fk ∧ 0 < a.traceIterations ∧ fk.setInputDim P = .ok fk' ∧ fk'.Sound ∧ e.Calm ∧
      ValidFrom (fks ++ [fk']) ops
  | fks, .set i fk' e :: ops => ∃ fk, fks[i]? = some fk ∧ fk.Retuned fk' ∧ fk'.Sound ∧ e.Calm ∧ ValidFrom (fks.set i fk') ops
  | fks, .optimize _ :: ops => ValidFrom fks ops
  | fks, .ask _ _ e :: ops => e.Works ∧ ValidFrom fks ops

end Verif
