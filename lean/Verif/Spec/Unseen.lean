import Verif.Spec.LLGPValid

/-! Specification vocabulary for C100: two runs of a program that differ in what should not be visible in the answers. -/

namespace Verif

/-- the same constructor arguments except for `metrics` and `trace_iterations` -/
structure LLGPArgs.SameModel (a a' : LLGPArgs) : Prop where
  Xs : a'.Xs = a.Xs
  Ys : a'.Ys = a.Ys
  normalize : a'.normalize = a.normalize
  lo : a'.lo = a.lo
  hi : a'.hi = a.hi
  m : a'.m = a.m
  prediction : a'.prediction = a.prediction
  tolerance : a'.tolerance = a.tolerance
  functionalKernel : a'.functionalKernel = a.functionalKernel

/-- `op'` is the operation `op` in another run: other random numbers, another worker pool (or none), debug logging on or off, metrics recorded or not and another
(positive) number of trace iterations. -/
inductive Op.Rerun : Op → Op → Prop
  | new {a a' : LLGPArgs} {e e' : Env} : a.SameModel a' → 0 < a'.traceIterations → e'.Calm → Op.Rerun (.new a e) (.new a' e')
  | set {i : ℕ} {fk : FK} {e e' : Env} : e'.Calm → Op.Rerun (.set i fk e) (.set i fk e')
  | optimize {i : ℕ} : Op.Rerun (.optimize i) (.optimize i)
  | ask {i : ℕ} {q : Query} {e e' : Env} : e'.Works → Op.Rerun (.ask i q e) (.ask i q e')

end Verif
