import Verif.Model.BenchLmc
import Verif.Spec.Bench
import Verif.Spec.Reached
import Verif.Spec.Optimizer

/-! Vocabulary for C112: repeated runs of a benchmark. -/

namespace Verif

/-- the mean of numbers -/
noncomputable def runMean (x : List ℝ) : ℝ := x.sum / x.length

/-- the standard error of the mean of `n` independent measurements: the square root of the unbiased estimate `∑ (xᵢ - mean)² / (n - 1)` of their variance, divided by `√n` -/
noncomputable def standardError (x : List ℝ) : ℝ := Real.sqrt ((x.map fun v => (v - runMean x) ^ 2).sum / (x.length - 1)) / Real.sqrt x.length

/-- the second number that the code reports: with `n` in place of `n - 1` -/
noncomputable def runSpread (x : List ℝ) : ℝ := Real.sqrt (runMean (x.map fun v => (v - runMean x) ^ 2)) / Real.sqrt x.length

/-- `r` is what is reported for the values `l` (`none`: not finite) of the runs -/
def Reports (l : List (Option ℝ)) (r : Option ℝ × Option ℝ) : Prop :=
  (∀ x, l = x.map some → x ≠ [] → r = (some (runMean x), some (runSpread x))) ∧ (l = [] ∨ none ∈ l → r = (none, none))

/-- an answer of a benchmark: mean and second number, for time, SMSE and NLPD -/
abbrev Summary := List (Option ℝ × Option ℝ)

/-- what `bench_runlmc` returns or raises for the runs `ts` in the state `w` of the program -/
noncomputable def benchResult (sv : Solvers) (c : BenchCall) (ts : List Trial) (w : World) : Except PyErr (Summary × Option ℕ) := (benchRunlmc true sv c ts w).1

/-- the kernel a run should make: one output for each data set, with the kernels that were generated for it -/
def BenchCall.kernelArgs (c : BenchCall) (t : Trial) : FKArgs where
  D := some c.xss.length
  lmcKernels := some t.lmcKernels
  lmcRanks := some t.lmcRanks
  slfmKernels := some t.slfmKernels
  indepGp := some t.indepGp
  indepGpIndex := none

/-- the model a run should make: of the training data, normalised, with the options of the call -/
def BenchCall.modelArgs (c : BenchCall) (fk : FK) : LLGPArgs where
  Xs := c.xss
  Ys := c.yss
  normalize := true
  lo := c.lo
  hi := c.hi
  m := c.m
  metrics := c.metrics
  prediction := c.prediction
  traceIterations := c.traceIterations
  tolerance := c.tolerance
  functionalKernel := some fk

/-- a run as documented: the generators return kernels that, with the data, are documented arguments of the model, none of them periodic or an `Identity`; the circumstances are
calm, and the callback never raises -/
structure Trial.Documented (t : Trial) (c : BenchCall) (P : ℕ) : Prop where
  inputs : 0 < P
  samples : 0 < c.traceIterations
  kernel : ∃ fk, fkNew t.rand (c.kernelArgs t) = .ok fk ∧ (c.modelArgs fk).Documented P fk
  smooth : ∀ k ∈ t.lmcKernels ++ t.slfmKernels ++ t.indepGp, k.aperiodic ∧ k.noIdentity
  made : t.made.Calm
  updates : ∀ k, (t.updates k).Calm
  asked : t.asked.Works
  keeps : t.climb.Keeps
  callback : ∀ k, t.callback k = .ok ()

end Verif
