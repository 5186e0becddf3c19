import Verif.Model.Bench
import Verif.Model.Optimizer

/-! `bench_runlmc` of `benchmarks/benchlib/standard_tester.py`: models are made, optimised and scored several times. Printing and the file with the parameters
(`np.save`) are left out. -/

namespace Verif

/-- the arguments of `bench_runlmc`, standard_tester.py 236-237, apart from the number of runs and the four kernel generators. The fields from `lo` to `tolerance` are the
`m` and `**kwargs` that are passed on to the constructor, with their defaults if they are not given. `returnLmc` is the value given for `return_lmc`, if there is one. -/
structure BenchCall where
  xss : List (NDArr ℝ)
  yss : List (NDArr ℝ)
  testXss : List (NDArr ℝ)
  testYss : List (List ℝ)
  lo : GridOpt
  hi : GridOpt
  m : GridOpt
  metrics : Bool
  prediction : String
  traceIterations : ℕ
  tolerance : ℝ
  opts : AdaOpts
  returnLmc : Option Bool

/-- What can differ between the runs: what the generators return (new kernel objects each time), the random initial values, the circumstances of the
constructor, of the updates and of the prediction, the behaviour of climin and of the callback, and the time that `optimize` took. -/
structure Trial where
  lmcKernels : List Kern
  lmcRanks : List ℤ
  slfmKernels : List Kern
  indepGp : List Kern
  rand : ℕ → ℕ → ℕ → ℝ
  made : Env
  updates : ℕ → Env
  climb : Climb
  callback : ℕ → Except PyErr Unit
  asked : Env
  elapsed : ℝ

/-- the arguments of `FunctionalKernel`, standard_tester.py 243-248 -/
def BenchCall.fkArgs (c : BenchCall) (t : Trial) : FKArgs := ⟨some c.xss.length, some t.lmcKernels, some t.lmcRanks, some t.slfmKernels, some t.indepGp, none⟩

/-- the arguments of `InterpolatedLLGP`, standard_tester.py 249-250 -/
def BenchCall.args (c : BenchCall) (fk : FK) : LLGPArgs := ⟨c.xss, c.yss, true, c.lo, c.hi, c.m, c.metrics, c.prediction, c.traceIterations, c.tolerance, some fk⟩

/-- the scores of one prediction, standard_tester.py 258-259 -/
noncomputable def BenchCall.score (c : BenchCall) (p : Predicted) : Except PyErr (Option ℝ × Option ℝ) := do
  let s ← smse c.testYss p.1 (c.yss.map NDArr.data)
  let n ← nlpd c.testYss p.1 p.2
  return (s, n)

/-- one pass of the loop, standard_tester.py 243-260: time, SMSE and NLPD, and the model -/
noncomputable def benchTrial (useCache : Bool) (sv : Solvers) (c : BenchCall) (t : Trial) : PyM ((ℝ × Option ℝ × Option ℝ) × ℕ) := do
  let fk ← PyM.lift (fkNew t.rand (c.fkArgs t))
  let made ← execOp useCache sv (.new (c.args fk) t.made)
  match made with
  | .model i => do
    optimizeM useCache sv t.updates i t.climb c.opts t.callback
    let answer ← execOp useCache sv (.ask i (.predict c.testXss) t.asked)
    match answer with
    | .predicted p => do
      let sn ← PyM.lift (c.score p)
      return ((t.elapsed, sn.1, sn.2), i)
    | _ => PyM.lift (.error .runtimeError)
  | _ => PyM.lift (.error .runtimeError)

/-- the loop, standard_tester.py 242-260; the runs it makes are `ts` -/
noncomputable def benchLoop (useCache : Bool) (sv : Solvers) (c : BenchCall) : List Trial → PyM (List ((ℝ × Option ℝ × Option ℝ) × ℕ))
  | [] => return []
  | t :: ts => do
    let p ← benchTrial useCache sv c t
    let ps ← benchLoop useCache sv c ts
    return p :: ps

/-- `np.std(x)`: of no numbers, or of something that is not finite, it is not finite -/
noncomputable def npStd (l : List (Option ℝ)) : Option ℝ := (l.mapM id).bind fun x => (npMeanFloat x).bind fun μ => (npMeanFloat (x.map fun v => (v - μ) ^ 2)).map Real.sqrt

/-- `(np.mean(x), np.std(x) / np.sqrt(len(x)))`, standard_tester.py 263 -/
noncomputable def benchStat (l : List (Option ℝ)) : Option ℝ × Option ℝ := (npMeanFloats l, floatDiv (npStd l) (some (Real.sqrt l.length)))

/-- `bench_runlmc(len(ts), ...)`, standard_tester.py 236-266. With `return_lmc` (whatever its value, line 239) the last model is returned too; if there was no run, its name is
unbound (`RuntimeError` stands for `UnboundLocalError`). -/
noncomputable def benchRunlmc (useCache : Bool) (sv : Solvers) (c : BenchCall) (ts : List Trial) : PyM (List (Option ℝ × Option ℝ) × Option ℕ) := do
  let ps ← benchLoop useCache sv c ts
  let stats := [benchStat (ps.map fun p => some p.1.1), benchStat (ps.map fun p => p.1.2.1), benchStat (ps.map fun p => p.1.2.2)]
  match c.returnLmc with
  | none => return (stats, none)
  | some _ =>
    match ps.getLast? with
    | none => PyM.lift (.error .runtimeError)
    | some p => return (stats, some p.2)

end Verif
