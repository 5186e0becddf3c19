import Verif.Model.Likelihood
import Mathlib.Analysis.SpecialFunctions.Log.Basic
import Mathlib.Analysis.SpecialFunctions.Pow.Real
import Mathlib.Analysis.SpecialFunctions.Trigonometric.Basic

/-!
`benchmarks/benchlib/standard_tester.py`: the error metrics and the choice of the best column. `benchmarks/benchlib/bench.py`: the checks of the command line
and the kernels. The functions that download data, call other programs, time or print are not modelled.

A float that is not a finite number (`nan`, `inf`) is `none`; one-dimensional arrays are lists.
-/

namespace Verif

/-- `filter_list(ls, ixs)`, standard_tester.py 192-193 -/
def filterList {α : Type} (ls : List α) (ixs : List ℕ) : Except PyErr (List α) :=
  mapExcept (fun i => (ls[i]?).elim (.error .indexError) .ok) ixs

/-- `filter_nonempty_cols(a, b, c)`, standard_tester.py 196-198 -/
def filterNonemptyCols (a b c : List (List ℝ)) : Except PyErr (List (List ℝ) × List (List ℝ) × List (List ℝ)) := do
  let nonemptyIxs := (List.range a.length).filter fun i => decide (0 < (a.getD i []).length)
  let a' ← filterList a nonemptyIxs
  let b' ← filterList b nonemptyIxs
  let c' ← filterList c nonemptyIxs
  return (a', b', c')

/-- `x[select]` with an integer array of positions -/
def fancyIndex (x : List ℝ) (select : List ℕ) : Except PyErr (List ℝ) := filterList x select

/-- `filter_by_selection(a, b, c, selects)`, standard_tester.py 201-202 -/
def filterBySelection (a b c : List (List ℝ)) (selects : List (List ℕ)) : Except PyErr (List (List ℝ) × List (List ℝ) × List (List ℝ)) := do
  let a' ← mapExcept (fun p => fancyIndex p.1 p.2) (a.zip selects)
  let b' ← mapExcept (fun p => fancyIndex p.1 p.2) (b.zip selects)
  let c' ← mapExcept (fun p => fancyIndex p.1 p.2) (c.zip selects)
  return (a', b', c')

/-- elementwise operation on two one-dimensional arrays, with numpy's broadcasting of arrays of one entry -/
def broadcast2 (f : ℝ → ℝ → ℝ) (x y : List ℝ) : Except PyErr (List ℝ) :=
  if x.length = y.length then .ok (List.zipWith f x y)
  else if y.length = 1 then .ok (x.map fun a => f a (y.getD 0 0))
  else if x.length = 1 then .ok (y.map fun b => f (x.getD 0 0) b)
  else .error .valueError

/-- `np.mean`: the mean of no numbers, or of something that is not finite, is not finite -/
noncomputable def npMeanFloat (l : List ℝ) : Option ℝ := if l = [] then none else some (l.sum / l.length)

/-- the mean of floats some of which may not be finite -/
noncomputable def npMeanFloats (l : List (Option ℝ)) : Option ℝ := (l.mapM id).bind npMeanFloat

open Classical in
/-- division of floats: dividing by zero does not give a finite number -/
noncomputable def floatDiv (a b : Option ℝ) : Option ℝ := a.bind fun x => b.bind fun y => if y = 0 then none else some (x / y)

/-- the term of one output, standard_tester.py 208-209 -/
noncomputable def smseTerm (test pred train : List ℝ) : Except PyErr (Option ℝ) := do
  let diff ← broadcast2 (fun a b => (a - b) ^ 2) test pred
  let base := (npMeanFloat train).bind fun μ => npMeanFloat (test.map fun t => (μ - t) ^ 2)
  return floatDiv (npMeanFloat diff) base

/-- `smse(test_yss, pred_yss, train_yss)`, standard_tester.py 205-211 -/
noncomputable def smse (test pred train : List (List ℝ)) : Except PyErr (Option ℝ) := do
  let (test, pred, train) ← filterNonemptyCols test pred train
  let terms ← mapExcept (fun p => smseTerm p.1 p.2.1 p.2.2) (test.zip (pred.zip train))
  return npMeanFloats terms

open Classical in
/-- `np.flatnonzero(vs)` -/
noncomputable def flatNonzero (vs : List ℝ) : List ℕ := (List.range vs.length).filter fun i => vs.getD i 0 ≠ 0

open Classical in
/-- the term of one output, standard_tester.py 229-231: the variances are nonzero here; the logarithm of a negative one is not a finite number -/
noncomputable def nlpdTerm (test pred vs : List ℝ) : Except PyErr (Option ℝ) := do
  let sq ← broadcast2 (fun a b => (a - b) ^ 2) test pred
  let ratio ← broadcast2 (fun a b => a / b) sq vs
  let total ← broadcast2 (fun a b => a + b) ratio (vs.map fun v => Real.log (2 * Real.pi * v))
  if ∃ v ∈ vs, v < 0 then return none
  else return (npMeanFloat total).map fun x => 0.5 * x

/-- `nlpd(test_yss, pred_yss, pred_vss)`, standard_tester.py 214-233 (the warning is left out) -/
noncomputable def nlpd (test pred vss : List (List ℝ)) : Except PyErr (Option ℝ) := do
  let (test, pred, vss) ← filterNonemptyCols test pred vss
  let selectors := vss.map flatNonzero
  let (test, pred, vss) ← filterBySelection test pred vss selectors
  let (test, pred, vss) ← filterNonemptyCols test pred vss
  let terms ← mapExcept (fun p => nlpdTerm p.1 p.2.1 p.2.2) (test.zip (pred.zip vss))
  return npMeanFloats terms

/-- the loop of `min(range(n), key=...)` -/
noncomputable def argminFrom (key : ℕ → ℝ) (best : ℕ) : List ℕ → ℕ
  | [] => best
  | i :: l => open Classical in if key i < key best then argminFrom key i l else argminFrom key best l

/-- the emphasised column of `latex_table`, standard_tester.py 419: `min(range(len(results)), key=lambda r: results[r][0])` -/
noncomputable def bestColumn (results : List (ℝ × ℝ)) : Except PyErr ℕ :=
  match List.range results.length with
  | [] => .error .valueError
  | i :: l => .ok (argminFrom (fun r => (results.getD r (0, 0)).1) i l)

/-- the command line of bench.py after parsing the numbers; trailing arguments may be left out -/
structure BenchArgs where
  nO : ℤ
  d : ℤ
  rq : ℤ
  q : ℤ
  eps : ℝ
  kern : Option String
  seed : Option ℕ
  testtype : Option String

open Classical in
/-- the arguments and checks of `_main`, bench.py 86-104: what the program goes on with. A seed can only be given after a kernel, and a test type after a seed. -/
noncomputable def benchChecks (a : BenchArgs) : Except PyErr (String × ℕ × String) :=
  let kern := a.kern.getD "rbf"
  let seed := a.seed.getD 1234
  let testtype := a.testtype.getD "inversion"
  if ¬ 7 < a.nO then .error .assertionError
  else if ¬ 0 < a.d then .error .assertionError
  else if ¬ 0 < a.rq then .error .assertionError
  else if ¬ a.rq ≤ a.d then .error .assertionError
  else if ¬ 0 < a.q then .error .assertionError
  else if ¬ 0 < a.eps then .error .assertionError
  else if kern ∉ ["rbf", "periodic", "matern", "mix"] then .error .assertionError
  else if testtype ∉ ["inv", "opt"] then .error .assertionError
  else .ok (kern, seed, testtype)

/-- `np.logspace(0, 1, q)` -/
noncomputable def logspace01 (q : ℕ) : List ℝ := vmk q fun i => (10 : ℝ) ^ ((i : ℝ) / ((q - 1 : ℕ) : ℝ))

/-- the three kernel constructors of bench.py 287 -/
noncomputable def benchKernFuncs : List (ℝ → Kern) := [fun g => .rbf g none, fun p => .stdPeriodic 1 p none, fun g => .matern32 g none]

/-- `gen_kernels(q)`, bench.py 286-299 -/
noncomputable def genKernels (q : ℕ) : List (List Kern) :=
  let kernels := benchKernFuncs.map fun kfunc => (logspace01 q).map kfunc
  let mix := (logspace01 (max (q / 3) 1)).flatMap fun gamma => benchKernFuncs.map fun kfunc => kfunc gamma
  let mix := if q < mix.length then mix.take q else mix ++ (List.replicate (q - mix.length) (Kern.rbf 1 none))
  kernels ++ [mix]

end Verif
