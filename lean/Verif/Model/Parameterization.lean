import Verif.Model.Priors
import Mathlib.Data.Finset.Sort
import Mathlib.Algebra.BigOperators.Group.List.Basic

/-! `runlmc/parameterization`: priors and constraints attached to parameters, and the objective of a model. Parameters are seen as ranges of indices of the
one flat parameter array of the model they are linked to (paramz keeps views with offsets in the leaves). -/

namespace Verif

/-- paramz `ParameterIndexOperations`: an insertion-ordered dictionary from properties (compared by identity) to sorted arrays of indices without
repetitions. External. -/
abbrev IndexOps (κ : Type) := List (κ × Finset ℕ)

/-- `ParameterIndexOperations.add`: the union with the indices already there; a new property goes last. External (paramz). -/
def IndexOps.add {κ : Type} [DecidableEq κ] (o : IndexOps κ) (k : κ) (ix : Finset ℕ) : IndexOps κ :=
  if k ∈ o.map Prod.fst then o.map fun e => if e.1 = k then (e.1, e.2 ∪ ix) else e else o ++ [(k, ix)]

/-- `ParameterIndexOperations.remove`: the difference; a property left without indices is deleted. External (paramz). -/
def IndexOps.remove {κ : Type} [DecidableEq κ] (o : IndexOps κ) (k : κ) (ix : Finset ℕ) : IndexOps κ :=
  (o.map fun e => if e.1 = k then (e.1, e.2 \ ix) else e).filter fun e => ¬ (e.1 = k ∧ e.2 = ∅)

/-- paramz `_remove_from_index_operations(which, [])`: for every property present, `remove` it from the indices. External (paramz). -/
def IndexOps.removeAll {κ : Type} [DecidableEq κ] (o : IndexOps κ) (ix : Finset ℕ) : IndexOps κ :=
  (o.map Prod.fst).foldl (fun o k => o.remove k ix) o

/-- `ParameterIndexOperations.size`: the number of indices over all properties. External (paramz). -/
def IndexOps.size {κ : Type} (o : IndexOps κ) : ℕ := (o.map fun e => e.2.card).sum

/-- the identity of a constraint object: paramz transformations are singletons, `__fixed__` is a string and the others are numbered -/
inductive Con where
  | logexp | negativeLogexp | fixed
  | other (k : ℕ)
  deriving DecidableEq

/-- what the model uses of a paramz `Transformation` (`init` is `initialize`). External. -/
structure Transf where
  init : ℝ → ℝ
  logJacobian : ℝ → ℝ
  logJacobianGrad : ℝ → ℝ

/-- paramz `Logexp`, the constraint `constrain_positive` uses: `θ = log(1 + eˣ)`; the cut-off at 36 and the `1e-20` added to `f` are left out. External. -/
noncomputable def logexpTransf : Transf where
  init := fun x => |x|
  logJacobian := fun x => Real.log (Real.exp x - 1) - x
  logJacobianGrad := fun x => 1 / (Real.exp x - 1)

/-- The surroundings: prior objects by identity (they are immutable, priors.py 29), transformations by identity (`none` when the object is not a
`Transformation`; `fixed` never is), the likelihood and its gradient, and two things runlmc's code gets from outside: the outcome of notifying the observers
of a change (`parameters_changed` of the model may raise), and what `_all_constraints` yields (priorizable.py 66-69: `properties_for` is given the
method `_raveled_index` instead of the indices; with current numpy this yields nothing). -/
structure ParamEnv where
  prior : ℕ → PriorObj
  other : ℕ → Option Transf
  negative : Transf
  logLikelihood : List ℝ → ℝ
  gradient : List ℝ → List ℝ
  notify : List ℝ → Option PyErr
  seen : IndexOps Con → Finset ℕ → List Con

/-- the transformation of a constraint -/
noncomputable def ParamEnv.transf (env : ParamEnv) : Con → Option Transf
  | .logexp => some logexpTransf
  | .negativeLogexp => some env.negative
  | .fixed => none
  | .other k => env.other k

/-- the state of the parameters of a model -/
structure PState where
  params : List ℝ
  priors : IndexOps ℕ
  constraints : IndexOps Con

/-- the parameters of the indices, each replaced through `f` -/
def updateAt (xs : List ℝ) (ix : Finset ℕ) (f : ℝ → ℝ) : List ℝ := xs.mapIdx fun i x => if i ∈ ix then f x else x

/-- paramz `constrain(transform)` on the parameter with the given indices: initialize the values, drop the constraints there, add the new one, notify; for
`__fixed__` it is `fix`, which does not touch values; ValueError for anything that is not a transformation. External (paramz). -/
noncomputable def constrain (env : ParamEnv) (s : PState) (ix : Finset ℕ) (c : Con) : Option PyErr × PState :=
  match c, env.transf c with
  | .fixed, _ =>
    let s' := { s with constraints := (s.constraints.removeAll ix).add .fixed ix }
    (env.notify s'.params, s')
  | _, some t =>
    let s' := { s with params := updateAt s.params ix t.init, constraints := (s.constraints.removeAll ix).add c ix }
    (env.notify s'.params, s')
  | _, none => (some .valueError, s)

/-- paramz `unconstrain()`. External (paramz). -/
def unconstrain (s : PState) (ix : Finset ℕ) : PState := { s with constraints := s.constraints.removeAll ix }

/-- `Prior._CONSTRAIN_DOMAIN[domain](param)`, priors.py 38-42 and 19-20: KeyError for a domain not in the dictionary; for `'real'` an assertion that every
constraint seen is the string `'real'` (`paramz.domains._REAL`), which no constraint object is. -/
noncomputable def constrainDomain (env : ParamEnv) (s : PState) (ix : Finset ℕ) : Option String → Option PyErr × PState
  | some "real" => (if env.seen s.constraints ix = [] then none else some .assertionError, s)
  | some "positive" => constrain env s ix .logexp
  | some "negative" => constrain env s ix .negativeLogexp
  | _ => (some .keyError, s)

/-- `PriorizableLeaf.set_prior`, priorizable.py 48-64, on the parameter with the given indices; the state is returned with the exception, if any. -/
noncomputable def setPrior (env : ParamEnv) (s : PState) (ix : Finset ℕ) (p : ℕ) : Option PyErr × PState :=
  let s := { s with priors := (s.priors.removeAll ix).add p ix }
  match constrainDomain env s ix (env.prior p).domain with
  | (some e, s) => (some e, s)
  | (none, s) => (if ∀ c ∈ env.seen s.constraints ix, c ≠ Con.fixed then none else some .assertionError, s)

/-- `PriorizableLeaf.unset_prior`, priorizable.py 71-72 and 74-78 -/
def unsetPrior (s : PState) (ix : Finset ℕ) : PState := { s with priors := s.priors.removeAll ix }

/-- the calls a program can make about the parameters of a model, each on the parameter with the given indices -/
inductive POp where
  | setPrior (ix : Finset ℕ) (p : ℕ)
  | unsetPrior (ix : Finset ℕ)
  | constrain (ix : Finset ℕ) (c : Con)
  | unconstrain (ix : Finset ℕ)
  | assign (i : ℕ) (x : ℝ)

/-- one call; exceptions are caught by the program, which goes on with the state left behind -/
noncomputable def POp.run (env : ParamEnv) (s : PState) : POp → Option PyErr × PState
  | .setPrior ix p => Verif.setPrior env s ix p
  | .unsetPrior ix => (none, Verif.unsetPrior s ix)
  | .constrain ix c => Verif.constrain env s ix c
  | .unconstrain ix => (none, Verif.unconstrain s ix)
  | .assign i x => let s' := { s with params := s.params.set i x }; (env.notify s'.params, s')

/-- a program -/
noncomputable def runOps (env : ParamEnv) (s : PState) (ops : List POp) : PState := ops.foldl (fun s op => (op.run env s).2) s

/-- the sum of a float or of an array -/
def PyNum.sum : PyNum → ℝ
  | .scalar x => x
  | .array xs => xs.sum

/-- the entries of a result used as the values of `np.put` -/
def PyNum.values : PyNum → List ℝ
  | .scalar x => [x]
  | .array xs => xs

/-- `xs[indices]` for indices in range -/
noncomputable def takeIx (xs : List ℝ) (ix : Finset ℕ) : List ℝ := ix.sort.map fun i => xs.getD i 0

/-- `indices_with_prior`, model.py 94-95 -/
def PState.indicesWithPrior (s : PState) : Finset ℕ := s.priors.foldl (fun w e => w ∪ e.2) ∅

/-- the part of the Jacobian sum of one constraint, model.py 96-102 -/
noncomputable def jacobianTerm (env : ParamEnv) (s : PState) (e : Con × Finset ℕ) : ℝ :=
  match env.transf e.1 with
  | none => 0
  | some t => ((e.2.sort.filter (· ∈ s.indicesWithPrior)).map fun i => t.logJacobian (s.params.getD i 0)).sum

/-- `log_prior`, model.py 79-104 -/
noncomputable def PState.logPrior (env : ParamEnv) (s : PState) : ℝ :=
  if s.priors.size = 0 then 0
  else
    let logTransformedPrior := (s.priors.map fun e => ((env.prior e.1).lnpdf (.array (takeIx s.params e.2))).sum).sum
    let logJacobianPrior := s.constraints.foldl (fun acc e => acc + jacobianTerm env s e) 0
    logTransformedPrior + logJacobianPrior

/-- `np.put(a, ind, v)` for indices in range: entry `ind[k]` becomes `v[k % len(v)]`; nothing happens when `v` is empty. External (numpy). -/
def npPutFrom (v : List ℝ) : ℕ → List ℕ → List ℝ → List ℝ
  | _, [], a => a
  | k, i :: ind, a => npPutFrom v (k + 1) ind (if v = [] then a else a.set i (v.getD (k % v.length) 0))

/-- `np.put` -/
def npPut (a : List ℝ) (ind : List ℕ) (v : List ℝ) : List ℝ := npPutFrom v 0 ind a

/-- the loop over the indices of one constraint, model.py 117-123 -/
noncomputable def addJacobianGrads (env : ParamEnv) (s : PState) (withPrior : Finset ℕ) (grad : List ℝ) (e : Con × Finset ℕ) : List ℝ :=
  match env.transf e.1 with
  | none => grad
  | some t => e.2.sort.foldl (fun g i => if i ∈ withPrior then g.set i (g.getD i 0 + t.logJacobianGrad (s.params.getD i 0)) else g) grad

/-- `_log_prior_gradients`, model.py 106-125. The set comprehension of lines 115-116 iterates over the variable `indices` left by the loop above it, which are
those of the last prior, before the inner `for` rebinds the name: so `indices_with_prior` has the indices of the last prior only. The value `0.` without
priors is added to every entry of the gradient. -/
noncomputable def PState.logPriorGradients (env : ParamEnv) (s : PState) : List ℝ :=
  if s.priors.size = 0 then s.params.map fun _ => 0
  else
    let grad := s.priors.foldl (fun g e => npPut g e.2.sort ((env.prior e.1).lnpdfGrad (.array (takeIx s.params e.2))).values) (s.params.map fun _ => 0)
    let lastIndices := (s.priors.getLast?.map Prod.snd).getD ∅
    s.constraints.foldl (addJacobianGrads env s lastIndices) grad

/-- `objective_function`, model.py 58-70 and 72-73 -/
noncomputable def PState.objective (env : ParamEnv) (s : PState) : ℝ := -(env.logLikelihood s.params + s.logPrior env)

/-- `objective_function_gradients`, model.py 75-77 -/
noncomputable def PState.objectiveGradients (env : ParamEnv) (s : PState) : List ℝ :=
  ((env.gradient s.params).zip (s.logPriorGradients env)).map fun p => -(p.1 + p.2)

end Verif
