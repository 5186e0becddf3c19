import Verif.Model.Matrix

/-! `runlmc/models/optimization.py`: the AdaDelta wrapper. -/

namespace Verif

/-- the options the wrapper itself uses, optimization.py 22-26 (`callback` is separate below; the others are passed on to climin) -/
structure AdaOpts where
  maxIt : ℤ := 100
  verbosity : ℤ := 0
  minGradRatio : ℝ := 0.1
  permittedDrops : ℤ := 5

/-- What `climin.Adadelta(x, fp, …)` is, seen from the wrapper: an iterator over a state that holds the current point. Every step updates the array `x` in
place, may raise (when `fp` does), and yields an `info` with the gradient; `info['n_iter']` counts the steps from 1. (External; nothing else is
assumed about the update rule.) -/
structure AdaIter (σ : Type*) where
  start : List ℝ → σ
  next : σ → Except PyErr (σ × List ℝ)
  wrt : σ → List ℝ

/-- what can be seen from outside while the optimizer runs: printed lines and calls of the callback -/
inductive AdaEvent where
  | prolog
  | update (n : ℕ) (norm : ℝ)
  | callback
  | epilog (n : ℕ) (norm : ℝ)

/-- optimization.py 34-35: `la.norm(gradient, np.inf)`, which raises ValueError on an empty array -/
noncomputable def gradNorm (g : List ℝ) : Except PyErr ℝ := npMax (g.map fun x => |x|)

/-- optimization.py 37-39 -/
def printProlog (o : AdaOpts) : List AdaEvent := if o.verbosity ≠ 0 then [.prolog] else []

/-- optimization.py 41-50 -/
def printEpilog (o : AdaOpts) (n : ℕ) (norm : ℝ) : List AdaEvent := if o.verbosity ≠ 0 then [.epilog n norm] else []

/-- optimization.py 52-57; `//` is floor division -/
def printUpdate (o : AdaOpts) (n : ℕ) (norm : ℝ) : List AdaEvent :=
  let delta := if o.verbosity ≠ 0 then max (o.maxIt.fdiv o.verbosity) 1 else 0
  if o.verbosity ≠ 0 ∧ (n : ℤ) % delta = 0 then [.update n norm] else []

/-- The loop of `opt`, optimization.py 69-81, after `n` iterations; `cb k` is what the `k`-th call of the callback does. Returns what was seen and the
outcome. -/
noncomputable def adaLoop {σ : Type*} (it : AdaIter σ) (o : AdaOpts) (cb : ℕ → Except PyErr Unit) (s : σ) (n : ℕ) (drops : ℤ) (rollingMax : ℝ) :
    List AdaEvent × Except PyErr σ :=
  match it.next s with
  | .error e => ([], .error e)
  | .ok (s', g) =>
    match gradNorm g with
    | .error e => ([], .error e)
    | .ok norm =>
      let rollingMax' := max norm rollingMax
      match cb n with
      | .error e => (printUpdate o (n + 1) norm ++ [.callback], .error e)
      | .ok _ =>
        let drops' := if norm < o.minGradRatio * rollingMax' then drops - 1 else drops
        if h : o.maxIt ≤ ((n + 1 : ℕ) : ℤ) ∨ drops' ≤ 0 then
          (printUpdate o (n + 1) norm ++ [.callback] ++ printEpilog o (n + 1) norm, .ok s')
        else
          let r := adaLoop it o cb s' (n + 1) drops' rollingMax'
          (printUpdate o (n + 1) norm ++ [.callback] ++ r.1, r.2)
termination_by (o.maxIt - (n : ℤ)).toNat
decreasing_by push_cast at h; omega

/-- `AdaDelta.opt`, optimization.py 59-83: the events and `x_opt`. (`x_opt` is the array `x`, which the iterator updates in place.) -/
noncomputable def adaOpt {σ : Type*} (it : AdaIter σ) (o : AdaOpts) (cb : ℕ → Except PyErr Unit) (x : List ℝ) : List AdaEvent × Except PyErr (List ℝ) :=
  let r := adaLoop it o cb (it.start x) 0 o.permittedDrops 0
  (printProlog o ++ r.1, r.2.map it.wrt)

end Verif
