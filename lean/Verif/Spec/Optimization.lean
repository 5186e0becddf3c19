import Verif.Model.Optimization
import Mathlib.Data.Finset.Lattice.Fold
import Mathlib.Data.Real.Archimedean
import Mathlib.Data.Rat.Floor

/-! Specification of when the optimizer stops. -/

namespace Verif

/-- what the iterator would do if it were never stopped: the state after each number of steps and the gradient each step yields -/
structure Unstopped {σ : Type*} (it : AdaIter σ) (x : List ℝ) (S : ℕ → σ) (G : ℕ → List ℝ) : Prop where
  start : S 0 = it.start x
  step : ∀ k, it.next (S k) = .ok (S (k + 1), G k)
  nonempty : ∀ k, G k ≠ []

/-- the largest absolute value of an entry -/
noncomputable def largest (g : List ℝ) : ℝ := ⨆ i : Fin g.length, |g[i]|

/-- iteration `k` (from 0) is a drop: its gradient is small compared with the largest one so far -/
def Drop (ratio : ℝ) (G : ℕ → List ℝ) (k : ℕ) : Prop := ∃ j ≤ k, (∀ i ≤ k, largest (G i) ≤ largest (G j)) ∧ largest (G k) < ratio * largest (G j)

open Classical in
/-- the number of drops among the first `n` iterations -/
noncomputable def dropsIn (ratio : ℝ) (G : ℕ → List ℝ) (n : ℕ) : ℕ := ((Finset.range n).filter fun k => Drop ratio G k).card

/-- the optimizer may stop after `n` iterations -/
def MayStop (o : AdaOpts) (G : ℕ → List ℝ) (n : ℕ) : Prop := 1 ≤ n ∧ (o.maxIt ≤ (n : ℤ) ∨ o.permittedDrops ≤ (dropsIn o.minGradRatio G n : ℤ))

/-- the number of calls of the callback -/
def callbacks (l : List AdaEvent) : ℕ := (l.filter fun | .callback => true | _ => false).length

/-- every so many iterations a line is printed -/
def printEvery (o : AdaOpts) : ℤ := max ⌊(o.maxIt : ℚ) / o.verbosity⌋ 1

open Classical in
/-- what is seen of a run of `N` iterations with the gradients `G`: with a verbosity other than 0 there is a line at the start, one after each multiple of
`printEvery` iterations with the largest entry of the gradient, and one at the end; the callback is called in every iteration -/
noncomputable def transcript (o : AdaOpts) (G : ℕ → List ℝ) (N : ℕ) : List AdaEvent :=
  (if o.verbosity = 0 then [] else [.prolog]) ++
  ((List.range N).flatMap fun k => (if o.verbosity ≠ 0 ∧ printEvery o ∣ ((k + 1 : ℕ) : ℤ) then [.update (k + 1) (largest (G k))] else []) ++ [.callback]) ++
  (if o.verbosity = 0 then [] else [.epilog N (largest (G (N - 1)))])

/-- the number of progress lines -/
def progressLines (l : List AdaEvent) : ℕ := (l.filter fun | .update .. => true | _ => false).length

end Verif
