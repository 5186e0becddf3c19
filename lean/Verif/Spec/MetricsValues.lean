import Verif.Model.LLGPState

/-! What the metrics of an update should be. -/

namespace Verif

/-- `r` is the largest absolute value of the entries -/
structure LargestAbs (r : ℝ) (v : List ℝ) : Prop where
  bound : ∀ x ∈ v, |x| ≤ r
  attained : v ≠ [] → ∃ x ∈ v, |x| = r
  empty : v = [] → r = 0

/-- the entries of the gradients stored in the parameters -/
def FKGrad.numbers (g : FKGrad) : List ℝ := g.vecs.flatMap Arr2.data ++ g.diags.flatten ++ g.kernels.flatten ++ g.noise

/-- the average of `c` over a list -/
noncomputable def averageOver {α : Type} (c : α → ℝ) (l : List α) : ℝ := (l.map c).sum / l.length

/-- each of the five series got one more entry -/
structure Metrics.Appends (x x' : Metrics) (iterations solvError gradNorm gradError logLik : ℝ) : Prop where
  iterations : x'.iterations = x.iterations ++ [iterations]
  solvError : x'.solvError = x.solvError ++ [solvError]
  gradNorms : x'.gradNorms = x.gradNorms ++ [gradNorm]
  gradError : x'.gradError = x.gradError ++ [gradError]
  logLikely : x'.logLikely = x.logLikely ++ [logLik]

end Verif
