import Verif.Spec.MultiGP
import Mathlib.Analysis.SpecialFunctions.Log.Basic
import Mathlib.Analysis.SpecialFunctions.Sqrt

/-! Vocabulary for the error metrics of the benchmarks. -/

namespace Verif

/-- the mean of `f` over a finite set of positions -/
noncomputable def meanOver (s : Finset ℕ) (f : ℕ → ℝ) : ℝ := (∑ i ∈ s, f i) / s.card

/-- the outputs with test observations -/
def tested (test : List (List ℝ)) : Finset ℕ := (Finset.range test.length).filter fun d => 0 < (test.getD d []).length

/-- mean squared difference between two series of the length of the first -/
noncomputable def meanSq (x y : ℕ → ℝ) (n : ℕ) : ℝ := meanOver (Finset.range n) fun i => (x i - y i) ^ 2

/-- the standardised mean squared error of one output: relative to predicting the mean of the training observations -/
noncomputable def smseOf (test pred train : List ℝ) : ℝ :=
  meanSq (fun i => test.getD i 0) (fun i => pred.getD i 0) test.length / meanSq (fun i => test.getD i 0) (fun _ => meanOf train) test.length

/-- the density of the normal distribution -/
noncomputable def normalDensity (μ v t : ℝ) : ℝ := (Real.sqrt (2 * Real.pi * v))⁻¹ * Real.exp (-(t - μ) ^ 2 / (2 * v))

/-- the points of an output whose predicted variance is not zero -/
noncomputable def uncertain (vs : List ℝ) : Finset ℕ := open Classical in (Finset.range vs.length).filter fun i => vs.getD i 0 ≠ 0

/-- the mean negative logarithm of the predicted density over the points of an output whose predicted variance is not zero -/
noncomputable def nlpdOf (test pred vs : List ℝ) : ℝ :=
  meanOver (uncertain vs) fun i => -Real.log (normalDensity (pred.getD i 0) (vs.getD i 0) (test.getD i 0))

/-- the outputs with at least one test observation whose predicted variance is not zero -/
noncomputable def informative (vss : List (List ℝ)) : Finset ℕ := open Classical in (Finset.range vss.length).filter fun d => (uncertain (vss.getD d [])).Nonempty

/-- as many series as `test`, each as long as that of `test` -/
def SameShape (test other : List (List ℝ)) : Prop := other.length = test.length ∧ ∀ d, (other.getD d []).length = (test.getD d []).length

/-- as many equal predictions as there are test observations for an output with a single prediction -/
noncomputable def forEach (test pred : List (List ℝ)) : List (List ℝ) := (List.range test.length).map fun d =>
  if (pred.getD d []).length = 1 then List.replicate (test.getD d []).length ((pred.getD d []).getD 0 0) else pred.getD d []

/-- the series in other units: a factor and an offset per output -/
noncomputable def inUnits (a b : ℕ → ℝ) (yss : List (List ℝ)) : List (List ℝ) := vmk yss.length fun d => (yss.getD d []).map fun y => a d * y + b d

/-- `q` numbers from 1 to 10 of which each is the same multiple of the one before it -/
def Scales (γ : List ℝ) (q : ℕ) : Prop :=
  γ.length = q ∧ (0 < q → γ.getD 0 0 = 1) ∧ (1 < q → γ.getD (q - 1) 0 = 10) ∧ ∃ r : ℝ, ∀ i, i + 1 < q → γ.getD (i + 1) 0 = r * γ.getD i 0

end Verif
