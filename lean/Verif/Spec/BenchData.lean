import Verif.Spec.Likelihood
import Verif.Spec.Predict
import Mathlib.MeasureTheory.Integral.Bochner.Basic
import Mathlib.MeasureTheory.Constructions.Pi
import Mathlib.Probability.Distributions.Gaussian.Real

/-! Vocabulary for the data sets of the benchmarks. -/

namespace Verif

/-- the days held out for a currency in the foreign exchange data: 50 days each of three of them (counted from 0) -/
def HeldOutDay (currency : String) (day : ℕ) : Prop :=
  (currency = "CAD" ∧ 49 ≤ day ∧ day < 99) ∨ (currency = "JPY" ∧ 99 ≤ day ∧ day < 149) ∨ (currency = "AUD" ∧ 149 ≤ day ∧ day < 199)

/-- one over a rate; `nan` if there is no rate, and no number for a rate of zero -/
noncomputable def inverseRate : Option ℝ → Option ℝ
  | none => none
  | some v => if v = 0 then none else some v⁻¹

/-- the sensors of the weather data and the number of temperatures missing in the file of each -/
def missingTemperatures : List (String × ℕ) := [("bra", 100), ("cam", 0), ("chi", 15), ("sot", 1002)]

/-- the times held out for a sensor of the weather data -/
def HeldOutTime (sensor : String) (t : ℝ) : Prop := (sensor = "cam" ∧ 10.2 ≤ t ∧ t ≤ 10.8) ∨ (sensor = "chi" ∧ 13.5 ≤ t ∧ t ≤ 14.2)

/-- the rows of a weather file with a temperature, in order; missing temperatures are written as -1 -/
noncomputable def measured (x y : List ℝ) : List (ℝ × ℝ) := open Classical in (x.zip y).filter fun p => decide (p.2 ≠ -1)

/-- `train` and `test` are the rows `all` divided in two by `out`: every row is in exactly one of them, as often as in `all`, and in the same order -/
structure Divided {α : Type} (all train test : List α) (out : α → Prop) : Prop where
  perm : (train ++ test).Perm all
  kept : ∀ r ∈ train, ¬ out r
  held : ∀ r ∈ test, out r
  trainOrder : train.Sublist all
  testOrder : test.Sublist all

/-- `z` are `n` uncorrelated random numbers with variance 1 (for standard normal ones this is so) -/
def Uncorrelated {Ω : Type} [MeasurableSpace Ω] (μ : MeasureTheory.Measure Ω) (n : ℕ) (z : Ω → List ℝ) : Prop :=
  ∀ i < n, ∀ j < n, MeasureTheory.Integrable (fun ω => (z ω).getD i 0 * (z ω).getD j 0) μ ∧ ∫ ω, (z ω).getD i 0 * (z ω).getD j 0 ∂μ = if i = j then 1 else 0

/-- `n` independent standard normal numbers -/
noncomputable def standardNormals (n : ℕ) : MeasureTheory.Measure (Fin n → ℝ) := MeasureTheory.Measure.pi fun _ => ProbabilityTheory.gaussianReal 0 1

/-- the `n` random numbers `y` are jointly normal with mean 0 and covariances `K`: every linear combination `t` of them is normal, with mean 0 and the variance that `K`
gives to it -/
def JointlyNormal {Ω : Type} [MeasurableSpace Ω] (μ : MeasureTheory.Measure Ω) (n : ℕ) (y : Ω → List ℝ) (K : ℕ → ℕ → ℝ) : Prop :=
  ∀ t : ℕ → ℝ, μ.map (fun ω => ∑ r ∈ Finset.range n, t r * (y ω).getD r 0) =
    ProbabilityTheory.gaussianReal 0 (∑ r ∈ Finset.range n, ∑ s ∈ Finset.range n, t r * t s * K r s).toNNReal

/-- the covariance of observations `r` and `s` of the synthetic data: two latent processes shared by the outputs with weights `v0` and `v1`, one process of its own for
each output, and noise of variance 0.1 -/
noncomputable def synthCov (v0 v1 : ℕ → ℝ) (Xs : List (Arr2 ℝ)) (r s : ℕ) : ℝ :=
  let a := ownerOf (Xs.map Arr2.rows) r
  let b := ownerOf (Xs.map Arr2.rows) s
  let x := rowPoint Xs r
  let y := rowPoint Xs s
  let sq := (x 0 - y 0) ^ 2 + (x 1 - y 1) ^ 2
  v0 a * v0 b * Real.exp (-5 * sq / 2) + v1 a * v1 b * Real.exp (-0.5 * sq / 2) + (if a = b then Real.exp (-2 * sq / 2) else 0) + if r = s then 1 / 10 else 0

end Verif
