import Verif.Spec.SameCovariance
import Mathlib.Topology.Instances.Real.Lemmas

/-! Vocabulary for C114: parameters that tend to others. -/

namespace Verif

open Filter Topology

/-- the covariance functions described by the parameters `u t` tend to the one described by `fk`: for the same outputs they read the same groups of dimensions, what each
group contributes tends at every distance, and so does the noise -/
structure CovarianceTends {ι : Type} (l : Filter ι) (u : ι → FK) (fk : FK) : Prop where
  outputs : ∀ t, (u t).D = fk.D
  dims : ∀ t ad, (∃ q < (u t).Q, (u t).kdims q = ad) ↔ ∃ q < fk.Q, fk.kdims q = ad
  parts : ∀ ad, ∀ a < fk.D, ∀ b < fk.D, ∀ r ≥ 0, Tendsto (fun t => (u t).onDims ad a b r) l (𝓝 (fk.onDims ad a b r))
  noise : ∀ a < fk.D, Tendsto (fun t => (u t).noise.getD a 0) l (𝓝 (fk.noise.getD a 0))

/-- the parameters of the kernels `k t`, all of one type, tend to those of a kernel of this type -/
inductive KernTends {ι : Type} (l : Filter ι) : (ι → Kern) → Kern → Prop
  | rbf {γ : ι → ℝ} {γ₀ : ℝ} (ad : Option (List ℕ)) (h : Tendsto γ l (𝓝 γ₀)) : KernTends l (fun t => .rbf (γ t) ad) (.rbf γ₀ ad)
  | matern32 {γ : ι → ℝ} {γ₀ : ℝ} (ad : Option (List ℕ)) (h : Tendsto γ l (𝓝 γ₀)) : KernTends l (fun t => .matern32 (γ t) ad) (.matern32 γ₀ ad)
  | stdPeriodic {γ T : ι → ℝ} {γ₀ T₀ : ℝ} (ad : Option (List ℕ)) (h : Tendsto γ l (𝓝 γ₀)) (hT : Tendsto T l (𝓝 T₀)) (h0 : T₀ ≠ 0) :
      KernTends l (fun t => .stdPeriodic (γ t) (T t) ad) (.stdPeriodic γ₀ T₀ ad)
  | identity (ad : Option (List ℕ)) : KernTends l (fun _ => .identity ad) (.identity ad)
  | scaled {k : ι → Kern} {k₀ : Kern} {s : ι → ℝ} {s₀ : ℝ} (ad : Option (List ℕ)) (hk : KernTends l k k₀) (h : Tendsto s l (𝓝 s₀)) :
      KernTends l (fun t => .scaled (k t) (s t) ad) (.scaled k₀ s₀ ad)

/-- the numbers in `u t` tend to those in `fk`, everything else is the same: the kernels have the same types and dimensions and their parameters tend, so do the entries of
the coregionalization vectors and diagonals and the noise -/
structure ParametersTend {ι : Type} (l : Filter ι) (u : ι → FK) (fk : FK) : Prop where
  shape : ∀ t, (u t).D = fk.D ∧ (u t).Q = fk.Q ∧ (u t).P = fk.P ∧ (u t).numLmcTotal = fk.numLmcTotal ∧ (u t).numSlfmTotal = fk.numSlfmTotal ∧ (u t).activeDims = fk.activeDims ∧
    (u t).numLmc = fk.numLmc ∧ (u t).numIndep = fk.numIndep ∧ ∀ q, ((u t).coregVecs.getD q ⟨0, 0, []⟩).rows = (fk.coregVecs.getD q ⟨0, 0, []⟩).rows
  kernels : ∀ q < fk.Q, KernTends l (fun t => (u t).kernels.getD q (.identity none)) (fk.kernels.getD q (.identity none))
  vecs : ∀ q < fk.Q, ∀ r a, Tendsto (fun t => ((u t).coregVecs.getD q ⟨0, 0, []⟩).get r a) l (𝓝 ((fk.coregVecs.getD q ⟨0, 0, []⟩).get r a))
  diags : ∀ q < fk.Q, ∀ a, Tendsto (fun t => ((u t).coregDiags.getD q []).getD a 0) l (𝓝 ((fk.coregDiags.getD q []).getD a 0))
  noise : ∀ a < fk.D, Tendsto (fun t => (u t).noise.getD a 0) l (𝓝 (fk.noise.getD a 0))

/-- the predictions `r t` tend to `r₀`: every mean and every variance does -/
def PredictionsTend {ι : Type} (l : Filter ι) (D : ℕ) (lens : List ℕ) (r : ι → Predicted) (r₀ : Predicted) : Prop :=
  ∀ d < D, ∀ i < lens.getD d 0, Tendsto (fun t => ((r t).1.getD d []).getD i 0) l (𝓝 ((r₀.1.getD d []).getD i 0)) ∧
    Tendsto (fun t => ((r t).2.getD d []).getD i 0) l (𝓝 ((r₀.2.getD d []).getD i 0))

end Verif
