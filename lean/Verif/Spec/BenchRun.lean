import Verif.Model.BenchRun
import Verif.Spec.MultiGP
import Verif.Spec.Likelihood

/-! Vocabulary for the benchmark program. -/

namespace Verif

/-- the kernels of a type of the command line; the inverse width or the period is between 1 and 10 -/
def BenchKernel (kern : String) (k : Kern) : Prop :=
  ∃ g act, 1 ≤ g ∧ g ≤ 10 ∧ ((kern ∈ ["rbf", "mix"] ∧ k = .rbf g act) ∨ (kern ∈ ["periodic", "mix"] ∧ k = .stdPeriodic 1 g act) ∨
    (kern ∈ ["matern", "mix"] ∧ k = .matern32 g act))

/-- Draws as they come with probability one: gamma variates are positive, the inputs are not all equal, and neither are the observations of an output. -/
structure BenchDraws.Usual (r : BenchDraws) (a : BenchArgs) : Prop where
  diags : ∀ k < a.q.toNat, ∀ i < a.d.toNat, 0 < r.gammaDiags k i
  noise : ∀ i < a.d.toNat, 0 < r.gammaNoise i
  spread : ∃ i < a.d.toNat, ∃ j < a.nO.toNat, ∃ i' < a.d.toNat, ∃ j' < a.nO.toNat, r.xs i j < r.xs i' j'
  observations : ∀ i < a.d.toNat, sdOf (vmk a.nO.toNat (r.ys i)) ≠ 0

/-- the call of the constructor of a model with the data and kernel of the benchmark and grids of the default size -/
noncomputable def BenchSetup.args (b : BenchSetup) (metrics : Bool) (prediction : String) (nIt : ℕ) (tol : ℝ) : LLGPArgs where
  Xs := b.Xs.map Arr2.nd
  Ys := b.Ys.map NDArr.vec
  normalize := false
  lo := .none
  hi := .none
  m := .none
  metrics := metrics
  prediction := prediction
  traceIterations := nIt
  tolerance := tol
  functionalKernel := some b.fkern

/-- all entries of a gradient, kind by kind -/
def FKGrad.entries (G : FKGrad) : List ℝ := G.kernels.flatten ++ G.vecs.flatMap Arr2.data ++ G.diags.flatten ++ G.noise

/-- `G` holds the partial derivatives of the exact log likelihood, and nothing else -/
structure TrueGradient (fk : FK) (Xs : List (Arr2 ℝ)) (Ys : List (List ℝ)) (G : FKGrad) : Prop where
  nvecs : G.vecs.length = fk.Q
  nvec : ∀ q < fk.Q, (G.vecs.getD q ⟨0, 0, []⟩).WF ∧ (G.vecs.getD q ⟨0, 0, []⟩).rows = (fk.coregVecs.getD q ⟨0, 0, []⟩).rows ∧ (G.vecs.getD q ⟨0, 0, []⟩).cols = fk.D
  vecs : ∀ q < fk.Q, ∀ i < (fk.coregVecs.getD q ⟨0, 0, []⟩).rows, ∀ j < fk.D,
    HasDerivAt (fun t => (fk.setVec q i j t).logLik Xs Ys) ((G.vecs.getD q ⟨0, 0, []⟩).get i j) ((fk.coregVecs.getD q ⟨0, 0, []⟩).get i j)
  ndiags : G.diags.length = fk.Q ∧ ∀ q < fk.Q, (G.diags.getD q []).length = fk.D
  diags : ∀ q < fk.Q, ∀ i < fk.D, HasDerivAt (fun t => (fk.setDiag q i t).logLik Xs Ys) ((G.diags.getD q []).getD i 0) ((fk.coregDiags.getD q []).getD i 0)
  nkernels : G.kernels.length = fk.Q ∧ ∀ q < fk.Q, (G.kernels.getD q []).length = (fk.kernels.getD q (.identity none)).params.length
  kernels : ∀ q < fk.Q, ∀ j < (fk.kernels.getD q (.identity none)).params.length,
    HasDerivAt (fun t => (fk.setKern q j t).logLik Xs Ys) ((G.kernels.getD q []).getD j 0) ((fk.kernels.getD q (.identity none)).params.getD j 0)
  nnoise : G.noise.length = fk.D
  noise : ∀ i < fk.D, HasDerivAt (fun t => (fk.setNoise i t).logLik Xs Ys) (G.noise.getD i 0) (fk.noise.getD i 0)

/-- the relative error of `u` as an approximation of `v`, in the 1-norm and in the 2-norm -/
noncomputable def relErrors (u v : List ℝ) : ℝ × ℝ :=
  ((∑ i ∈ Finset.range v.length, |u.getD i 0 - v.getD i 0|) / ∑ i ∈ Finset.range v.length, |v.getD i 0|,
    Real.sqrt (∑ i ∈ Finset.range v.length, (u.getD i 0 - v.getD i 0) ^ 2) / Real.sqrt (∑ i ∈ Finset.range v.length, v.getD i 0 ^ 2))

end Verif
