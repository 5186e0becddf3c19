import Verif.Spec.BenchData
import Verif.Spec.Reached
import Verif.Spec.SkiAccuracy

/-! Vocabulary for what happens when data are drawn from the model. -/

namespace Verif

/-- the covariances of the observations at the inputs `Xs`, in order of outputs, followed by a new observation of output `d` at `x`: the covariance of the LMC model and,
for each observation, noise of its own -/
noncomputable def FK.covNew (fk : FK) (Xs : List (Arr2 ℝ)) (d : ℕ) (x : ℕ → ℝ) (r s : ℕ) : ℝ :=
  let n := (Xs.map Arr2.rows).sum
  let out := fun r => if r < n then ownerOf (Xs.map Arr2.rows) r else d
  let point := fun r => if r < n then rowPoint Xs r else x
  fk.cov (out r) (out s) (point r) (point s) + if r = s then fk.noise.getD (out r) 0 else 0

/-- the observations `Y` at the inputs `Xs` and the new observation `new` of output `d` at `x` are drawn from the LMC model `fk`: jointly normal with its covariances -/
structure FK.Draws (fk : FK) (Xs : List (Arr2 ℝ)) (d : ℕ) (x : ℕ → ℝ) {Ω : Type} [MeasurableSpace Ω] (μ : MeasureTheory.Measure Ω) (Y : Ω → List (NDArr ℝ))
    (new : Ω → ℝ) : Prop where
  lens : ∀ ω, ((Y ω).map NDArr.data).map List.length = Xs.map Arr2.rows
  normal : JointlyNormal μ ((Xs.map Arr2.rows).sum + 1) (fun ω => ((Y ω).map NDArr.data).flatten ++ [new ω]) (fk.covNew Xs d x)

/-- a program with exact linear solves makes a model from the inputs `Xs`, the observations `Ys` and the bounds `lo` and `hi`, without normalisation and with grids of at
least `N` cells; the model has the parameters `fk` and, asked `q`, answers `ans`. If it is to predict in `'precompute'` mode, all its kernels read all dimensions. -/
def Replies (P : ℕ) (fk : FK) (Xs : List (NDArr ℝ)) (lo hi : GridOpt) (N : ℕ) (Ys : List (NDArr ℝ)) (q : Query) (ans : Answer) : Prop :=
  ∃ (sv : Solvers) (ops : List Op) (i : ℕ) (a : LLGPArgs) (m : LLGP) (e : Env), sv.Fit ∧ sv.Exact ∧ Held sv ops i a m ∧ e.Works ∧ a.Xs = Xs ∧ a.Ys = Ys ∧ a.normalize = false ∧
    a.lo = lo ∧ a.hi = hi ∧ a.Cells P N ∧ m.fk = fk ∧ (q ≠ .logLikelihood → m.prediction = .precompute → ∃ g, fk.activeDims = [g] ∧ g.1 = List.range P) ∧
    results sv (ops ++ [.ask i q e]) = results sv ops ++ [.ok ans]

/-- in each dimension, `x` is neither below nor above all inputs and given bounds -/
def Between (P : ℕ) (Xs : List (NDArr ℝ)) (lo hi : GridOpt) (x : ℕ → ℝ) : Prop :=
  ∀ c < P, (∃ u ∈ colValues (padded P Xs) lo c, u ≤ x c) ∧ ∃ v ∈ colValues (padded P Xs) hi c, x c ≤ v

end Verif
