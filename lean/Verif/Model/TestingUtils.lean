import Verif.Model.Toeplitz
import Verif.Model.Likelihood
import Mathlib.Data.List.Sort
import Mathlib.LinearAlgebra.Matrix.NonsingularInverse
import Mathlib.Analysis.SpecialFunctions.Exp

/-!
`runlmc/util/testing_utils.py` and `smallest_eig` of `runlmc/util/numpy_convenience.py`. Random draws are arguments: `np.random.rand()` is any number
in `[0, 1)`. `run_main` (96-158) is not modelled: it parses the command line and prints, and nothing in the repository calls it. `RandomTest` (35-58)
seeds the generators, whose draws are arguments here.
-/

namespace Verif

/-- `smallest_eig(top)`, numpy_convenience.py 72-82. `la.eigvalsh` is the exact set of eigenvalues; `min()` of no eigenvalues is a ValueError. -/
noncomputable def smallestEig (top : List ℝ) : Except PyErr ℝ :=
  if top.length = 1 then .ok (top.getD 0 0)
  else if top.length = 0 then .error .valueError
  else .ok (sInf {μ : ℝ | ∃ v : ℕ → ℝ, (∃ i < top.length, v i ≠ 0) ∧
    ∀ i < top.length, ∑ j ∈ Finset.range top.length, (laToeplitz top).get i j * v j = μ * v i})

/-- `while smallest_eig(top) < 0: top = body(top)`: how such a loop ends. A loop that does not end has no outcome. -/
inductive EigLoop (body : List ℝ → List ℝ) : List ℝ → Except PyErr (List ℝ) → Prop where
  | fail {top e} (h : smallestEig top = .error e) : EigLoop body top (.error e)
  | stop {top s} (h : smallestEig top = .ok s) (hs : ¬ s < 0) : EigLoop body top (.ok top)
  | step {top s r} (h : smallestEig top = .ok s) (hs : s < 0) (hr : EigLoop body (body top) r) : EigLoop body top r

/-- `poor_cond_toep(n)`, testing_utils.py 61-72, with `u` the number drawn: how the call ends -/
def PoorCondToep (n : ℕ) (u : ℝ) : Except PyErr (List ℝ) → Prop :=
  let top := (vmk n fun i => (i : ℝ)).reverse.map (· * (u + 1e-3))
  EigLoop (fun top => top.set 0 (top.getD 0 0 * 2)) top

/-- `random_toep(n)`, testing_utils.py 75-83, with `us` the `n` numbers drawn: how the call ends. `top[::-1].sort()` sorts a reversed view in place. -/
def RandomToep (us : List ℝ) : Except PyErr (List ℝ) → Prop :=
  let top := us.map fun u => |u|
  let top := (top.reverse.insertionSort (· ≤ ·)).reverse
  EigLoop (fun top => top.set 0 (top.getD 0 0 + 1)) top

/-- `exp_decr_toep(n)`, testing_utils.py 86-93 -/
noncomputable def expDecrToep (n : ℕ) (u : ℝ) : List ℝ := vmk n fun i => Real.exp (-u * i)

/-- `rand_pd(n)`, testing_utils.py 161-168, with `A` the numbers drawn -/
noncomputable def randPd (n : ℕ) (A : Arr2 ℝ) : Arr2 ℝ :=
  let A := Arr2.of n n fun i j => (A.get i j + A.T.get i j) / 2
  let D := Arr2.of n n fun i j => if i = j then (∑ k ∈ Finset.range n, |A.get i k|) + 1 else 0
  A.add D

/-- `SingleGradOptimizer.opt(x_init, fp=fp)`, testing_utils.py 183-195: `gradient_observed` and `x_opt` -/
noncomputable def singleGradOpt (L : ℝ) (fp : List ℝ → List ℝ) (xInit : List ℝ) : List ℝ × List ℝ :=
  let gradientObserved := (fp xInit).map fun g => -g
  (gradientObserved, List.zipWith (· + ·) xInit (gradientObserved.map (· / L)))

/-- the leading `k × k` part of the symmetric Toeplitz matrix with top row `c` -/
noncomputable def leading (c : List ℝ) (k : ℕ) : Matrix (Fin k) (Fin k) ℝ := fun i j => (laToeplitz c).get i j

open Classical in
/-- `la.solve_toeplitz(c, b)` for one right-hand side (scipy contract): Levinson's recursion needs every leading principal minor to be nonzero and
raises LinAlgError otherwise; a shape mismatch is a ValueError. -/
noncomputable def solveToeplitz (c b : List ℝ) : Except PyErr (List ℝ) :=
  if c.length ≠ b.length then .error .valueError
  else if ∃ k, k ≤ c.length ∧ (leading c k).det = 0 then .error .linAlgError
  else .ok (vmk c.length fun i => if hi : i < c.length then ((leading c c.length)⁻¹.mulVec fun j => b.getD j 0) ⟨i, hi⟩ else 0)

/-- `la.solve_toeplitz(c, B)` for a 2-D right-hand side: column by column -/
noncomputable def solveToeplitz2 (c : List ℝ) (B : Arr2 ℝ) : Except PyErr (Arr2 ℝ) := do
  let cols ← mapExcept (fun j => solveToeplitz c (B.col j)) (List.range B.cols)
  return Arr2.of B.rows B.cols fun i j => (cols.getD j []).getD i 0

/-- the 1-D array a kernel value is; the checks of the consumers (`la.toeplitz`, `check_finite`) raise ValueError on NaN -/
def topOf : KVal → Except PyErr (List ℝ)
  | .nan => .error .valueError
  | .arr a => .ok a.data

/-- `BasicModel`, testing_utils.py 198-204: `dists` is a 1-D array -/
structure BasicModel where
  dists : List ℝ
  Y : List ℝ
  kern : Kern

open Classical in
/-- `BasicModel.log_likelihood`, testing_utils.py 206-215 (the prints are left out). `slogdet` gives the sign and the logarithm of the absolute value of the
determinant. -/
noncomputable def BasicModel.logLikelihood (m : BasicModel) : Except PyErr ℝ := do
  let v ← m.kern.fromDist (.arr (NDArr.vec m.dists))
  let kTop ← topOf v
  let kinvY ← solveToeplitz kTop m.Y
  let det := Matrix.det fun i j : Fin kTop.length => (laToeplitz kTop).get i j + 1e-10 * if i = j then 1 else 0
  if ¬ 0 < det then .error .assertionError
  else return -0.5 * vdot m.Y kinvY - 0.5 * Real.log |det|

/-- one round of the loop of `BasicModel.parameters_changed`, testing_utils.py 224-229 -/
noncomputable def BasicModel.gradientEntry (kTop a : List ℝ) (grad : KVal) : Except PyErr ℝ := do
  let g ← topOf grad
  let dKdt := laToeplitz g
  let kinvDKdt ← solveToeplitz2 kTop dKdt
  let dKa := dKdt.dotv a
  let trace := ∑ i ∈ Finset.range a.length, (a.getD i 0 * dKa.getD i 0 - kinvDKdt.get i i)
  return 0.5 * trace

/-- `BasicModel.parameters_changed`, testing_utils.py 217-231: the gradients handed to the kernel's parameters -/
noncomputable def BasicModel.parametersChanged (m : BasicModel) : Except PyErr (List ℝ) := do
  let v ← m.kern.fromDist (.arr (NDArr.vec m.dists))
  let kTop ← topOf v
  let a ← solveToeplitz kTop m.Y
  let allGrad ← m.kern.kernelGradient (.arr (NDArr.vec m.dists))
  let likelihoodGrad ← mapExcept (BasicModel.gradientEntry kTop a) allGrad
  m.kern.updateGradient likelihoodGrad

end Verif
