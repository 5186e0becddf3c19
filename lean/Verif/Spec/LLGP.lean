import Verif.Spec.Iterative
import Verif.Spec.Interp
import Verif.Spec.MultiGP
import Verif.Model.LLGP

/-! Specification vocabulary for the models. -/

namespace Verif

/-- `k` moved to the nearest index of a list of length `len` -/
def clampTo (len : ℕ) (k : ℤ) : ℕ := (max 0 (min k (len - 1))).toNat

/-- Keys' cubic convolution weights of the point `s` on an equispaced grid: the weights of the four neighbours, those outside the grid moved to
its ends -/
noncomputable def keysWeight (grid : List ℝ) (s : ℝ) (j : ℕ) : ℝ :=
  let t := (s - grid.getD 0 0) / (grid.getD 1 0 - grid.getD 0 0)
  (([-1, 0, 1, 2] : List ℤ).map fun c => if clampTo grid.length (⌊t⌋ + c) = j then keys (t - (⌊t⌋ + c)) else 0).sum

/-- the weight of grid point `p` (row-major) of a product grid for the point `x`: the product of the weights along the axes -/
noncomputable def gridWeight : List (List ℝ) → (ℕ → ℝ) → ℕ → ℝ
  | [], _, _ => 1
  | a :: axes, x, p => keysWeight a (x 0) (p / (axes.map List.length).prod) * gridWeight axes (fun k => x (k + 1)) (p % (axes.map List.length).prod)

/-- the interpolation matrix of all outputs: the row of observation `r`, made at `pt r` for output `out r`, has the grid weights in the block of
columns of that output -/
noncomputable def interpEntry (axes : List (List ℝ)) (out : ℕ → ℕ) (pt : ℕ → ℕ → ℝ) (r j : ℕ) : ℝ :=
  if j / (axes.map List.length).prod = out r then gridWeight axes (pt r) (j % (axes.map List.length).prod) else 0

/-- the coordinates `ad` of `x` -/
def coords (ad : List ℕ) (x : ℕ → ℝ) : ℕ → ℝ := fun k => x (ad.getD k 0)

/-- the point of row `r` of the stacked inputs -/
def rowPoint (Xs : List (Arr2 ℝ)) (r : ℕ) : ℕ → ℝ :=
  pointOf Xs (ownerOf (Xs.map Arr2.rows) r) (innerIdx (Xs.map Arr2.rows) r)

/-- entry `(r, j)` of the interpolation matrix of the inputs `Xs` onto a grid over the dimensions `ad` -/
noncomputable def interpOf (ad : List ℕ) (axes : List (List ℝ)) (Xs : List (Arr2 ℝ)) : ℕ → ℕ → ℝ :=
  interpEntry axes (ownerOf (Xs.map Arr2.rows)) fun r => coords ad (rowPoint Xs r)

/-- the number of points of a product grid -/
def gridSize (axes : List (List ℝ)) : ℕ := (axes.map List.length).prod

/-- point `p` (row-major) of a product grid -/
def gridPoint : List (List ℝ) → ℕ → List ℝ
  | [], _ => []
  | a :: axes, p => a.getD (p / gridSize axes) 0 :: gridPoint axes (p % gridSize axes)

/-- the distance of two points of a product grid -/
noncomputable def gridDistance (axes : List (List ℝ)) (p q : ℕ) : ℝ := euclid axes.length (gridPoint axes p) (gridPoint axes q)

/-- what the kernels `idxs` contribute to the covariance of output `a` at grid point `p` and output `b` at grid point `q` -/
noncomputable def FK.gridCov (fk : FK) (axes : List (List ℝ)) (idxs : List ℕ) (a b p q : ℕ) : ℝ :=
  (idxs.map fun k => fk.B k a b * (fk.kernels.getD k (.identity none)).doc (gridDistance axes p q)).sum

/-- The interpolated (SKI) covariance of output `a` at `x` and output `b` at `z`: `∑_g w_g(x)ᵀ K_g w_g(z)` with the covariance `K_g` of the grid of
group `g`. `extra g` is added to the diagonal of `K_g`; it is 0 in the documented covariance. -/
noncomputable def FK.skiCov (fk : FK) (axes : List ℕ → List (List ℝ)) (extra : List ℕ × List ℕ → ℝ) (a b : ℕ) (x z : ℕ → ℝ) : ℝ :=
  (fk.activeDims.map fun g => ∑ p ∈ Finset.range (gridSize (axes g.1)), ∑ q ∈ Finset.range (gridSize (axes g.1)),
    gridWeight (axes g.1) (coords g.1 x) p * (fk.gridCov (axes g.1) g.2 a b p q + if a = b ∧ p = q then extra g else 0) *
      gridWeight (axes g.1) (coords g.1 z) q).sum

/-- the documented SKI covariance -/
def noExtra (_ : List ℕ × List ℕ) : ℝ := 0

open Classical in
/-- what the implementation adds to the diagonal of the grid covariance of a group (see C33, C34) -/
noncomputable def FK.extraOf (fk : FK) (g : List ℕ × List ℕ) : ℝ := if Spoiled fk g then 1 else 0

/-- entry `(r, s)` of the SKI covariance of all observations, with noise -/
noncomputable def FK.skiFull (fk : FK) (axes : List ℕ → List (List ℝ)) (extra : List ℕ × List ℕ → ℝ) (Xs : List (Arr2 ℝ)) (r s : ℕ) : ℝ :=
  let own := ownerOf (Xs.map Arr2.rows)
  fk.skiCov axes extra (own r) (own s) (rowPoint Xs r) (rowPoint Xs s) + if r = s then fk.noise.getD (own r) 0 else 0

/-- the covariances of output `a` at `x` with the training observations -/
noncomputable def FK.crossCov (fk : FK) (Xs : List (Arr2 ℝ)) (a : ℕ) (x : ℕ → ℝ) (s : Fin (Xs.map Arr2.rows).sum) : ℝ :=
  fk.cov a (ownerOf (Xs.map Arr2.rows) s) x (rowPoint Xs s)

/-- the SKI covariances of output `a` at `x` with the training observations -/
noncomputable def FK.skiCross (fk : FK) (axes : List ℕ → List (List ℝ)) (extra : List ℕ × List ℕ → ℝ) (Xs : List (Arr2 ℝ)) (a : ℕ) (x : ℕ → ℝ)
    (s : Fin (Xs.map Arr2.rows).sum) : ℝ :=
  fk.skiCov axes extra a (ownerOf (Xs.map Arr2.rows) s) x (rowPoint Xs s)

/-- the SKI covariance of the training observations -/
noncomputable def FK.skiMat (fk : FK) (axes : List ℕ → List (List ℝ)) (extra : List ℕ × List ℕ → ℝ) (Xs : List (Arr2 ℝ)) :
    Matrix (Fin (Xs.map Arr2.rows).sum) (Fin (Xs.map Arr2.rows).sum) ℝ :=
  fnMatrix (Xs.map Arr2.rows).sum (Xs.map Arr2.rows).sum (fk.skiFull axes extra Xs)

/-- the interpolated kernel `f` of the dimensions `ad`: `w(x)ᵀ F w(z)` with the values `F` of `f` on the grid -/
noncomputable def skiKernel (axes : List (List ℝ)) (ad : List ℕ) (f : ℝ → ℝ) (x z : ℕ → ℝ) : ℝ :=
  ∑ p ∈ Finset.range (gridSize axes), ∑ q ∈ Finset.range (gridSize axes),
    gridWeight axes (coords ad x) p * f (gridDistance axes p q) * gridWeight axes (coords ad z) q

/-- the log marginal likelihood with the SKI covariance -/
noncomputable def FK.skiLogLik (fk : FK) (axes : List ℕ → List (List ℝ)) (extra : List ℕ × List ℕ → ℝ) (Xs : List (Arr2 ℝ)) (Ys : List (List ℝ)) : ℝ :=
  gaussLogDensity (Xs.map Arr2.rows).sum (fk.skiFull axes extra Xs) Ys.flatten

/-- the conditional mean of output `a` at `x` given the observations, for the SKI covariance: `k_*ᵀ K⁻¹ y` -/
noncomputable def FK.skiMean (fk : FK) (axes : List ℕ → List (List ℝ)) (extra : List ℕ × List ℕ → ℝ) (Xs : List (Arr2 ℝ)) (Ys : List (List ℝ)) (a : ℕ)
    (x : ℕ → ℝ) : ℝ :=
  fk.skiCross axes extra Xs a x ⬝ᵥ (fk.skiMat axes extra Xs)⁻¹.mulVec (toVec (Xs.map Arr2.rows).sum Ys.flatten)

/-- the variance of a new observation of output `a` at `x` before seeing any data -/
noncomputable def FK.priorVar (fk : FK) (a : ℕ) (x : ℕ → ℝ) : ℝ := fk.cov a a x x + fk.noise.getD a 0

/-- the conditional variance of a new observation of output `a` at `x` given the observations: `k(x, x) + noise - k_*ᵀ K⁻¹ k_*` -/
noncomputable def FK.condVar (fk : FK) (Xs : List (Arr2 ℝ)) (a : ℕ) (x : ℕ → ℝ) : ℝ :=
  fk.priorVar a x - fk.crossCov Xs a x ⬝ᵥ (fk.covMat Xs)⁻¹.mulVec (fk.crossCov Xs a x)

/-! ### models -/

/-- what the constructor computes for a group of dimensions: axes of at least four equispaced points, the distances of the grid points and the
interpolation matrix of the training inputs -/
structure GroupGrid.OK (g : GroupGrid) (ad : List ℕ) (Xs : List (Arr2 ℝ)) : Prop where
  dim : ad.length = 1 ∨ ad.length = 2
  axes : g.axes.length = ad.length
  size : ∀ a ∈ g.axes, 4 ≤ a.length
  spacing : ∀ a ∈ g.axes, ∃ g0 h, 0 < h ∧ Equispaced a g0 h
  dists : gridDists g.axes = .ok g.dists
  W : g.W = Arr2.of (Xs.map Arr2.rows).sum (Xs.length * gridSize g.axes) (interpOf ad g.axes Xs)
  WT : g.WT = g.W.T

/-- A model for inputs of dimension `P` as the constructor leaves it (see C66), whatever valid parameter values it was given since. -/
structure LLGP.OK (m : LLGP) (P : ℕ) : Prop where
  gp : GPReady m.gp
  inputDim : m.gp.inputDim = P
  outputDim : m.gp.outputDim = m.fk.D
  ready : m.fk.Ready P
  groups : m.fk.GroupsOK
  data : DataOK m.fk.D P m.gp.Xs m.gp.Ys
  filled : ∀ X ∈ m.gp.Xs, 0 < X.rows
  keys : m.grids.map Prod.fst = m.fk.activeDims.map Prod.fst
  grid : ∀ g ∈ m.grids, g.2.OK g.1 m.gp.Xs

/-- the axes of the grid of a group of dimensions -/
def LLGP.axesOf (m : LLGP) (ad : List ℕ) : List (List ℝ) := ((dictGet m.grids ad).map GroupGrid.axes).getD []

/-- the number of observations -/
def LLGP.n (m : LLGP) : ℕ := (m.gp.Xs.map Arr2.rows).sum

/-- `k` is what an update with the current parameters leaves in `self.kernel`: the operators of `gen_grid_kernel` for these parameters, and the
solution that the solver returns for the observations. -/
structure LLGP.Current (sv : Solvers) (m : LLGP) (k : LLKernel) : Prop where
  kernel : m.kernel = some k
  built : genGridKernel m.fk m.dists m.interp m.lens = .ok (k.approx.K, k.grids)
  solved : ∃ lg, iterativeSolve sv k.approx.K m.y false true m.tol = .ok (.plain k.approx.alpha, lg)

/-! ### documented constructor arguments -/

/-- the value of an option for dimension `c` -/
def GridOpt.at (o : GridOpt) (c : ℕ) : Option ℝ :=
  match o with
  | .none => Option.none
  | .scalar v => Option.some v
  | .vec v => Option.some (v.getD c 0)

/-- `None`, one number if every kernel reads a single dimension, or a number per dimension -/
def GridOpt.Fits (o : GridOpt) (fk : FK) (P : ℕ) : Prop :=
  match o with
  | .none => True
  | .scalar _ => ∀ k ∈ fk.kernels, (dimsRead P k).length = 1
  | .vec v => v.length = P

/-- Constructor arguments as documented, for inputs of dimension `P`: a dataset in which no output is empty, a fresh functional kernel for as many
outputs with valid kernels reading one or two of the dimensions each, a known prediction method, grid sizes that are positive integers, and
no dimension in which all inputs (and the bounds, if given) coincide. -/
structure LLGPArgs.Documented (a : LLGPArgs) (P : ℕ) (fk : FK) : Prop where
  data : Dataset a.Xs a.Ys P
  arraysX : ∀ X ∈ a.Xs, X.WF
  arraysY : ∀ Y ∈ a.Ys, Y.WF
  filled : ∀ Y ∈ a.Ys, Y.data ≠ []
  kernel : a.functionalKernel = some fk
  fresh : fk.Fresh
  wf : fk.WF
  some : 0 < fk.Q
  outputs : fk.D = a.Xs.length
  valid : ∀ k ∈ fk.kernels, k.Valid
  dims : ∀ k ∈ fk.kernels, ((dimsRead P k).length = 1 ∨ (dimsRead P k).length = 2) ∧ ∀ c ∈ dimsRead P k, c < P
  mode : a.prediction ∈ ["on-the-fly", "precompute", "exact"]
  lo : a.lo.Fits fk P
  hi : a.hi.Fits fk P
  m : a.m.Fits fk P
  sizes : ∀ c < P, ∀ v, a.m.at c = .some v → ∃ k : ℕ, 0 < k ∧ v = k
  spread : ∀ c < P, ∃ X ∈ padded P a.Xs, ∃ i < X.rows, (∃ X' ∈ padded P a.Xs, ∃ i' < X'.rows, X.get i c < X'.get i' c) ∨
    (∃ l, a.lo.at c = .some l ∧ l < X.get i c) ∨ ∃ h, a.hi.at c = .some h ∧ X.get i c < h

end Verif
