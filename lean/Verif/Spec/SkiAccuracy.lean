import Verif.Spec.Predict

/-! Specification vocabulary for the accuracy of the interpolated covariance. -/

namespace Verif

/-- an axis with at least four equispaced points, at most `h` apart -/
def FineAxis (h : ℝ) (a : List ℝ) : Prop := 4 ≤ a.length ∧ ∃ g0 d, 0 < d ∧ d ≤ h ∧ Equispaced a g0 d

/-- `s` is between the second and the last but one point of the axis -/
def InsideAxis (a : List ℝ) (s : ℝ) : Prop := a.getD 1 0 ≤ s ∧ s ≤ a.getD (a.length - 2) 0

/-- the grid of every group of dimensions has one axis per dimension, all with spacing at most `h` -/
def FK.FineGrids (fk : FK) (h : ℝ) (axes : List ℕ → List (List ℝ)) : Prop :=
  ∀ g ∈ fk.activeDims, (axes g.1).length = g.1.length ∧ ∀ a ∈ axes g.1, FineAxis h a

/-- the coordinates of `x` are inside the grid of every group -/
def FK.Inside (fk : FK) (axes : List ℕ → List (List ℝ)) (x : ℕ → ℝ) : Prop :=
  ∀ g ∈ fk.activeDims, ∀ k < g.1.length, InsideAxis ((axes g.1).getD k []) (x (g.1.getD k 0))

/-- the coordinates of `x` are points of the grid of every group -/
def FK.OnGrid (fk : FK) (axes : List ℕ → List (List ℝ)) (x : ℕ → ℝ) : Prop :=
  ∀ g ∈ fk.activeDims, ∀ k < g.1.length, ∃ j < ((axes g.1).getD k []).length, x (g.1.getD k 0) = ((axes g.1).getD k []).getD j 0

/-- the values of column `c` of the inputs, and the bound given for it -/
def colValues (Xs : List (Arr2 ℝ)) (bound : GridOpt) (c : ℕ) : Set ℝ :=
  {x | (∃ X ∈ Xs, ∃ i < X.rows, X.get i c = x) ∨ bound.at c = some x}

/-- the number of grid cells asked for in column `c`; by default the average number of inputs per output -/
def cellsOf (Xs : List (Arr2 ℝ)) (m : GridOpt) (c k : ℕ) : Prop :=
  match m.at c with
  | none => k = (Xs.map Arr2.rows).sum / Xs.length
  | some v => v = k

/-- in each dimension, `x` is neither below nor above all training inputs and given bounds -/
def LLGPArgs.Surrounds (a : LLGPArgs) (P : ℕ) (x : ℕ → ℝ) : Prop :=
  ∀ c < P, (∃ u ∈ colValues (padded P a.Xs) a.lo c, u ≤ x c) ∧ ∃ v ∈ colValues (padded P a.Xs) a.hi c, x c ≤ v

/-- in no dimension do training inputs and given bounds spread over more than `w` -/
def LLGPArgs.Width (a : LLGPArgs) (P : ℕ) (w : ℝ) : Prop :=
  ∀ c < P, ∀ u ∈ colValues (padded P a.Xs) a.lo c, ∀ v ∈ colValues (padded P a.Xs) a.hi c, v - u ≤ w

/-- the grids have at least `N` cells in each dimension -/
def LLGPArgs.Cells (a : LLGPArgs) (P N : ℕ) : Prop := ∀ c < P, ∀ k, cellsOf (padded P a.Xs) a.m c k → N ≤ k

/-- the conditional mean of output `a` at `x` given the observations: `k_*ᵀ K⁻¹ y` -/
noncomputable def FK.condMean (fk : FK) (Xs : List (Arr2 ℝ)) (Ys : List (List ℝ)) (a : ℕ) (x : ℕ → ℝ) : ℝ :=
  fk.crossCov Xs a x ⬝ᵥ (fk.covMat Xs)⁻¹.mulVec (toVec (Xs.map Arr2.rows).sum Ys.flatten)

/-- `m` is an up-to-date model (`k` is its likelihood object) with the parameters `fk` and the observations `Ys` at `Xs`. Its grids have spacing at most `s`
and all training inputs are inside them. -/
structure Refined (sv : Solvers) (fk : FK) (P : ℕ) (Xs : List (Arr2 ℝ)) (Ys : List (List ℝ)) (s : ℝ) (m : LLGP) (k : LLKernel) : Prop where
  ok : m.OK P
  current : m.Current sv k
  params : m.fk = fk
  inputs : m.gp.Xs = Xs
  outputs : m.gp.Ys = Ys
  fine : fk.FineGrids s m.axesOf
  inside : ∀ r < (Xs.map Arr2.rows).sum, fk.Inside m.axesOf (rowPoint Xs r)

/-- parameters for which the exact model is well-posed and the interpolated one is documented: sound, without repeated dimensions in `active_dims`,
and no group of the kind described in C33 -/
structure FK.Regular (fk : FK) (P : ℕ) : Prop where
  ready : fk.Ready P
  groups : fk.GroupsOK
  sound : fk.Sound
  nodup : ∀ g ∈ fk.activeDims, g.1.Nodup
  clean : ∀ g ∈ fk.activeDims, ¬ Spoiled fk g

/-- `m` was made by the constructor from the arguments `a` and was possibly given other parameter values since -/
def LLGP.MadeFrom (m : LLGP) (P : ℕ) (a : LLGPArgs) : Prop :=
  ∃ fk m0, a.Documented P fk ∧ llgpInit a = .ok m0 ∧ m.gp = m0.gp ∧ m.grids = m0.grids ∧ m.fk.activeDims = m0.fk.activeDims

end Verif
