import Verif.Spec.Built
import Verif.Spec.FK
import Verif.Spec.Kern
import Verif.Spec.BTTB
import Verif.Model.GridKernel
import Verif.Spec.Interp

/-! Specification vocabulary for the grid kernels. -/

namespace Verif

/-- `M` is an operator built from the library's classes (so `matvec`, `matmat`, `as_numpy` agree, see C01, C02) for the `n × c`
matrix with entries `A i j`. -/
structure IsMatrix (M : MatObj) (n c : ℕ) (A : ℕ → ℕ → ℝ) : Prop where
  built : Built M
  rows : M.rows = n
  cols : M.cols = c
  entry : ∀ i < n, ∀ j < c, M.asNumpy.get i j = A i j

/-- entry `(i, j)` of `∑_q B_q ⊗ K_q`, where `K_q` is the multi-level Toeplitz matrix with first row `tops[q]` on a grid with the
given axis sizes -/
noncomputable def lmcGridEntry (Bs : List (Arr2 ℝ)) (tops : List (List ℝ)) (sizes : List ℕ) (i j : ℕ) : ℝ :=
  ((Bs.zip tops).map fun Bt => Bt.1.get (i / sizes.prod) (j / sizes.prod) *
    Bt.2.getD (ravelDiff sizes (i % sizes.prod) (j % sizes.prod)) 0).sum

/-- The state of a kernel after `set_input_dim` (see C30), whatever the current parameter values: every group lists some
kernels in increasing order and the per-group counts are right. -/
structure FK.GroupsOK (fk : FK) : Prop where
  P : ∃ P, fk.P = some P ∧ 0 < P
  nodup : (fk.activeDims.map Prod.fst).Nodup
  group : ∀ g ∈ fk.activeDims, g.2 ≠ [] ∧ g.2.Pairwise (· < ·) ∧ ∀ q ∈ g.2, q < fk.Q
  lmc : ∀ g ∈ fk.activeDims, dictGet fk.numLmc g.1 = some (g.2.filter fun q => q < fk.numLmcTotal).length
  indep : ∀ g ∈ fk.activeDims, dictGet fk.numIndep g.1 = some (g.2.filter fun q => fk.numLmcTotal + fk.numSlfmTotal ≤ q).length
  members : ∀ g ∈ fk.activeDims, ∀ q < fk.Q, q ∈ g.2 ↔ (fk.kernels.getD q (.identity none)).activeDims = some g.1

/-- kernel `q` is a semiparametric (SLFM) one -/
def FK.IsSlfm (fk : FK) (q : ℕ) : Prop := fk.numLmcTotal ≤ q ∧ q < fk.numLmcTotal + fk.numSlfmTotal

/-- kernel `q` is an independent one -/
def FK.IsIndep (fk : FK) (q : ℕ) : Prop := fk.numLmcTotal + fk.numSlfmTotal ≤ q

/-- the coregionalization matrices `B_q` of the kernels `idxs` -/
noncomputable def FK.coregOf (fk : FK) (idxs : List ℕ) : List (Arr2 ℝ) := idxs.map fun q => fk.coregMats.getD q ⟨0, 0, []⟩

/-- the identity matrix -/
def delta (i j : ℕ) : ℝ := if i = j then 1 else 0

/-- what `GridKernel.__init__` has at hand for a group -/
structure GridInput (fk : FK) (ad idxs : List ℕ) (tops : List (List ℝ)) (sizes : List ℕ) : Prop where
  wf : fk.WF
  ok : fk.GroupsOK
  mem : (ad, idxs) ∈ fk.activeDims
  len : tops.length = idxs.length
  top : ∀ t ∈ tops, t.length = sizes.prod
  pos : 0 < sizes.prod
  dim : sizes ≠ []

/-- the output owning observation `i` when the outputs have `lens` observations -/
def ownerOf : List ℕ → ℕ → ℕ
  | [], _ => 0
  | l :: ls, i => if i < l then 0 else ownerOf ls (i - l) + 1

/-- What `gen_grid_kernel` is called with, for `n` observations: for every group `g` the distances `d g` of a non-empty grid and an
interpolation matrix `W g` (and its transpose) from the grid of all outputs to the observations. -/
structure GridSetup (fk : FK) (dists : List (List ℕ × NDArr ℝ)) (interp : List (List ℕ × (Arr2 ℝ × Arr2 ℝ))) (lens : List ℕ)
    (d : List ℕ → NDArr ℝ) (W : List ℕ → Arr2 ℝ) (n : ℕ) : Prop where
  wf : fk.WF
  ok : fk.GroupsOK
  valid : ∀ k ∈ fk.kernels, k.Valid
  lensD : lens.length = fk.D
  sum : lens.sum = n
  pos : 0 < n
  dist : ∀ g ∈ fk.activeDims, dictGet dists g.1 = some (d g.1) ∧ (d g.1).WF ∧ (d g.1).shape ≠ [] ∧ 0 < (d g.1).shape.prod
  interp : ∀ g ∈ fk.activeDims, dictGet interp g.1 = some (W g.1, (W g.1).T) ∧ (W g.1).rows = n ∧
    (W g.1).cols = fk.D * (d g.1).shape.prod

/-- entry `(p, q)` of `∑_{k in group} B_k ⊗ K_k` on the group's grid -/
noncomputable def groupGrid (fk : FK) (d : NDArr ℝ) (idxs : List ℕ) (p q : ℕ) : ℝ :=
  lmcGridEntry (fk.coregOf idxs) (idxs.map fun k => d.data.map (fk.kernels.getD k (.identity none)).doc) d.shape p q

/-- entry `(i, j)` of `W A Wᵀ` -/
noncomputable def sandwich (W : Arr2 ℝ) (A : ℕ → ℕ → ℝ) (i j : ℕ) : ℝ :=
  ∑ p ∈ Finset.range W.cols, ∑ q ∈ Finset.range W.cols, W.get i p * A p q * W.get j q

/-- Euclidean distance of two points with `P` coordinates -/
noncomputable def euclid (P : ℕ) (u v : List ℝ) : ℝ := Real.sqrt (∑ p ∈ Finset.range P, (u.getD p 0 - v.getD p 0) ^ 2)

/-- a non-empty equispaced axis -/
def GoodAxis (a : List ℝ) : Prop := a ≠ [] ∧ ∃ g0 h, Equispaced a g0 h

/-- the group's 'slfm' representation is chosen and adds an identity matrix -/
def Spoiled (fk : FK) (g : List ℕ × List ℕ) : Prop :=
  chooseKType fk g.1 = .ok .slfm ∧ ((∀ q ∈ g.2, fk.IsIndep q) ∨ ∀ q ∈ g.2, fk.IsSlfm q)

end Verif
