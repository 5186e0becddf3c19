import Verif.Spec.LLGP
import Verif.Props.Likelihood

/-! Specification vocabulary for predictions. -/

namespace Verif

/-- query point `i` of output `d` -/
def queryPoint (P : ℕ) (Qs : List (NDArr ℝ)) (d i : ℕ) : ℕ → ℝ := fun c => (Qs.getD d ⟨[], []⟩).data.getD (i * P + c) 0

/-- the parameters of a model are sound: kernels positive semi-definite and without `Identity`, `kappa` non-negative, noise positive -/
structure FK.Sound (fk : FK) : Prop where
  kernels : ∀ q < fk.Q, fk.KernelPSD q
  plain : ∀ k ∈ fk.kernels, k.noIdentity
  kappa : ∀ q < fk.Q, ∀ a < fk.D, 0 ≤ (fk.coregDiags.getD q []).getD a 0
  noise : ∀ a < fk.D, 0 < fk.noise.getD a 0

/-- the SKI covariances of output `d` at point `p` of the grid of group `g` with the training observations -/
noncomputable def FK.gridToData (fk : FK) (axes : List (List ℝ)) (extra : List ℕ × List ℕ → ℝ) (g : List ℕ × List ℕ) (Xs : List (Arr2 ℝ)) (d p : ℕ)
    (s : Fin (Xs.map Arr2.rows).sum) : ℝ :=
  ∑ q ∈ Finset.range (gridSize axes), (fk.gridCov axes g.2 d (ownerOf (Xs.map Arr2.rows) s) p q +
    if d = ownerOf (Xs.map Arr2.rows) s ∧ p = q then extra g else 0) * gridWeight axes (coords g.1 (rowPoint Xs s)) q

/-- the part of the variance of output `d` at point `p` of the grid that the observations explain -/
noncomputable def FK.gridExplained (fk : FK) (axes : List ℕ → List (List ℝ)) (extra : List ℕ × List ℕ → ℝ) (g : List ℕ × List ℕ) (Xs : List (Arr2 ℝ)) (d p : ℕ) : ℝ :=
  fk.gridToData (axes g.1) extra g Xs d p ⬝ᵥ (fk.skiMat axes extra Xs)⁻¹.mulVec (fk.gridToData (axes g.1) extra g Xs d p)

/-- a model with inputs of dimension `P` that is up to date (`k` is its likelihood object), asked at the points `Qs`, using solvers that return
vectors of the right length -/
structure Asked (sv : Solvers) (m : LLGP) (P : ℕ) (k : LLKernel) (Qs : List (NDArr ℝ)) : Prop where
  fit : sv.Fit
  ok : m.OK P
  current : m.Current sv k
  queries : QueriesOK m.fk.D P Qs
  arrays : ∀ Q ∈ Qs, Q.WF

/-- every pool finishes its tasks -/
def Env.Works (e : Env) : Prop := ∀ len, (e.pool len).Works len

end Verif
