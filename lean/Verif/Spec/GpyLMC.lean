import Verif.Model.GpyLMC
import Verif.Spec.SkiAccuracy

/-! What is expected of `GPyLMC`: the exact Gaussian process of the LMC model. -/

namespace Verif

/-- `k'` is `k` with other values of the parameters that GPy optimizes: the lengthscale and, for periodic kernels, the period -/
inductive GpyKern.Tunes : GpyKern → GpyKern → Prop
  | rbf (v l l' : ℝ) (ad : Option (List ℕ)) : GpyKern.Tunes (.rbf v l ad) (.rbf v l' ad)
  | matern32 (v l l' : ℝ) (ad : Option (List ℕ)) : GpyKern.Tunes (.matern32 v l ad) (.matern32 v l' ad)
  | stdPeriodic (v l l' T T' : ℝ) (ad : Option (List ℕ)) : GpyKern.Tunes (.stdPeriodic v l T ad) (.stdPeriodic v l' T' ad)

/-- what `optimize` may do to a term: any values of the same shape -/
structure GpyTerm.Tunes (t t' : GpyTerm) : Prop where
  kern : t.kern.Tunes t'.kern
  shape : t'.W.rows = t.W.rows ∧ t'.W.cols = t.W.cols ∧ t'.kappa.length = t.kappa.length

/-- an object constructed from the data `Xs`, `Ys`, the kernels and ranks, after any number of calls of `optimize` (gpy_lmc.py 72-73): the data are those of
the constructor, the parameters have any values -/
def GPyLMC.From (o : GPyLMC) (Xs Ys : List (NDArr ℝ)) (kernels : List Kern) (ranks : List ℕ) : Prop :=
  ∃ st o₀, gpyLMCNew st Xs Ys kernels ranks = .ok o₀ ∧ o.gp = o₀.gp ∧ o.rows = o₀.rows ∧ o.index = o₀.index ∧ o.y = o₀.y ∧
    o.noise.length = o₀.noise.length ∧ List.Forall₂ GpyTerm.Tunes o₀.terms o.terms

/-- positive parameters (and periods that are not tiny) -/
def GpyKern.Positive : GpyKern → Prop
  | .rbf _ l _ => 0 < l
  | .matern32 _ l _ => 0 < l
  | .stdPeriodic _ l T _ => 0 < l ∧ Real.exp (-200) < T

/-- the constraints GPy keeps: positive lengthscales, periods and noise, non-negative `kappa` -/
structure GPyLMC.Proper (o : GPyLMC) : Prop where
  kern : ∀ t ∈ o.terms, t.kern.Positive
  kappa : ∀ t ∈ o.terms, ∀ v ∈ t.kappa, 0 ≤ v
  noise : ∀ v ∈ o.noise, 0 < v

/-- the LMC model `fk` has the kernels and parameter values of `o`: term by term the same function of the distance in the same dimensions, `A_q = W_qᵀ`, the same
`kappa_q`, and the same noise -/
structure FK.SameAs (fk : FK) (o : GPyLMC) : Prop where
  terms : fk.Q = o.terms.length
  func : ∀ q t, o.terms[q]? = some t → ∀ r, (fk.kernels.getD q (.identity none)).doc r = t.kern.formula r
  dims : ∀ q t, o.terms[q]? = some t → fk.kdims q = t.kern.columns
  vecs : ∀ q t, o.terms[q]? = some t → (fk.coregVecs.getD q ⟨0, 0, []⟩).rows = t.W.cols ∧
    ∀ r a, r < t.W.cols → a < t.W.rows → (fk.coregVecs.getD q ⟨0, 0, []⟩).get r a = t.W.get a r
  kappa : ∀ q t, o.terms[q]? = some t → fk.coregDiags.getD q [] = t.kappa
  noise : fk.noise = o.noise

/-- the LMC model with `1e-8` more noise for every output -/
noncomputable def FK.jittered (fk : FK) : FK := { fk with noise := fk.noise.map (· + 1 / 10 ^ 8) }

/-- the conditional variance of output `a` at `x`, at least `1e-15`, plus the noise of a new observation -/
noncomputable def FK.gpyVar (fk : FK) (Xs : List (Arr2 ℝ)) (a : ℕ) (x : ℕ → ℝ) : ℝ :=
  max (fk.cov a a x x - fk.crossCov Xs a x ⬝ᵥ (fk.jittered.covMat Xs)⁻¹.mulVec (fk.crossCov Xs a x)) (1 / 10 ^ 15) + fk.noise.getD a 0

end Verif
