import Verif.Model.Gpy
import Verif.Spec.Gpy
import Verif.Spec.LinAlg
import Verif.Spec.Likelihood
import Mathlib.Algebra.Order.Floor.Defs
import Mathlib.LinearAlgebra.Matrix.PosDef

/-! `GPyLMC` with the regression model of GPy it holds (`runlmc/models/gpy_lmc.py`). What GPy computes is external and follows GPy's documentation: the exact
Gaussian process posterior for the covariance function it is given, one noise variance per output, `1e-8` added to the diagonal of the covariance of the
observations, and variances clipped from below at `1e-15` before the noise is added. The inducing-point model (`sparse > 0`) is not modelled. -/

namespace Verif

/-- one term of the sum, with the current values of its parameters: GPy's kernel and the `W` (outputs × rank) and `kappa` of its `Coregionalize` factor -/
structure GpyTerm where
  kern : GpyKern
  W : Arr2 ℝ
  kappa : List ℝ

/-- `B = W Wᵀ + diag(kappa)` (External: GPy's `Coregionalize`) -/
noncomputable def GpyTerm.B (t : GpyTerm) (a b : ℕ) : ℝ :=
  (∑ r ∈ Finset.range t.W.cols, t.W.get a r * t.W.get b r) + if a = b then t.kappa.getD a 0 else 0

/-- the column in which a row `ICM` gets holds the output index: `ICM(input_dim, …)` uses `active_dims=[input_dim]` for it, and `_construct_gpy` sets
`input_dim = 1` whatever the dimension of the inputs, gpy_lmc.py 112, 116-120 -/
def gpyIndexColumn : ℕ := 1

/-- `Coregionalize` reads its column as an integer. (External. A negative number would count from the end; an index beyond the number of outputs would be an
error. Here the one is 0 and the other has zero covariances.) -/
noncomputable def gpyIndex (x : List ℝ) : ℕ := ⌊x.getD gpyIndexColumn 0⌋₊

/-- the covariance of two rows: the product of the kernel's value and the entry of `B` (External: GPy's `Prod` of a kernel and `Coregionalize`, each of which
reads its own columns) -/
noncomputable def GpyTerm.cov (t : GpyTerm) (x z : List ℝ) : ℝ :=
  t.B (gpyIndex x) (gpyIndex z) * t.kern.formula (distOn t.kern.columns (fun c => x.getD c 0) fun c => z.getD c 0)

/-- A `GPyLMC` object: what `MultiGP` keeps, the rows, output indices and observations of the regression model, and the current parameters -/
structure GPyLMC where
  gp : MultiGP
  rows : Arr2 ℝ
  index : List ℕ
  y : List ℝ
  terms : List GpyTerm
  noise : List ℝ

/-- the sum of the terms, gpy_lmc.py 116-121 -/
noncomputable def GPyLMC.cov (o : GPyLMC) (x z : List ℝ) : ℝ := (o.terms.map fun t => t.cov x z).sum

/-- `1e-8`, which GPy's exact inference adds to the diagonal (External) -/
noncomputable def gpyJitter : ℝ := 1 / 10 ^ 8

/-- the smallest variance GPy's prediction returns before noise is added (External) -/
noncomputable def gpyMinVar : ℝ := 1 / 10 ^ 15

/-- the covariance of the observations (External) -/
noncomputable def GPyLMC.Ky (o : GPyLMC) (r s : ℕ) : ℝ :=
  o.cov (o.rows.row r) (o.rows.row s) + if r = s then o.noise.getD (o.index.getD r 0) 0 + gpyJitter else 0

/-- the covariances of the row `x` with those of the observations -/
noncomputable def GPyLMC.cross (o : GPyLMC) (x : List ℝ) : Fin o.rows.rows → ℝ := fun s => o.cov x (o.rows.row s)

/-- the mean at row `x` (External) -/
noncomputable def GPyLMC.mean (o : GPyLMC) (x : List ℝ) : ℝ :=
  o.cross x ⬝ᵥ (fnMatrix o.rows.rows o.rows.rows o.Ky)⁻¹.mulVec (toVec o.rows.rows o.y)

/-- the variance at row `x` of an observation with output index `d` (External) -/
noncomputable def GPyLMC.var (o : GPyLMC) (x : List ℝ) (d : ℕ) : ℝ :=
  max (o.cov x x - o.cross x ⬝ᵥ (fnMatrix o.rows.rows o.rows.rows o.Ky)⁻¹.mulVec (o.cross x)) gpyMinVar + o.noise.getD d 0

open Classical in
/-- `self.gpy_model`, a `GPCoregionalizedRegression`: without a positive definite covariance of the observations it raises LinAlgError (in truth after some
attempts with larger jitter); quantiles are those of the Gaussian with the mean and variance, `ppf` is `scipy.stats.norm.ppf`. (External.) -/
noncomputable def GPyLMC.gpyModel (ppf : ℝ → ℝ) (o : GPyLMC) : GpyModel where
  predict X mt := if (fnMatrix o.rows.rows o.rows.rows o.Ky).PosDef then
    .ok (Arr2.of X.rows 1 fun i _ => o.mean (X.row i), Arr2.of X.rows 1 fun i _ => o.var (X.row i) (mt.getD i 0)) else .error .linAlgError
  predictQuantiles X qs mt := if (fnMatrix o.rows.rows o.rows.rows o.Ky).PosDef then
    .ok (qs.map fun q => Arr2.of X.rows 1 fun i _ => o.mean (X.row i) + ppf (q / 100) * Real.sqrt (o.var (X.row i) (mt.getD i 0))) else .error .linAlgError

/-- the initial values GPy chooses: `W` (drawn at random) of each term, `kappa`, noise (External) -/
structure GpyStart where
  W : ℕ → ℕ → ℕ → ℝ
  kappa : ℝ
  noise : ℝ

/-- `GPyLMC.__init__` with `sparse=0`, gpy_lmc.py 58-61 and `_construct_gpy`, 106-125. The outputs are not normalized. GPy's `build_XY` stacks the inputs and
appends the column of output indices. -/
noncomputable def gpyLMCNew (st : GpyStart) (Xs Ys : List (NDArr ℝ)) (kernels : List Kern) (ranks : List ℕ) : Except PyErr GPyLMC := do
  let gp ← multiGPNew Xs Ys false
  let terms ← constructGpy kernels ranks
  let X ← vstackX gp.Xs
  let mt := npRepeat (List.range gp.Xs.length) (gp.Xs.map Arr2.rows)
  let rows ← hstackMeta X mt
  return ⟨gp, rows, mt, gp.Ys.flatten, terms.mapIdx fun q kr => ⟨kr.1, Arr2.of Ys.length kr.2 (st.W q), List.replicate Ys.length st.kappa⟩,
    List.replicate Ys.length st.noise⟩

/-- `GPyLMC.predict`, gpy_lmc.py 76-88 -/
noncomputable def GPyLMC.predict (ppf : ℝ → ℝ) (o : GPyLMC) (Qs : List (NDArr ℝ)) : Except PyErr (List (List ℝ) × List (List ℝ)) :=
  gpyPredict o.gp (o.gpyModel ppf) Qs

/-- `GPyLMC.predict_quantiles`, gpy_lmc.py 90-104 -/
noncomputable def GPyLMC.quantiles (ppf : ℝ → ℝ) (o : GPyLMC) (Qs : List (NDArr ℝ)) (qs : List ℝ) : Except PyErr (List (List (List ℝ))) :=
  gpyQuantiles o.gp (o.gpyModel ppf) Qs qs

/-- `GPyLMC.log_likelihood`, gpy_lmc.py 69-70 (External: the Gaussian log density of the observations) -/
noncomputable def GPyLMC.logLikelihood (o : GPyLMC) : ℝ :=
  -(1 / 2) * (o.rows.rows * Real.log (2 * Real.pi) + Real.log (fnMatrix o.rows.rows o.rows.rows o.Ky).det +
    toVec o.rows.rows o.y ⬝ᵥ (fnMatrix o.rows.rows o.rows.rows o.Ky)⁻¹.mulVec (toVec o.rows.rows o.y))

end Verif
