import Verif.Spec.Reached

/-! What the docstrings of `K`, `log_det_K`, `normal_quadratic` and `log_likelihood` say about the covariance they answer for. -/

namespace Verif

/-- if the program `ops` goes on to ask model `i` the question `q`, it is told `x` -/
def Tells (sv : Solvers) (ops : List Op) (i : ℕ) (q : Query) (e : Env) (x : Answer) : Prop :=
  results sv (ops ++ [.ask i q e]) = results sv ops ++ [.ok x]

/-- the interpolated covariance `K_SKI` of the observations of a model, with noise, as a table -/
noncomputable def LLGP.kSki (m : LLGP) : Arr2 ℝ := Arr2.of m.n m.n (m.fk.skiFull m.axesOf m.fk.extraOf m.gp.Xs)

/-- the exact covariance of the observations of a model, with noise, as a table -/
noncomputable def LLGP.kExact (m : LLGP) : Arr2 ℝ := Arr2.of m.n m.n (m.fk.fullCov m.gp.Xs)

/-- the log density of the observations of a model (in the units it works in) if they are centred and Gaussian with the covariance `K` -/
noncomputable def LLGP.densityWith (m : LLGP) (K : ℕ → ℕ → ℝ) : ℝ := gaussLogDensity m.n K m.y

/-- The documentation of the four questions, for a covariance `K`: `K()` is `K`, `log_det_K()` is `log det K`, `normal_quadratic()` is `yᵀ K⁻¹ y`, and
`log_likelihood()` is the log density of the observations. -/
structure AnswersFor (sv : Solvers) (ops : List Op) (i : ℕ) (m : LLGP) (e : Env) (K : ℕ → ℕ → ℝ) : Prop where
  covariance : Tells sv ops i .covariance e (.matrix (Arr2.of m.n m.n K))
  logDet : Tells sv ops i .logDet e (.extended (some (Real.log (fnMatrix m.n m.n K).det)))
  quadratic : Tells sv ops i .normalQuadratic e (.number (toVec m.n m.y ⬝ᵥ (fnMatrix m.n m.n K)⁻¹.mulVec (toVec m.n m.y)))
  likelihood : Tells sv ops i .logLikelihood e (.extended (some (m.densityWith K)))

end Verif
