import Verif.Spec.SkiAccuracy
import Verif.Spec.LLGPState

/-! What it means for two models to be made from the same observations in another order, or for one to have more observations than the other. -/

namespace Verif

/-- the points at which output `d` was observed -/
def located (P : ℕ) (Xs : List (NDArr ℝ)) (d : ℕ) : List (List ℝ) := (List.range ((queryLens Xs).getD d 0)).map fun i => vmk P (queryPoint P Xs d i)

/-- the observations of output `d`: points and values -/
def observed (P : ℕ) (Xs Ys : List (NDArr ℝ)) (d : ℕ) : List (List ℝ × ℝ) :=
  (List.range ((queryLens Xs).getD d 0)).map fun i => (vmk P (queryPoint P Xs d i), (Ys.getD d ⟨[], []⟩).data.getD i 0)

/-- the same constructor arguments except that the observations of each output are given in another order -/
structure LLGPArgs.Reordered (P : ℕ) (a a' : LLGPArgs) : Prop where
  same : a' = { a with Xs := a'.Xs, Ys := a'.Ys }
  outputs : a'.Xs.length = a.Xs.length
  obs : ∀ d < a.Xs.length, (observed P a.Xs a.Ys d).Perm (observed P a'.Xs a'.Ys d)

/-- for every output, the points of `a` are among those of `a'`, repeated ones at least as often -/
structure LLGPArgs.Within (P : ℕ) (a a' : LLGPArgs) : Prop where
  outputs : a'.Xs.length = a.Xs.length
  points : ∀ d < a.Xs.length, (located P a.Xs d).Subperm (located P a'.Xs d)

/-- what the values of output `d` are divided by -/
noncomputable def LLGPArgs.scaleOf (a : LLGPArgs) (d : ℕ) : ℝ := if a.normalize then sdOf (a.Ys.getD d ⟨[], []⟩).data else 1

/-- what is subtracted from the values of output `d` -/
noncomputable def LLGPArgs.centreOf (a : LLGPArgs) (d : ℕ) : ℝ := if a.normalize then meanOf (a.Ys.getD d ⟨[], []⟩).data else 0

/-- the iterative solvers return exact solutions -/
def Solvers.Exact (sv : Solvers) : Prop := ∀ K n A tol, SquareOp K n A → IsUnit (fnMatrix n n A).det → ExactSolves sv K n A tol

/-- A question about a model with `D` outputs and inputs of dimension `P` whose answer does not list the observations: all but the covariance matrix. Query points are
one array for each output. -/
def Query.Plain (D P : ℕ) : Query → Prop
  | .predict Qs => QueriesOK D P Qs ∧ ∀ Q ∈ Qs, Q.WF
  | .quantiles Qs _ => QueriesOK D P Qs ∧ ∀ Q ∈ Qs, Q.WF
  | .covariance => False
  | .logDet => True
  | .normalQuadratic => True
  | .logLikelihood => True

end Verif
