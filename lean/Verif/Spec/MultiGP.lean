import Verif.Model.MultiGP

/-! Specification vocabulary for normalisation, validation and prediction. -/

namespace Verif

/-- the mean of some numbers -/
noncomputable def meanOf (l : List ℝ) : ℝ := (∑ i ∈ Finset.range l.length, l.getD i 0) / l.length

/-- the (population) variance of some numbers -/
noncomputable def varOf (l : List ℝ) : ℝ := (∑ i ∈ Finset.range l.length, (l.getD i 0 - meanOf l) ^ 2) / l.length

/-- the (population) standard deviation of some numbers -/
noncomputable def sdOf (l : List ℝ) : ℝ := Real.sqrt (varOf l)

/-- `X` holds `n` points of dimension `P`; one-dimensional arrays hold points of dimension 1 -/
def PointsShape (X : NDArr ℝ) (n P : ℕ) : Prop := (X.shape = [n] ∧ P = 1) ∨ X.shape = [n, P]

/-- A well-formed dataset with inputs of dimension `P`: at least one output, as many input as output arrays, output arrays
one-dimensional and as long as their inputs, and no output with zero standard deviation (an empty output has none). -/
structure Dataset (Xs Ys : List (NDArr ℝ)) (P : ℕ) : Prop where
  nonempty : Xs ≠ []
  len : Xs.length = Ys.length
  shape : ∀ d < Xs.length, ∃ n, (Ys.getD d ⟨[], []⟩).shape = [n] ∧ PointsShape (Xs.getD d ⟨[], []⟩) n P
  spread : ∀ Y ∈ Ys, Y.data = [] ∨ sdOf Y.data ≠ 0

/-- a prediction with `lens[d]` means and variances for every output `d`, all variances non-negative -/
structure PredictionFits (p : Predicted) (lens : List ℕ) : Prop where
  means : p.1.map List.length = lens
  vars : p.2.map List.length = lens
  nonneg : ∀ v ∈ p.2, ∀ x ∈ v, 0 ≤ x

/-- the numbers of query points -/
def queryLens (Xs : List (NDArr ℝ)) : List ℕ := Xs.map fun X => X.shape.headD 0

/-- queries for every output, each an array of points of dimension `P` -/
def QueriesOK (D P : ℕ) (Xs : List (NDArr ℝ)) : Prop := Xs.length = D ∧ ∀ X ∈ Xs, ∃ n, PointsShape X n P

/-- a prediction, as functions of output and index -/
structure PredictedAs (p : Predicted) (D : ℕ) (lens : List ℕ) (m v : ℕ → ℕ → ℝ) : Prop where
  len : p.1.length = D ∧ p.2.length = D
  mlen : ∀ d < D, (p.1.getD d []).length = lens.getD d 0 ∧ (p.2.getD d []).length = lens.getD d 0
  entry : ∀ d < D, ∀ i < lens.getD d 0, (p.1.getD d []).getD i 0 = m d i ∧ (p.2.getD d []).getD i 0 = v d i

/-- scale and offset used for output `d` -/
noncomputable def normOf (gp : MultiGP) (d : ℕ) : ℝ × ℝ :=
  match gp.normalizer with
  | some norms => (((norms.getD d ⟨none, none⟩).std).getD 1, ((norms.getD d ⟨none, none⟩).mean).getD 0)
  | none => (1, 0)

/-- an instance as built by the constructor -/
structure GPReady (gp : MultiGP) : Prop where
  norms : ∀ norms, gp.normalizer = some norms → norms ≠ [] ∧ norms.length = gp.outputDim ∧ ∀ n ∈ norms, ∃ m s, n = ⟨some m, some s⟩ ∧ 0 ≤ s

/-- the padded queries -/
def padded (P : ℕ) (Xs : List (NDArr ℝ)) : List (Arr2 ℝ) := Xs.map fun X => ⟨X.shape.headD 0, P, X.data⟩

end Verif
