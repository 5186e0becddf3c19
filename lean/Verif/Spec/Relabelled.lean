import Verif.Spec.Observations

/-! What it means to list the outputs in another order. -/

namespace Verif

/-- `π` permutes the numbers below `D` -/
def Permutes (D : ℕ) (π : ℕ → ℕ) : Prop := (∀ d < D, π d < D) ∧ ∀ a < D, ∀ b < D, π a = π b → a = b

/-- two lists with one entry for each of `D` outputs, where output `d` is called `π d` in the second -/
def RelabelledList {α : Type} (D : ℕ) (π : ℕ → ℕ) (l l' : List α) : Prop := l.length = D ∧ l'.length = D ∧ ∀ d < D, l'[π d]? = l[d]?

/-- the parameters of the model with the outputs in the other order: the columns of the coregionalization vectors, the entries of their diagonals and the noise move with
the outputs, the rest is the same -/
structure FK.Relabelled (π : ℕ → ℕ) (fk fk' : FK) : Prop where
  same : fk' = { fk with coregVecs := fk'.coregVecs, coregDiags := fk'.coregDiags, noise := fk'.noise }
  vecs : ∀ q < fk.Q, (fk'.coregVecs.getD q ⟨0, 0, []⟩).rows = (fk.coregVecs.getD q ⟨0, 0, []⟩).rows ∧
    ∀ r < (fk.coregVecs.getD q ⟨0, 0, []⟩).rows, ∀ d < fk.D, (fk'.coregVecs.getD q ⟨0, 0, []⟩).get r (π d) = (fk.coregVecs.getD q ⟨0, 0, []⟩).get r d
  diags : ∀ q < fk.Q, RelabelledList fk.D π (fk.coregDiags.getD q []) (fk'.coregDiags.getD q [])
  noise : RelabelledList fk.D π fk.noise fk'.noise

/-- constructor arguments with the outputs in another order -/
structure LLGPArgs.Relabelled (π : ℕ → ℕ) (a a' : LLGPArgs) : Prop where
  same : a' = { a with Xs := a'.Xs, Ys := a'.Ys, functionalKernel := a'.functionalKernel }
  Xs : RelabelledList a.Xs.length π a.Xs a'.Xs
  Ys : RelabelledList a.Xs.length π a.Ys a'.Ys

/-- the same question with the arrays of query points in the other order -/
def Query.Relabelled (D : ℕ) (π : ℕ → ℕ) : Query → Query → Prop
  | .predict Qs, .predict Qs' => RelabelledList D π Qs Qs'
  | .quantiles Qs qs, .quantiles Qs' qs' => RelabelledList D π Qs Qs' ∧ qs' = qs
  | .covariance, .covariance => True
  | .logDet, .logDet => True
  | .normalQuadratic, .normalQuadratic => True
  | .logLikelihood, .logLikelihood => True
  | _, _ => False

/-- The same answer with the outputs in the other order. In a covariance matrix the blocks move, where `lens` are the numbers of observations of the outputs in the first
order and `lens'` in the second. -/
def Answer.Relabelled (D : ℕ) (π : ℕ → ℕ) (lens lens' : List ℕ) : Answer → Answer → Prop
  | .predicted r, .predicted r' => RelabelledList D π r.1 r'.1 ∧ RelabelledList D π r.2 r'.2
  | .quantiles Q, .quantiles Q' => RelabelledList D π Q Q'
  | .matrix K, .matrix K' => (K.rows = lens.sum ∧ K.cols = lens.sum) ∧ (K'.rows = lens'.sum ∧ K'.cols = lens'.sum) ∧ ∀ a < D, ∀ b < D, ∀ i < lens.getD a 0, ∀ j < lens.getD b 0,
      K'.get (offset lens' (π a) + i) (offset lens' (π b) + j) = K.get (offset lens a + i) (offset lens b + j)
  | .extended x, .extended x' => x' = x
  | .number x, .number x' => x' = x
  | _, _ => False

/-- the same answer in the other order, or the same exception -/
def RelabelledResult (D : ℕ) (π : ℕ → ℕ) (lens lens' : List ℕ) : Except PyErr Answer → Except PyErr Answer → Prop
  | .ok x, .ok x' => x.Relabelled D π lens lens' x'
  | .error e, .error e' => e' = e
  | _, _ => False

end Verif
