import Verif.Spec.Relabelled
import Verif.Spec.Stretched

/-! What it means to list the dimensions of the inputs in another order. -/

namespace Verif

/-- the same points of dimension `P` (one-dimensional arrays are points on the line), coordinate `c` of each written as coordinate `ρ c` -/
def NDArr.Renumbered (P : ℕ) (ρ : ℕ → ℕ) (X X' : NDArr ℝ) : Prop :=
  X'.shape = X.shape ∧ X'.WF ∧ ∀ i < X.shape.headD 0, ∀ c < P, X'.data.getD (i * P + ρ c) 0 = X.data.getD (i * P + c) 0

/-- the same, for one array of points for each output -/
def RenumberedPoints (P : ℕ) (ρ : ℕ → ℕ) (Xs Xs' : List (NDArr ℝ)) : Prop := List.Forall₂ (NDArr.Renumbered P ρ) Xs Xs'

/-- a bound or a size of the grid: none, one for all dimensions, or one for each -/
def GridOpt.Renumbered (P : ℕ) (ρ : ℕ → ℕ) : GridOpt → GridOpt → Prop
  | .none, .none => True
  | .scalar v, .scalar v' => v' = v
  | .vec v, .vec v' => RelabelledList P ρ v v'
  | _, _ => False

/-- the same parameters for kernels that read the same dimensions under their new numbers -/
structure FK.Renumbered (ρ : ℕ → ℕ) (fk fk' : FK) : Prop where
  D : fk'.D = fk.D
  vecs : fk'.coregVecs = fk.coregVecs
  diags : fk'.coregDiags = fk.coregDiags
  noise : fk'.noise = fk.noise
  lmc : fk'.numLmcTotal = fk.numLmcTotal
  slfm : fk'.numSlfmTotal = fk.numSlfmTotal
  count : fk'.kernels.length = fk.kernels.length
  kernel : ∀ q < fk.Q, (fk'.kernels.getD q (.identity none)).setActiveDims none = (fk.kernels.getD q (.identity none)).setActiveDims none
  dims : ∀ q < fk.Q, (fk'.kdims q).Perm ((fk.kdims q).map ρ)

/-- constructor arguments with the dimensions of the inputs in another order -/
structure LLGPArgs.Renumbered (P : ℕ) (ρ : ℕ → ℕ) (a a' : LLGPArgs) : Prop where
  same : a' = { a with Xs := a'.Xs, lo := a'.lo, hi := a'.hi, m := a'.m, functionalKernel := a'.functionalKernel }
  Xs : RenumberedPoints P ρ a.Xs a'.Xs
  lo : GridOpt.Renumbered P ρ a.lo a'.lo
  hi : GridOpt.Renumbered P ρ a.hi a'.hi
  m : GridOpt.Renumbered P ρ a.m a'.m

/-- the same question, about the same points -/
def Query.Renumbered (P : ℕ) (ρ : ℕ → ℕ) : Query → Query → Prop
  | .predict Qs, .predict Qs' => RenumberedPoints P ρ Qs Qs'
  | .quantiles Qs qs, .quantiles Qs' qs' => RenumberedPoints P ρ Qs Qs' ∧ qs' = qs
  | .covariance, .covariance => True
  | .logDet, .logDet => True
  | .normalQuadratic, .normalQuadratic => True
  | .logLikelihood, .logLikelihood => True
  | _, _ => False

/-- kernels as first given, `None` for all dimensions or a list, and the same under the new numbers -/
def GivenKernels (ρ : ℕ → ℕ) (ks ks' : List Kern) : Prop := ks' = ks.map fun k => k.setActiveDims (k.activeDims.map (List.map ρ))

end Verif
