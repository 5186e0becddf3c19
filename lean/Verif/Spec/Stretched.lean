import Verif.Spec.Observations

/-! What it means to measure the inputs in other units. -/

namespace Verif

/-- points `X`, one per row, with coordinate `c` multiplied by `s c` -/
noncomputable def Arr2.stretched (s : ℕ → ℝ) (X : Arr2 ℝ) : Arr2 ℝ := Arr2.of X.rows X.cols fun i c => X.get i c * s c

/-- an array of points (one-dimensional arrays are points on the line) with coordinate `c` multiplied by `s c` -/
noncomputable def NDArr.stretched (s : ℕ → ℝ) (X : NDArr ℝ) : NDArr ℝ :=
  match X.shape with
  | [n] => ⟨[n], vmk n fun i => X.data.getD i 0 * s 0⟩
  | [n, p] => ⟨[n, p], (Arr2.stretched s ⟨n, p, X.data⟩).data⟩
  | _ => X

/-- bounds in the other units; one number for all dimensions must be the same in all of them -/
def GridOpt.Stretched (s : ℕ → ℝ) : GridOpt → GridOpt → Prop
  | .none, .none => True
  | .scalar v, .scalar v' => ∀ c, v' = v * s c
  | .vec v, .vec v' => v' = vmk v.length fun c => v.getD c 0 * s c
  | _, _ => False

/-- the kernel for distances that are `c` times as long: inverse length scales and periods change, amplitudes do not -/
noncomputable def Kern.stretched (c : ℝ) : Kern → Kern
  | .rbf g a => .rbf (g / c ^ 2) a
  | .matern32 g a => .matern32 (g / c) a
  | .stdPeriodic g T a => .stdPeriodic g (T * c) a
  | .identity a => .identity a
  | .scaled k v a => .scaled (k.stretched c) v a

/-- the parameters for inputs in the other units: only the kernels differ, and each reads dimensions with a common factor -/
structure FK.Stretched (s : ℕ → ℝ) (fk fk' : FK) : Prop where
  same : fk' = { fk with kernels := fk'.kernels }
  count : fk'.kernels.length = fk.kernels.length
  kernel : ∀ q < fk.Q, ∃ c, 0 < c ∧ (∀ d ∈ fk.kdims q, s d = c) ∧ fk'.kernels.getD q (.identity none) = (fk.kernels.getD q (.identity none)).stretched c

/-- constructor arguments that differ in the units of the inputs and the bounds, and in the functional kernel -/
structure LLGPArgs.Stretched (s : ℕ → ℝ) (a a' : LLGPArgs) : Prop where
  same : a' = { a with Xs := a'.Xs, lo := a'.lo, hi := a'.hi, functionalKernel := a'.functionalKernel }
  Xs : a'.Xs = a.Xs.map (NDArr.stretched s)
  lo : GridOpt.Stretched s a.lo a'.lo
  hi : GridOpt.Stretched s a.hi a'.hi

/-- the question at points in the other units -/
noncomputable def Query.stretched (s : ℕ → ℝ) : Query → Query
  | .predict Qs => .predict (Qs.map (NDArr.stretched s))
  | .quantiles Qs qs => .quantiles (Qs.map (NDArr.stretched s)) qs
  | q => q

/-- the query points are one array of points of dimension `P` for each of `D` outputs -/
def Query.Fits (D P : ℕ) : Query → Prop
  | .predict Qs => QueriesOK D P Qs ∧ ∀ Q ∈ Qs, Q.WF
  | .quantiles Qs _ => QueriesOK D P Qs ∧ ∀ Q ∈ Qs, Q.WF
  | _ => True

end Verif
