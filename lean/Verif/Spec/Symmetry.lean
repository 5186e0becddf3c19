import Verif.Spec.LLGPState

/-! What it means to state the same problem in other units or in other coordinates. -/

namespace Verif

/-! ### other units for the outputs -/

/-- `σ d` gives the factor and the offset of the new unit of output `d` (as in `°F = 1.8 °C + 32`) -/
abbrev Units := ℕ → ℝ × ℝ

/-- all factors are positive -/
def Units.Positive (σ : Units) : Prop := ∀ d, 0 < (σ d).1

/-- a value in the new unit of output `d` -/
noncomputable def Units.value (σ : Units) (d : ℕ) (y : ℝ) : ℝ := (σ d).1 * y + (σ d).2

/-- a variance in the new unit of output `d` -/
noncomputable def Units.variance (σ : Units) (d : ℕ) (v : ℝ) : ℝ := (σ d).1 ^ 2 * v

/-- the observations in the new units -/
noncomputable def Units.data (σ : Units) (Ys : List (NDArr ℝ)) : List (NDArr ℝ) := Ys.mapIdx fun d Y => ⟨Y.shape, Y.data.map (σ.value d)⟩

/-- an operation with observations in the new units -/
noncomputable def Units.op (σ : Units) : Op → Op
  | .new a e => .new { a with Ys := σ.data a.Ys } e
  | op => op

/-- means and variances in the new units -/
noncomputable def Units.predicted (σ : Units) (p : Predicted) : Predicted :=
  (p.1.mapIdx fun d l => l.map (σ.value d), p.2.mapIdx fun d l => l.map (σ.variance d))

/-- an answer in the new units: predictions and quantiles are numbers with units, the others are not -/
noncomputable def Units.answer (σ : Units) : Answer → Answer
  | .predicted p => .predicted (σ.predicted p)
  | .quantiles q => .quantiles (q.mapIdx fun d A => ⟨A.rows, A.cols, A.data.map (σ.value d)⟩)
  | x => x

/-- all models are created with `normalize=True`, for outputs with at least one observation each -/
def Op.Normalizes : Op → Prop
  | .new a _ => a.normalize = true ∧ ∀ Y ∈ a.Ys, Y.data ≠ []
  | _ => True

/-! ### another origin for the inputs -/

/-- points `X`, one per row, moved by `t` -/
noncomputable def Arr2.moved (t : ℕ → ℝ) (X : Arr2 ℝ) : Arr2 ℝ := Arr2.of X.rows X.cols fun i c => X.get i c + t c

/-- an array of points (one-dimensional arrays are points on the line) moved by `t` -/
noncomputable def NDArr.moved (t : ℕ → ℝ) (X : NDArr ℝ) : NDArr ℝ :=
  match X.shape with
  | [n] => ⟨[n], vmk n fun i => X.data.getD i 0 + t 0⟩
  | [n, p] => ⟨[n, p], (Arr2.moved t ⟨n, p, X.data⟩).data⟩
  | _ => X

/-- bounds moved by `t`; one number for all dimensions can be moved when `t` is the same in all of them -/
def GridOpt.Moved (t : ℕ → ℝ) : GridOpt → GridOpt → Prop
  | .none, .none => True
  | .scalar v, .scalar v' => ∀ c, v' = v + t c
  | .vec v, .vec v' => v' = vmk v.length fun c => v.getD c 0 + t c
  | _, _ => False

/-- constructor arguments with inputs and bounds moved by `t` -/
structure LLGPArgs.Moved (t : ℕ → ℝ) (a a' : LLGPArgs) : Prop where
  arrays : ∀ X ∈ a.Xs, X.WF
  same : a' = { a with Xs := a'.Xs, lo := a'.lo, hi := a'.hi }
  Xs : a'.Xs = a.Xs.map (NDArr.moved t)
  lo : GridOpt.Moved t a.lo a'.lo
  hi : GridOpt.Moved t a.hi a'.hi

/-- the question at points moved by `t` -/
noncomputable def Query.moved (t : ℕ → ℝ) : Query → Query
  | .predict Qs => .predict (Qs.map (NDArr.moved t))
  | .quantiles Qs qs => .quantiles (Qs.map (NDArr.moved t)) qs
  | q => q

/-- the query points are arrays -/
def Query.WF : Query → Prop
  | .predict Qs => ∀ Q ∈ Qs, Q.WF
  | .quantiles Qs _ => ∀ Q ∈ Qs, Q.WF
  | _ => True

/-- the same operation with all training inputs, bounds and query points moved by `t` -/
def Op.Moved (t : ℕ → ℝ) : Op → Op → Prop
  | .new a e, .new a' e' => a.Moved t a' ∧ e' = e
  | .set i fk e, .set i' fk' e' => i' = i ∧ fk' = fk ∧ e' = e
  | .optimize i, .optimize i' => i' = i
  | .ask i q e, .ask i' q' e' => i' = i ∧ q.WF ∧ q' = q.moved t ∧ e' = e
  | _, _ => False

end Verif
