import Verif.Spec.Predict

/-! Specification vocabulary for predictions outside the grids. -/

namespace Verif

/-- the distance of neighbouring points of an axis -/
def axisStep (axis : List ℝ) : ℝ := axis.getD 1 0 - axis.getD 0 0

/-- `s` lies more than a step below the first point of the axis -/
def Below (axis : List ℝ) (s : ℝ) : Prop := s < axis.getD 0 0 - axisStep axis

/-- `s` lies at least a step above the last point of the axis -/
def Above (axis : List ℝ) (s : ℝ) : Prop := axis.getD (axis.length - 1) 0 + axisStep axis ≤ s

/-- two points that every grid of the model sees at the same place: along every axis they have the same coordinate, or both are past the same end -/
def LLGP.SeenAlike (m : LLGP) (x x' : ℕ → ℝ) : Prop :=
  ∀ g ∈ m.fk.activeDims, ∀ k < (m.axesOf g.1).length, let a := (m.axesOf g.1).getD k []; let c := g.1.getD k 0
    x c = x' c ∨ (Below a (x c) ∧ Below a (x' c)) ∨ (Above a (x c) ∧ Above a (x' c))

end Verif
