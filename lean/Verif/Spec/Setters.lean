import Verif.Model.Setters

/-! Specification vocabulary for assignments to the parameters of a functional kernel. -/

namespace Verif

/-- numpy's broadcasting rule, on reversed shapes: dimensions are aligned at the end, each is 1 or that of the target, further ones are 1 -/
def Aligned : List ℕ → List ℕ → Prop
  | [], _ => True
  | s :: ss, [] => s = 1 ∧ Aligned ss []
  | s :: ss, t :: ts => (s = 1 ∨ s = t) ∧ Aligned ss ts

/-- an array of the first shape can be assigned to one of the second -/
def BroadcastsTo (shape target : List ℕ) : Prop := Aligned shape.reverse target.reverse

/-- the position of the entry that is read for an index of the target, on reversed shapes and indices: dimensions of length 1 are repeated -/
def readPos : List ℕ → List ℕ → ℕ
  | s :: ss, i :: is => (if s = 1 then 0 else i) + s * readPos ss is
  | _, _ => 0

/-- the entry of `v` that goes to index `idx` of the target -/
def NDArr.spread (v : NDArr ℝ) (idx : List ℕ) : ℝ := v.data.getD (readPos v.shape.reverse idx.reverse) 0

/-- the shape of an array of the kernel -/
def FK.shapeAt (fk : FK) : Target → List ℕ
  | .noise => [fk.noise.length]
  | .vec q => [(fk.coregVecs.getD q ⟨0, 0, []⟩).rows, (fk.coregVecs.getD q ⟨0, 0, []⟩).cols]
  | .diag q => [(fk.coregDiags.getD q []).length]

/-- an entry of an array of the kernel -/
def FK.entry (fk : FK) : Target → List ℕ → ℝ
  | .noise, [i] => fk.noise.getD i 0
  | .vec q, [i, j] => (fk.coregVecs.getD q ⟨0, 0, []⟩).get i j
  | .diag q, [i] => (fk.coregDiags.getD q []).getD i 0
  | _, _ => 0

/-- `idx` is an index of an array of this shape -/
def IndexOf (idx shape : List ℕ) : Prop := List.Forall₂ (· < ·) idx shape

/-- the arrays the kernel has -/
def FK.has (fk : FK) : Target → Prop
  | .noise => True
  | .vec q => q < fk.coregVecs.length
  | .diag q => q < fk.coregDiags.length

/-- the value an assignment has for an array -/
def Setting.value : Setting → Target → Option (NDArr ℝ)
  | .noise v, .noise => some v
  | .vecs vs, .vec q => vs[q]?
  | .diags vs, .diag q => vs[q]?
  | _, _ => none

/-- the value an array was given last -/
def lastGiven : List Setting → Target → Option (NDArr ℝ)
  | [], _ => none
  | s :: ss, t => (lastGiven ss t).or (s.value t)

/-- every value has a shape that can be assigned -/
def Setting.Fits (fk : FK) (s : Setting) : Prop := ∀ t v, fk.has t → s.value t = some v → BroadcastsTo v.shape (fk.shapeAt t)

/-- the kernels differ at most in the contents of the arrays -/
def FK.SameBut (fk fk' : FK) : Prop :=
  fk' = { fk with noise := fk'.noise, coregVecs := fk'.coregVecs, coregDiags := fk'.coregDiags } ∧
  fk'.coregVecs.length = fk.coregVecs.length ∧ fk'.coregDiags.length = fk.coregDiags.length ∧ ∀ t, fk'.shapeAt t = fk.shapeAt t

/-- the arrays that are parameters of a model: the noise, the vectors of LMC and SLFM kernels and the `kappa` of LMC kernels -/
def FK.Tuned (fk : FK) : Target → Prop
  | .noise => True
  | .vec q => q < fk.numLmcTotal + fk.numSlfmTotal
  | .diag q => q < fk.numLmcTotal

/-- the linked parameters are those of the constructor -/
def FK.Linked (fk : FK) : Prop := fk.linkedVecs = fk.numLmcTotal + fk.numSlfmTotal ∧ fk.linkedDiags = fk.numLmcTotal

/-- The assignment gives valid values: positive noise and `kappa` that are not negative; arrays that are not parameters (`kappa` of SLFM kernels and
independent GPs, the vectors of independent GPs) get the values they have. -/
def Setting.Proper (fk : FK) (s : Setting) : Prop := ∀ t v, fk.has t → s.value t = some v →
  (¬ fk.Tuned t → ∀ idx, IndexOf idx (fk.shapeAt t) → v.spread idx = fk.entry t idx) ∧
  (t = .noise → ∀ i < fk.D, 0 < v.spread [i]) ∧ (∀ q, t = .diag q → ∀ i < fk.D, 0 ≤ v.spread [i])

end Verif
