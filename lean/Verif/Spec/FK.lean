import Verif.Model.FunctionalKernel

/-! Specification vocabulary for `FunctionalKernel`. -/

namespace Verif

/-- a missing list means the empty list -/
def given {α : Type} (o : Option (List α)) : List α := o.getD []

/-- The documented requirements on the constructor arguments (functional_kernel.py 57-73), with omitted arguments meaning
none of that kind and an omitted index list meaning `0, 1, 2, …`. -/
structure FKArgs.Documented (a : FKArgs) : Prop where
  outputs : ∃ D, a.D = some D ∧ 1 ≤ D
  kernel : given a.lmcKernels ++ given a.slfmKernels ++ given a.indepGp ≠ []
  ranks : (given a.lmcRanks).length = (given a.lmcKernels).length
  positive : ∀ r ∈ given a.lmcRanks, 0 < r
  indices : given a.indepGpIndex = [] ∨ (given a.indepGpIndex).length = (given a.indepGp).length

/-- the output index of every independent kernel names an output (python allows negative indices) -/
def FKArgs.InRange (a : FKArgs) : Prop :=
  ∀ D, a.D = some D →
    (given a.indepGpIndex = [] → ((given a.indepGp).length : ℤ) ≤ D) ∧
    ∀ d ∈ given a.indepGpIndex, -D ≤ d ∧ d < D

/-- before any `set_input_dim` call -/
structure FK.Fresh (fk : FK) : Prop where
  P : fk.P = none
  activeDims : fk.activeDims = []
  numLmc : fk.numLmc = []
  numSlfm : fk.numSlfm = []
  numIndep : fk.numIndep = []
  counts : fk.numLmcTotal + fk.numSlfmTotal ≤ fk.kernels.length

/-- the set of input dimensions kernel `k` reads, in increasing order -/
def dimsRead (P : ℕ) (k : Kern) : List ℕ :=
  match k.activeDims with
  | none => List.range P
  | some l => l.insertionSort (· ≤ ·)

/-- the kernels reading exactly the dimensions `key`, in order -/
def FK.groupOf (fk : FK) (P : ℕ) (key : List ℕ) : List ℕ :=
  (List.range fk.kernels.length).filter fun i => dimsRead P (fk.kernels.getD i (.identity none)) = key

/-- Shapes of the parameters, and what optimisation never changes: independent kernels have zero coregionalization vectors, SLFM
kernels zero `kappa`. -/
structure FK.WF (fk : FK) : Prop where
  Dpos : 0 < fk.D
  vecs : fk.coregVecs.length = fk.kernels.length
  diags : fk.coregDiags.length = fk.kernels.length
  noise : fk.noise.length = fk.D
  counts : fk.numLmcTotal + fk.numSlfmTotal ≤ fk.kernels.length
  vec : ∀ q < fk.kernels.length, (fk.coregVecs.getD q ⟨0, 0, []⟩).WF ∧ (fk.coregVecs.getD q ⟨0, 0, []⟩).cols = fk.D ∧
    0 < (fk.coregVecs.getD q ⟨0, 0, []⟩).rows
  diag : ∀ q < fk.kernels.length, (fk.coregDiags.getD q []).length = fk.D
  slfm : ∀ q, fk.numLmcTotal ≤ q → q < fk.numLmcTotal + fk.numSlfmTotal → ∀ i, (fk.coregDiags.getD q []).getD i 0 = 0
  slfmRank : ∀ q, fk.numLmcTotal ≤ q → q < fk.numLmcTotal + fk.numSlfmTotal → (fk.coregVecs.getD q ⟨0, 0, []⟩).rows = 1
  indep : ∀ q, fk.numLmcTotal + fk.numSlfmTotal ≤ q → ∀ i j, (fk.coregVecs.getD q ⟨0, 0, []⟩).get i j = 0

end Verif
