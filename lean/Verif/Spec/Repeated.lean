import Verif.Spec.Reached
import Verif.Spec.Observations

/-! Vocabulary for C109: measurements that were repeated at the same points. -/

namespace Verif

/-- In `a'` every observation of output `d` of `a` was measured `k d` times: measurement `j` is one of observation `f d j`, at the same point. Normalisation, grids and
prediction mode are the same, with the number of grid points given (by default it depends on the number of observations). -/
structure LLGPArgs.Repeats (P : ℕ) (k : ℕ → ℕ) (f : ℕ → ℕ → ℕ) (a a' : LLGPArgs) : Prop where
  options : a'.normalize = a.normalize ∧ a'.lo = a.lo ∧ a'.hi = a.hi ∧ a'.m = a.m ∧ a'.prediction = a.prediction
  size : ∀ c < P, a.m.at c ≠ none
  outputs : a'.Xs.length = a.Xs.length
  measured : ∀ d < a.Xs.length, ∀ j < (queryLens a'.Xs).getD d 0, f d j < (queryLens a.Xs).getD d 0 ∧ ∀ c < P, queryPoint P a'.Xs d j c = queryPoint P a.Xs d (f d j) c
  times : ∀ d < a.Xs.length, ∀ i < (queryLens a.Xs).getD d 0, ((Finset.range ((queryLens a'.Xs).getD d 0)).filter fun j => f d j = i).card = k d

/-- observation `i` of output `d` -/
def LLGPArgs.value (a : LLGPArgs) (d i : ℕ) : ℝ := (a.Ys.getD d ⟨[], []⟩).data.getD i 0

/-- all measurements of an observation gave the same value -/
def LLGPArgs.RepeatsValues (f : ℕ → ℕ → ℕ) (a a' : LLGPArgs) : Prop :=
  ∀ d < a.Xs.length, ∀ j < (queryLens a'.Xs).getD d 0, a'.value d j = a.value d (f d j)

/-- the values of `a` are the averages of the measurements -/
def LLGPArgs.AveragesValues (k : ℕ → ℕ) (f : ℕ → ℕ → ℕ) (a a' : LLGPArgs) : Prop :=
  ∀ d < a.Xs.length, ∀ i < (queryLens a.Xs).getD d 0, a.value d i = (∑ j ∈ (Finset.range ((queryLens a'.Xs).getD d 0)).filter (fun j => f d j = i), a'.value d j) / k d

/-- the same parameters except that the noise of output `d` is `k d` times as large -/
structure FK.NoiseTimes (k : ℕ → ℕ) (fk fk' : FK) : Prop where
  same : fk' = { fk with noise := fk'.noise }
  noise : ∀ d < fk.D, fk'.noise.getD d 0 = k d * fk.noise.getD d 0

/-- the same means, and variances that differ by the difference of the noise, in units of the outputs, unless they were cut off at zero -/
def Predicted.UpToNoise (D : ℕ) (lens : List ℕ) (extra : ℕ → ℝ) (r r' : Predicted) : Prop :=
  ∀ d < D, ∀ i < lens.getD d 0, (r'.1.getD d []).getD i 0 = (r.1.getD d []).getD i 0 ∧ (r.2.getD d []).getD i 0 ≤ (r'.2.getD d []).getD i 0 ∧
    (r'.2.getD d []).getD i 0 ≤ (r.2.getD d []).getD i 0 + extra d ∧ (0 < (r.2.getD d []).getD i 0 → (r'.2.getD d []).getD i 0 = (r.2.getD d []).getD i 0 + extra d)

end Verif
