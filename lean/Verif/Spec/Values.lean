import Verif.Spec.Observations

/-! Data sets whose observed values are combinations of those of others. -/

namespace Verif

/-- the same arguments except for the observed values -/
def LLGPArgs.OtherValues (a a' : LLGPArgs) : Prop := a' = { a with Ys := a'.Ys }

/-- the observed values of `c` are `s` times those of `a` plus `t` times those of `b`, observation by observation -/
def LLGPArgs.Combines (s t : ℝ) (a b c : LLGPArgs) : Prop :=
  ∀ d < a.Ys.length, ∀ i < (a.Ys.getD d ⟨[], []⟩).data.length,
    (c.Ys.getD d ⟨[], []⟩).data.getD i 0 = s * (a.Ys.getD d ⟨[], []⟩).data.getD i 0 + t * (b.Ys.getD d ⟨[], []⟩).data.getD i 0

end Verif
