import Verif.Spec.MultiGP

/-! The data of the snippet of README.md: what is asked of it. -/

namespace Verif

/-- at least one output; for every output as many values as inputs, not all values equal (so there is one); and two inputs, of any outputs, that differ -/
structure ReadmeData (xss yss : List (List ℝ)) : Prop where
  outputs : 0 < xss.length
  both : yss.length = xss.length
  pairs : ∀ d < xss.length, (yss.getD d []).length = (xss.getD d []).length
  vary : ∀ y ∈ yss, sdOf y ≠ 0
  differ : ∃ x ∈ xss, ∃ a ∈ x, ∃ x' ∈ xss, ∃ b ∈ x', a < b

end Verif
