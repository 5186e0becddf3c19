import Verif.Model.Base
import Mathlib.Analysis.SpecialFunctions.Complex.Circle
import Mathlib.Analysis.SpecialFunctions.Trigonometric.Basic

/-!
`numpy.fft` by the finite sums its documentation gives. (Trusted: numpy computes these sums.)
-/

namespace Verif
open Complex

/-- `exp(2πi d / n)` -/
noncomputable def unitRoot (n : ℕ) (d : ℤ) : ℂ := exp (2 * Real.pi * I * d / n)

/-- `np.fft.rfft(x, n)`: `x` cropped or zero-padded to length `n`, the first `n//2+1` DFT coefficients. -/
noncomputable def rfft (x : List ℝ) (n : ℕ) : List ℂ :=
  vmk (n / 2 + 1) fun k => ∑ j ∈ Finset.range n, (x.getD j 0 : ℂ) * unitRoot n (-(j * k : ℤ))

/-- `np.fft.irfft(X)` with the default output length `2*(len(X)-1)`: inverse DFT of the Hermitian
extension of the half spectrum `X` (imaginary parts of the two self-conjugate coefficients are ignored). -/
noncomputable def irfft (X : List ℂ) : List ℝ :=
  let n := 2 * (X.length - 1)
  vmk n fun j => ((1 / (n : ℂ)) * ∑ k ∈ Finset.range n,
    (if k ≤ n / 2 then X.getD k 0 else (starRingEnd ℂ) (X.getD (n - k) 0)) * unitRoot n (j * k : ℤ)).re

end Verif

namespace Verif
open Complex

/-- sum over all multi-indices of a shape -/
noncomputable def msum : List ℕ → (List ℕ → ℂ) → ℂ
  | [], f => f []
  | n :: s, f => ∑ i ∈ Finset.range n, msum s fun t => f (i :: t)

/-- `∏_p exp(2πi j_p k_p / s_p)` -/
noncomputable def charN : List ℕ → List ℕ → List ℕ → ℂ
  | m :: s, a :: j, b :: k => unitRoot m (a * b : ℤ) * charN s j k
  | _, _, _ => 1

/-- `∏_p exp(-2πi j_p k_p / s_p)` -/
noncomputable def charNneg : List ℕ → List ℕ → List ℕ → ℂ
  | m :: s, a :: j, b :: k => unitRoot m (-(a * b : ℤ)) * charNneg s j k
  | _, _, _ => 1

/-- the multi-index lies in the box of a shape -/
def inBox : List ℕ → List ℕ → Prop
  | [], [] => True
  | n :: s, i :: t => i < n ∧ inBox s t
  | _, _ => False

instance decInBox : (s t : List ℕ) → Decidable (inBox s t)
  | [], [] => isTrue trivial
  | _ :: s, _ :: t => @instDecidableAnd _ _ _ (decInBox s t)
  | [], _ :: _ => isFalse id
  | _ :: _, [] => isFalse id

/-- entry of an array zero-padded (or cropped) to a bigger box -/
def NDArr.padGet (a : NDArr ℝ) (idx : List ℕ) : ℝ := if inBox a.shape idx then a.get idx else 0

/-- `np.fft.rfftn(a, s)`: the array zero-padded to shape `s`, the multi-dimensional DFT with only the
first `s[-1]//2+1` coefficients along the last axis. `s` is non-empty. -/
noncomputable def rfftn (a : NDArr ℝ) (s : List ℕ) : NDArr ℂ :=
  NDArr.of (s.dropLast ++ [s.getLastD 0 / 2 + 1]) fun k =>
    msum s fun j => (a.padGet j : ℂ) * charNneg s j k

/-- `np.fft.irfftn(X)` with default sizes: complex inverse DFT along the leading axes, then `irfft` along
the last one (output length `2*(X.shape[-1]-1)`). -/
noncomputable def irfftn (X : NDArr ℂ) : NDArr ℝ :=
  let lead := X.shape.dropLast
  let n := 2 * (X.shape.getLastD 0 - 1)
  let G := fun (j' : List ℕ) (k : ℕ) =>
    (1 / (lead.prod : ℂ)) * msum lead fun k' => X.get (k' ++ [k]) * charN lead j' k'
  NDArr.of (lead ++ [n]) fun j =>
    ((1 / (n : ℂ)) * ∑ k ∈ Finset.range n,
      (if k ≤ n / 2 then G j.dropLast k else (starRingEnd ℂ) (G j.dropLast (n - k)))
        * unitRoot n (j.getLastD 0 * k : ℤ)).re

end Verif
