import Verif.Model.Toeplitz
import Mathlib.Analysis.SpecialFunctions.Pow.NNReal

/-! `runlmc/linalg/shur.py` -/

namespace Verif

/-- shur.py 20-31: the loop `for i in range(1, n)` with `k` iterations left. `G0`, `G1` are the two rows of `G`, `C` the
`n × n` result, all as index functions (entries outside the arrays are never read). Returns `C` and whether the
loop broke (it then prints 'rank def'). IEEE corner cases: `0/0` is NaN, the comparison is false and NaN reaches the
result (`none`); `x/0` for `x ≠ 0` is infinite, hence `abs(rho) >= 1`. -/
noncomputable def shurLoop : ℕ → ℕ → (ℕ → ℝ) → (ℕ → ℝ) → (ℕ → ℕ → ℝ) → Option ((ℕ → ℕ → ℝ) × Bool)
  | 0, _, _, _, C => some (C, false)
  | k + 1, i, G0, G1, C =>
    if G0 i = 0 then (if G1 i = 0 then none else some (C, true))
    else
      let rho := -G1 i / G0 i
      if |rho| ≥ 1 then some (C, true)
      else
        let scale := Real.sqrt (1 - rho) * Real.sqrt (1 + rho)
        -- G[:, i:] = [[1, rho], [rho, 1]].dot(G[:, i:]); G[:, i:] /= scale
        let G0' := fun j => if i ≤ j then (G0 j + rho * G1 j) / scale else G0 j
        let G1' := fun j => if i ≤ j then (rho * G0 j + G1 j) / scale else G1 j
        -- C[i, i:] = G[0, i:]
        let C' := fun a b => if a = i ∧ i ≤ b then G0' b else C a b
        -- G[0, (i+1):] = np.copy(G[0, i:-1]); G[0, i] = 0
        let G0'' := fun j => if j = i then 0 else if i + 1 ≤ j then G0' (j - 1) else G0' j
        shurLoop k (i + 1) G0'' G1' C'

/-- `shur`, shur.py 9-32. The boolean says whether 'rank def' was printed; `none` means the returned array
contains NaN (division by zero, or the square root of a negative `top[0]`). -/
noncomputable def shur (top : List ℝ) : Except PyErr (Option (Arr2 ℝ × Bool)) :=
  match top with
  | [] => .error .indexError
  | t0 :: _ =>
    if t0 ≤ 0 then .ok none
    else
      let n := top.length
      let G0 := fun j => top.getD j 0 / t0
      let G1 := fun j => if j = 0 then 0 else G0 j
      let C := fun a b => if a = 0 then G0 b else 0
      let G0' := fun j => if j = 0 then 0 else G0 (j - 1)
      .ok ((shurLoop (n - 1) 1 G0' G1 C).map fun r => (Arr2.of n n fun a b => r.1 a b * Real.sqrt t0, r.2))

end Verif
