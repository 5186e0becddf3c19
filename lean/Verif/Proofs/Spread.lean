import Verif.Spec.Spread
import Verif.Props.Stochastic

/-! Second moments of random signs. -/

namespace Verif

open Matrix

section
variable {N n : ℕ}

/-- change one sign of a table -/
def flipAt (p : Fin N × Fin n) (z : Fin N → Fin n → Bool) : Fin N → Fin n → Bool := fun a b => if (a, b) = p then !(z a b) else z a b

theorem flipAt_involutive (p : Fin N × Fin n) : Function.Involutive (flipAt p) := by
  intro z
  funext a b
  unfold flipAt
  split_ifs <;> simp

/-- the sign at a position of a table -/
def signAt (z : Fin N → Fin n → Bool) (p : Fin N × Fin n) : ℝ := sgnBit (z p.1 p.2)

theorem signAt_flip (z : Fin N → Fin n → Bool) (p q : Fin N × Fin n) : signAt (flipAt p z) q = if q = p then -signAt z q else signAt z q := by
  unfold signAt flipAt
  by_cases e : q = p
  · rw [if_pos e, if_pos (by rw [← e])]
    cases z q.1 q.2 <;> norm_num [sgnBit]
  · rw [if_neg e, if_neg (by simpa using e)]

theorem signAt_sq (z : Fin N → Fin n → Bool) (p : Fin N × Fin n) : signAt z p * signAt z p = 1 := by
  unfold signAt
  cases z p.1 p.2 <;> norm_num [sgnBit]

theorem card_tables : (Finset.univ : Finset (Fin N → Fin n → Bool)).card = 2 ^ (N * n) := by
  simp only [Finset.card_univ, Fintype.card_fun, Fintype.card_fin, Fintype.card_bool]
  rw [← pow_mul, mul_comm]

/-- what changes sign with one of the signs averages to zero -/
theorem sum_odd {f : (Fin N → Fin n → Bool) → ℝ} (p : Fin N × Fin n) (h : ∀ z, f (flipAt p z) = -f z) : ∑ z, f z = 0 := by
  have e := Equiv.sum_comp (Function.Involutive.toPerm (flipAt p) (flipAt_involutive p)) f
  have : ∀ z, f (Function.Involutive.toPerm (flipAt p) (flipAt_involutive p) z) = -f z := h
  simp only [this, Finset.sum_neg_distrib] at e
  linarith

theorem sum_four {a b c d : Fin N × Fin n} (hab : a ≠ b) (hcd : c ≠ d) :
    ∑ z : Fin N → Fin n → Bool, (signAt z a * signAt z b) * (signAt z c * signAt z d) = if (c = a ∧ d = b) ∨ (c = b ∧ d = a) then 2 ^ (N * n) else 0 := by
  split_ifs with h
  · have : ∀ z : Fin N → Fin n → Bool, (signAt z a * signAt z b) * (signAt z c * signAt z d) = 1 := by
      intro z
      rcases h with ⟨rfl, rfl⟩ | ⟨rfl, rfl⟩
      · calc _ = (signAt z c * signAt z c) * (signAt z d * signAt z d) := by ring
          _ = 1 := by rw [signAt_sq, signAt_sq]; norm_num
      · calc _ = (signAt z c * signAt z c) * (signAt z d * signAt z d) := by ring
          _ = 1 := by rw [signAt_sq, signAt_sq]; norm_num
    simp only [this, Finset.sum_const, card_tables]
    simp
  · by_cases h1 : c = a
    · refine sum_odd b fun z => ?_
      have hbd : d ≠ b := fun e => h (Or.inl ⟨h1, e⟩)
      simp only [signAt_flip]
      rw [if_neg hab, if_true, if_neg (h1 ▸ hab), if_neg hbd]
      ring
    · by_cases h2 : d = a
      · refine sum_odd b fun z => ?_
        have hbc : c ≠ b := fun e => h (Or.inr ⟨e, h2⟩)
        simp only [signAt_flip]
        rw [if_neg hab, if_true, if_neg hbc, if_neg (h2 ▸ hab)]
        ring
      · refine sum_odd a fun z => ?_
        simp only [signAt_flip]
        rw [if_true, if_neg hab.symm, if_neg h1, if_neg h2]
        ring

/-- entries outside the diagonal -/
noncomputable def offAt (M : Matrix (Fin n) (Fin n) ℝ) (x : Fin N × Fin n × Fin n) : ℝ := if x.2.1 = x.2.2 then 0 else M x.2.1 x.2.2

/-- a pair of signs of the same probe -/
def pairAt (z : Fin N → Fin n → Bool) (x : Fin N × Fin n × Fin n) : ℝ := signAt z (x.1, x.2.1) * signAt z (x.1, x.2.2)

/-- the quadratic forms of the probes differ from the trace by the products of different signs -/
theorem quadratic_trace (M : Matrix (Fin n) (Fin n) ℝ) (z : Fin N → Fin n → Bool) :
    ∑ k : Fin N, (fun i => sgnBit (z k i)) ⬝ᵥ M *ᵥ (fun i => sgnBit (z k i)) = N * M.trace + ∑ x : Fin N × Fin n × Fin n, offAt M x * pairAt z x := by
  rw [Fintype.sum_prod_type]
  have : ∀ k : Fin N, (fun i => sgnBit (z k i)) ⬝ᵥ M *ᵥ (fun i => sgnBit (z k i)) = M.trace + ∑ y : Fin n × Fin n, offAt M (k, y) * pairAt z (k, y) := by
    intro k
    rw [Fintype.sum_prod_type, Matrix.trace, ← Finset.sum_add_distrib]
    simp only [dotProduct, mulVec, Finset.mul_sum]
    refine Finset.sum_congr rfl fun i _ => ?_
    have e : ∀ j, sgnBit (z k i) * (M i j * sgnBit (z k j)) = (if i = j then M i j else 0) + offAt M (k, i, j) * pairAt z (k, i, j) := by
      intro j
      unfold offAt pairAt signAt
      simp only
      by_cases hij : i = j
      · rw [if_pos hij, if_pos hij, hij]
        have := signAt_sq z (k, j)
        unfold signAt at this
        simp only at this
        linear_combination (M j j) * this
      · rw [if_neg hij, if_neg hij]
        ring
    rw [Finset.sum_congr rfl fun j _ => e j, Finset.sum_add_distrib]
    simp
  rw [Finset.sum_congr rfl fun k _ => this k, Finset.sum_add_distrib]
  simp

/-- the second moment of what the probes add to the trace -/
theorem sum_square (M : Matrix (Fin n) (Fin n) ℝ) :
    ∑ z : Fin N → Fin n → Bool, (∑ x : Fin N × Fin n × Fin n, offAt M x * pairAt z x) ^ 2 = 2 ^ (N * n) * (N * (offDiagonal M / 2)) := by
  have hx : ∀ x : Fin N × Fin n × Fin n, ∑ y : Fin N × Fin n × Fin n, ∑ z : Fin N → Fin n → Bool, (offAt M x * pairAt z x) * (offAt M y * pairAt z y) =
      2 ^ (N * n) * (offAt M x * (offAt M x + offAt M (x.1, x.2.2, x.2.1))) := by
    intro x
    by_cases hd : x.2.1 = x.2.2
    · have : offAt M x = 0 := by unfold offAt; rw [if_pos hd]
      simp [this]
    · have hy : ∀ y : Fin N × Fin n × Fin n, ∑ z : Fin N → Fin n → Bool, (offAt M x * pairAt z x) * (offAt M y * pairAt z y) =
          (if y = x then 2 ^ (N * n) * (offAt M x * offAt M y) else 0) + (if y = (x.1, x.2.2, x.2.1) then 2 ^ (N * n) * (offAt M x * offAt M y) else 0) := by
        intro y
        by_cases hdy : y.2.1 = y.2.2
        · have : offAt M y = 0 := by unfold offAt; rw [if_pos hdy]
          simp [this]
        · have e : ∀ z : Fin N → Fin n → Bool, (offAt M x * pairAt z x) * (offAt M y * pairAt z y) = (offAt M x * offAt M y) *
              ((signAt z (x.1, x.2.1) * signAt z (x.1, x.2.2)) * (signAt z (y.1, y.2.1) * signAt z (y.1, y.2.2))) := by
            intro z
            unfold pairAt
            ring
          rw [Finset.sum_congr rfl fun z _ => e z, ← Finset.mul_sum, sum_four (by simpa using hd) (by simpa using hdy)]
          obtain ⟨x1, x2, x3⟩ := x
          obtain ⟨y1, y2, y3⟩ := y
          simp only at hd hdy ⊢
          by_cases c1 : (y1, y2, y3) = (x1, x2, x3)
          · simp only [Prod.mk.injEq] at c1
            obtain ⟨rfl, rfl, rfl⟩ := c1
            simp [hd, mul_comm]
          · by_cases c2 : (y1, y2, y3) = (x1, x3, x2)
            · simp only [Prod.mk.injEq] at c2
              obtain ⟨rfl, rfl, rfl⟩ := c2
              have hd' : ¬ y2 = y3 := hdy
              simp [hd', mul_comm]
            · rw [if_neg c1, if_neg c2, if_neg]
              · simp
              · simp only [Prod.mk.injEq] at c1 c2 ⊢
                tauto
      rw [Finset.sum_congr rfl fun y _ => hy y, Finset.sum_add_distrib, Finset.sum_ite_eq' _ x, Finset.sum_ite_eq' _ (x.1, x.2.2, x.2.1)]
      simp only [Finset.mem_univ, if_true]
      ring
  have hsq : ∀ z : Fin N → Fin n → Bool, (∑ x : Fin N × Fin n × Fin n, offAt M x * pairAt z x) ^ 2 =
      ∑ x, ∑ y, (offAt M x * pairAt z x) * (offAt M y * pairAt z y) := by
    intro z
    rw [sq, Finset.sum_mul_sum]
  rw [Finset.sum_congr rfl fun z _ => hsq z, Finset.sum_comm]
  have : ∀ x : Fin N × Fin n × Fin n, ∑ z : Fin N → Fin n → Bool, ∑ y, (offAt M x * pairAt z x) * (offAt M y * pairAt z y) =
      2 ^ (N * n) * (offAt M x * (offAt M x + offAt M (x.1, x.2.2, x.2.1))) := fun x => by rw [Finset.sum_comm]; exact hx x
  rw [Finset.sum_congr rfl fun x _ => this x, ← Finset.mul_sum]
  congr 1
  rw [Fintype.sum_prod_type]
  have hk : ∀ k : Fin N, ∑ y : Fin n × Fin n, offAt M (k, y) * (offAt M (k, y) + offAt M (k, y.2, y.1)) = offDiagonal M / 2 := by
    intro k
    rw [Fintype.sum_prod_type]
    have s1 : ∑ i : Fin n, ∑ j : Fin n, offAt M (k, i, j) * (offAt M (k, i, j) + offAt M (k, j, i)) =
        ∑ i : Fin n, ∑ j : Fin n, offAt M (k, j, i) * (offAt M (k, j, i) + offAt M (k, i, j)) := Finset.sum_comm
    have s2 : offDiagonal M = ∑ i : Fin n, ∑ j : Fin n, (offAt M (k, i, j) * (offAt M (k, i, j) + offAt M (k, j, i)) +
        offAt M (k, j, i) * (offAt M (k, j, i) + offAt M (k, i, j))) := by
      unfold offDiagonal offAt
      refine Finset.sum_congr rfl fun i _ => Finset.sum_congr rfl fun j _ => ?_
      simp only
      by_cases h : i = j
      · simp [h]
      · rw [if_neg h, if_neg h, if_neg (Ne.symm h)]
        ring
    rw [s2, Finset.sum_congr rfl fun i _ => Finset.sum_add_distrib, Finset.sum_add_distrib, ← s1]
    simp only
    ring
  simp only [hk]
  simp

/-- Chebyshev's inequality for tables of probes -/
theorem fraction_le (f : (Fin N → Fin n → Bool) → ℝ) (c ε : ℝ) (hε : 0 < ε) :
    fraction (fun z => ε ≤ |f z - c|) ≤ average (fun z => (f z - c) ^ 2) / ε ^ 2 := by
  classical
  unfold fraction average
  rw [div_right_comm]
  refine div_le_div_of_nonneg_right ?_ (by positivity)
  rw [le_div_iff₀ (by positivity)]
  have : ∑ z ∈ Finset.univ.filter (fun z => ε ≤ |f z - c|), ε ^ 2 ≤ ∑ z : Fin N → Fin n → Bool, (f z - c) ^ 2 := by
    refine (Finset.sum_le_sum fun z hz => ?_).trans (Finset.sum_le_univ_sum_of_nonneg fun z => sq_nonneg _)
    have := (Finset.mem_filter.1 hz).2
    rw [← sq_abs (f z - c)]
    exact pow_le_pow_left₀ hε.le this 2
  rw [Finset.sum_const, nsmul_eq_mul] at this
  convert this

end

end Verif
