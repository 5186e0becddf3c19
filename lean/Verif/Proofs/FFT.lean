import Verif.Model.FFT
import Verif.Proofs.Base
import Mathlib.RingTheory.RootsOfUnity.Complex
import Mathlib.Tactic.FieldSimp

namespace Verif
open Complex

theorem unitRoot_add (n : ℕ) (a b : ℤ) : unitRoot n (a + b) = unitRoot n a * unitRoot n b := by
  unfold unitRoot
  rw [← exp_add]
  congr 1
  push_cast
  ring

@[simp] theorem unitRoot_zero (n : ℕ) : unitRoot n 0 = 1 := by simp [unitRoot]

theorem unitRoot_nat (n : ℕ) (d : ℤ) (k : ℕ) : unitRoot n (k * d) = unitRoot n d ^ k := by
  unfold unitRoot
  rw [← exp_nat_mul]
  congr 1
  push_cast
  ring

theorem unitRoot_conj (n : ℕ) (d : ℤ) : (starRingEnd ℂ) (unitRoot n d) = unitRoot n (-d) := by
  unfold unitRoot
  rw [← exp_conj]
  congr 1
  simp [map_ofNat]

theorem unitRoot_eq_one {n : ℕ} (hn : 0 < n) (d : ℤ) : unitRoot n d = 1 ↔ (n : ℤ) ∣ d := by
  unfold unitRoot
  rw [exp_eq_one_iff]
  have hn' : (n : ℂ) ≠ 0 := by exact_mod_cast hn.ne'
  have hpi : (2 * Real.pi * I : ℂ) ≠ 0 := by simp [Real.pi_ne_zero]
  constructor
  · rintro ⟨k, hk⟩
    refine ⟨k, ?_⟩
    have : (2 * Real.pi * I : ℂ) * (d / n) = (2 * Real.pi * I) * k := by
      rw [mul_comm _ (k : ℂ), ← hk]; ring
    have := mul_left_cancel₀ hpi this
    rw [div_eq_iff hn'] at this
    have h2 : (d : ℂ) = ((k * n : ℤ) : ℂ) := by push_cast; exact this
    have h3 := Int.cast_injective h2
    rw [h3]; ring
  · rintro ⟨k, rfl⟩
    refine ⟨k, ?_⟩
    push_cast
    field_simp

theorem unitRoot_mod {n : ℕ} (hn : 0 < n) (d e : ℤ) (h : (n : ℤ) ∣ d - e) : unitRoot n d = unitRoot n e := by
  have : d = (d - e) + e := by ring
  rw [this, unitRoot_add, (unitRoot_eq_one hn _).2 h, one_mul]

/-- orthogonality of characters -/
theorem unitRoot_sum {n : ℕ} (hn : 0 < n) (d : ℤ) :
    ∑ k ∈ Finset.range n, unitRoot n (k * d) = if (n : ℤ) ∣ d then (n : ℂ) else 0 := by
  simp only [unitRoot_nat]
  split
  · rename_i h
    rw [(unitRoot_eq_one hn d).2 h]; simp
  · rename_i h
    have h1 : unitRoot n d ≠ 1 := fun e => h ((unitRoot_eq_one hn d).1 e)
    have h2 : unitRoot n d ^ n = 1 := by
      rw [← unitRoot_nat, unitRoot_eq_one hn]; exact ⟨d, rfl⟩
    have := mul_neg_geom_sum (unitRoot n d) n
    rw [h2, sub_self] at this
    rcases mul_eq_zero.1 this with h3 | h3
    · exact absurd (sub_eq_zero.1 h3).symm h1
    · exact h3

/-- the discrete Fourier transform of the first `n` values of `a` -/
noncomputable def dft (n : ℕ) (a : ℕ → ℂ) (k : ℕ) : ℂ :=
  ∑ j ∈ Finset.range n, a j * unitRoot n (-(j * k : ℤ))

/-- circular convolution theorem -/
theorem circular_conv {n : ℕ} (hn : 0 < n) (a b : ℕ → ℂ) (j : ℕ) :
    (1 / (n : ℂ)) * ∑ k ∈ Finset.range n, dft n a k * dft n b k * unitRoot n (j * k : ℤ) =
      ∑ l ∈ Finset.range n, a l * b ((j + n - l) % n) := by
  have hn' : (n : ℂ) ≠ 0 := by exact_mod_cast hn.ne'
  have step : ∀ k ∈ Finset.range n, dft n a k * dft n b k * unitRoot n (j * k : ℤ) =
      ∑ l ∈ Finset.range n, ∑ m ∈ Finset.range n, a l * b m * unitRoot n (k * ((j : ℤ) - l - m)) := by
    intro k _
    unfold dft
    rw [Finset.sum_mul_sum, Finset.sum_mul]
    refine Finset.sum_congr rfl fun l _ => ?_
    rw [Finset.sum_mul]
    refine Finset.sum_congr rfl fun m _ => ?_
    have : (k : ℤ) * ((j : ℤ) - l - m) = -(l * k : ℤ) + (-(m * k : ℤ)) + (j * k : ℤ) := by ring
    rw [this, unitRoot_add, unitRoot_add]
    ring
  rw [Finset.sum_congr rfl step, Finset.sum_comm, Finset.mul_sum]
  refine Finset.sum_congr rfl fun l hl => ?_
  have hl := Finset.mem_range.1 hl
  rw [Finset.sum_comm]
  have : ∀ m ∈ Finset.range n, ∑ k ∈ Finset.range n, a l * b m * unitRoot n (k * ((j : ℤ) - l - m)) =
      if m = (j + n - l) % n then a l * b m * n else 0 := by
    intro m hm
    have hm := Finset.mem_range.1 hm
    rw [← Finset.mul_sum, unitRoot_sum hn]
    have hiff : ((n : ℤ) ∣ ((j : ℤ) - l - m)) ↔ m = (j + n - l) % n := by
      constructor
      · intro h
        have h2 : ((m : ℤ)) ≡ ((j + n - l : ℕ) : ℤ) [ZMOD n] := by
          rw [Int.modEq_iff_dvd]
          have : ((j + n - l : ℕ) : ℤ) - m = ((j : ℤ) - l - m) + n := by omega
          rw [this]
          exact dvd_add h (dvd_refl _)
        have h3 : m % n = (j + n - l) % n := by exact_mod_cast h2
        rwa [Nat.mod_eq_of_lt hm] at h3
      · intro h
        have h3 : m % n = (j + n - l) % n := by rw [Nat.mod_eq_of_lt hm]; exact h
        have h2 : ((m : ℤ)) ≡ ((j + n - l : ℕ) : ℤ) [ZMOD n] := by
          unfold Int.ModEq; exact_mod_cast h3
        rw [Int.modEq_iff_dvd] at h2
        have : ((j : ℤ) - l - m) = (((j + n - l : ℕ) : ℤ) - m) - n := by omega
        rw [this]
        exact dvd_sub h2 (dvd_refl _)
    by_cases h : m = (j + n - l) % n
    · rw [if_pos h, if_pos (hiff.2 h)]
    · rw [if_neg h, if_neg (fun e => h (hiff.1 e)), mul_zero]
  rw [Finset.sum_congr rfl this, Finset.sum_ite_eq', if_pos (Finset.mem_range.2 (Nat.mod_lt _ hn))]
  field_simp

/-- DFTs of real data are Hermitian -/
theorem dft_conj {n : ℕ} (hn : 0 < n) (a : ℕ → ℝ) {k : ℕ} (hk : k ≤ n) :
    (starRingEnd ℂ) (dft n (fun j => (a j : ℂ)) (n - k)) = dft n (fun j => (a j : ℂ)) k := by
  unfold dft
  rw [map_sum]
  refine Finset.sum_congr rfl fun j _ => ?_
  rw [map_mul, conj_ofReal, unitRoot_conj]
  congr 1
  refine unitRoot_mod hn _ _ ⟨j, ?_⟩
  push_cast [Nat.cast_sub hk]
  ring

theorem rfft_getD (x : List ℝ) (n k : ℕ) (hk : k ≤ n / 2) :
    (rfft x n).getD k 0 = dft n (fun j => (x.getD j 0 : ℂ)) k := by
  unfold rfft
  rw [vmk_getD_lt (by omega)]
  rfl

/-- multiplying two real half spectra of an even length and inverting is circular convolution -/
theorem irfft_mul {n : ℕ} (hn : 0 < n) (he : n % 2 = 0) (x y : List ℝ) :
    irfft (List.zipWith (· * ·) (rfft x n) (rfft y n)) =
      vmk n fun j => ∑ l ∈ Finset.range n, x.getD l 0 * y.getD ((j + n - l) % n) 0 := by
  have hlen : (List.zipWith (· * ·) (rfft x n) (rfft y n)).length = n / 2 + 1 := by simp [rfft]
  have hnn : 2 * ((List.zipWith (· * ·) (rfft x n) (rfft y n)).length - 1) = n := by rw [hlen]; omega
  have hget : ∀ k ≤ n / 2, (List.zipWith (· * ·) (rfft x n) (rfft y n)).getD k 0 =
      dft n (fun j => (x.getD j 0 : ℂ)) k * dft n (fun j => (y.getD j 0 : ℂ)) k := by
    intro k hk
    rw [← rfft_getD x n k hk, ← rfft_getD y n k hk]
    have h1 : k < (rfft x n).length := by simp [rfft]; omega
    have h2 : k < (rfft y n).length := by simp [rfft]; omega
    simp [h1, h2]
  unfold irfft
  simp only [hnn]
  refine vmk_congr fun j _ => ?_
  have : ∀ k ∈ Finset.range n,
      (if k ≤ n / 2 then (List.zipWith (· * ·) (rfft x n) (rfft y n)).getD k 0
        else (starRingEnd ℂ) ((List.zipWith (· * ·) (rfft x n) (rfft y n)).getD (n - k) 0)) *
        unitRoot n (j * k : ℤ) =
      dft n (fun j => (x.getD j 0 : ℂ)) k * dft n (fun j => (y.getD j 0 : ℂ)) k * unitRoot n (j * k : ℤ) := by
    intro k hk
    have hk := Finset.mem_range.1 hk
    congr 1
    split
    · rename_i h; exact hget k h
    · rw [hget (n - k) (by omega), map_mul]
      rw [dft_conj hn (fun j => x.getD j 0) hk.le, dft_conj hn (fun j => y.getD j 0) hk.le]
  rw [Finset.sum_congr rfl this, circular_conv hn _ _ j]
  rw [show (∑ l ∈ Finset.range n, (x.getD l 0 : ℂ) * (y.getD ((j + n - l) % n) 0 : ℂ)) =
    ((∑ l ∈ Finset.range n, x.getD l 0 * y.getD ((j + n - l) % n) 0 : ℝ) : ℂ) by push_cast; rfl]
  exact ofReal_re _

end Verif
