import Verif.Proofs.Interp
import Mathlib.Analysis.Calculus.Deriv.MeanValue
import Mathlib.Analysis.Calculus.Deriv.Pow
import Mathlib.Analysis.Calculus.Deriv.Add
import Mathlib.Analysis.Calculus.Deriv.Mul
import Mathlib.Analysis.Calculus.Deriv.Comp

/-! C14-C18, C23: one-dimensional cubic interpolation (`runlmc/approx/interpolation.py`). -/

namespace Verif

/-- C14: `cubic_kernel(x)` is the Keys kernel applied elementwise when every `|x| ≤ 2`, and raises `ValueError`
exactly when some `|x| > 2`. -/
theorem C14_cubicKernel (x : List ℝ) :
    ((∀ a ∈ x, |a| ≤ 2) → cubicKernel x = .ok (x.map keys)) ∧
    ((∃ a ∈ x, |a| > 2) → cubicKernel x = .error .valueError) := by
  refine ⟨fun h => ?_, fun h => by simp only [cubicKernel, if_pos h]⟩
  rw [cubicKernel_ok h]
  exact congrArg Except.ok (List.map_congr_left fun a ha => cubicEntry_eq_keys (h a ha))

/-- C14: the integer translates of the Keys kernel sum to one: at every real `x` the four translates by
`⌊x⌋-1 … ⌊x⌋+2` (all others vanish) add up to `1`; it is even, `1` at `0`, and `0` at the other integers. -/
theorem C14_partition_of_unity (x : ℝ) :
    keys (x - (⌊x⌋ - 1)) + keys (x - ⌊x⌋) + keys (x - (⌊x⌋ + 1)) + keys (x - (⌊x⌋ + 2)) = 1 ∧
    (∀ k : ℤ, k < ⌊x⌋ - 1 ∨ ⌊x⌋ + 2 < k → keys (x - k) = 0) ∧
    keys (-x) = keys x ∧ keys 0 = 1 ∧ ∀ k : ℤ, k ≠ 0 → keys k = 0 := by
  obtain ⟨h0, h1⟩ := frac_mem x
  have h2 := Int.lt_floor_add_one x
  have out : ∀ y : ℝ, 2 ≤ |y| → keys y = 0 := by
    intro y hy
    unfold keys
    rw [if_neg (by linarith)]
    by_cases h : |y| ≤ 2
    · have : |y| = 2 := le_antisymm h hy
      rw [if_pos h, this]; norm_num
    · rw [if_neg h]
  refine ⟨?_, ?_, by unfold keys; rw [abs_neg], by unfold keys; norm_num, ?_⟩
  · rw [show x - (⌊x⌋ - 1) = (x - ⌊x⌋) + 1 by ring, show x - (⌊x⌋ + 1) = (x - ⌊x⌋) - 1 by ring,
      show x - (⌊x⌋ + 2) = (x - ⌊x⌋) - 2 by ring, keys_m2 h0 h1, keys_m1 h0 h1, keys_0 h0 h1, keys_p1 h0 h1]
    ring
  · intro k hk
    apply out
    rcases hk with hk | hk
    · have : (k : ℝ) + 2 ≤ ⌊x⌋ := by exact_mod_cast (by omega : k + 2 ≤ ⌊x⌋)
      rw [le_abs]; left; linarith
    · have : (⌊x⌋ : ℝ) + 3 ≤ k := by exact_mod_cast (by omega : ⌊x⌋ + 3 ≤ k)
      rw [le_abs]; right; linarith
  · intro k hk
    by_cases h : |(k : ℝ)| ≤ 1
    · have : |k| ≤ 1 := by exact_mod_cast h
      have hk1 : |k| = 1 := le_antisymm this (Int.one_le_abs hk)
      have : |(k : ℝ)| = 1 := by exact_mod_cast hk1
      unfold keys; rw [this]; norm_num
    · apply out
      have : 2 ≤ |k| := by
        by_contra hc
        exact h (by exact_mod_cast (by omega : |k| ≤ 1))
      exact_mod_cast this

example : cubicKernel [0.5, -1.5, 2] = .ok [0.5625, -0.0625, 0] := by
  rw [(C14_cubicKernel _).1 (by intro a ha; simp only [List.mem_cons, List.not_mem_nil, or_false] at ha; rcases ha with rfl | rfl | rfl <;> norm_num [abs_le])]
  simp only [List.map, keys]
  norm_num [abs_of_pos, abs_of_neg]

example : cubicKernel [0.5, -2.5] = .error .valueError :=
  (C14_cubicKernel _).2 ⟨-2.5, by simp, by norm_num [abs_of_neg]⟩

/-- C15: for 1-D inputs, a grid of at least four points and non-zero spacing, `interp_cubic` never raises; the result
has one row per sample and one column per grid point, is a well-formed CSR matrix (in particular every stored column
index is inside the grid), stores at most four entries per row, and every row sums to one — for any samples,
inside the grid or not. -/
theorem C15_rows_affine (grid samples : List ℝ) (hm : 4 ≤ grid.length) (_hd : grid.getD 1 0 ≠ grid.getD 0 0) :
    ∃ R, interpCubic (NDArr.vec grid) (NDArr.vec samples) = .ok R ∧
      R.WF ∧ R.rows = samples.length ∧ R.cols = grid.length ∧
      ∀ i < samples.length, R.rowNnz i ≤ 4 ∧ ∑ j ∈ Finset.range grid.length, R.get i j = 1 := by
  classical
  refine ⟨_, interpCubic_eq hm, Csr.ofFn_wf _ _ _, Csr.ofFn_rows _ _ _, rfl, fun i hi => ⟨?_, ?_⟩⟩
  · rw [Csr.ofFn_rowNnz hi]
    exact interpRow_card _
  · rw [Finset.sum_congr rfl fun j hj => Csr.ofFn_get hi (Finset.mem_range.1 hj)]
    exact interpRow_sum (by omega) _

example : ∃ R, interpCubic (NDArr.vec [0, 1, 2, 3]) (NDArr.vec [-7, 1.5, 30]) = .ok R ∧ R.rowNnz 2 ≤ 4 := by
  obtain ⟨R, h, -, -, -, h'⟩ := C15_rows_affine [0, 1, 2, 3] [-7, 1.5, 30] (by simp) (by simp)
  exact ⟨R, h, (h' 2 (by simp)).1⟩

theorem factor_equispaced {grid : List ℝ} {g0 h : ℝ} (hm : 4 ≤ grid.length) (he : Equispaced grid g0 h) (s : ℝ) :
    interpFactor grid s = (s - g0) / h := by
  have e0 := he 0 (by omega)
  have e1 := he 1 (by omega)
  simp only [Nat.cast_zero, Nat.cast_one, zero_mul, one_mul, add_zero] at e0 e1
  unfold interpFactor
  rw [e0, e1, show g0 + h - g0 = h by ring]

/-- C16: on an equispaced grid, interpolating at a grid point returns the function value there, for every function
`f`, wherever the grid point is. -/
theorem C16_exact_at_grid_points (grid samples : List ℝ) (g0 h : ℝ) (hm : 4 ≤ grid.length) (hh : h ≠ 0)
    (he : Equispaced grid g0 h) (f : ℝ → ℝ) :
    ∃ R, interpCubic (NDArr.vec grid) (NDArr.vec samples) = .ok R ∧
      ∀ i < samples.length, ∀ k < grid.length, samples.getD i 0 = grid.getD k 0 →
        ∑ j ∈ Finset.range grid.length, R.get i j * f (grid.getD j 0) = f (samples.getD i 0) := by
  refine ⟨_, interpCubic_eq hm, fun i hi k hk hs => ?_⟩
  rw [Finset.sum_congr rfl fun j hj => by rw [Csr.ofFn_get hi (Finset.mem_range.1 hj)]]
  rw [hs, factor_equispaced hm he, he k hk, show (g0 + k * h - g0) / h = k by field_simp; ring,
    interpRow_gridpoint hk (fun j => f (grid.getD j 0)), he k hk]

/-- the sample position of an interior sample: `k`-th cell, fraction `t` -/
theorem interior_cell {grid : List ℝ} {g0 h s : ℝ} (hm : 4 ≤ grid.length) (hh : 0 < h) (he : Equispaced grid g0 h)
    (h1 : grid.getD 1 0 ≤ s) (h2 : s < grid.getD (grid.length - 2) 0) :
    ∃ (k : ℕ) (t : ℝ), 1 ≤ k ∧ k + 2 < grid.length ∧ 0 ≤ t ∧ t < 1 ∧ (s - g0) / h = k + t := by
  rw [he 1 (by omega)] at h1
  rw [he _ (by omega)] at h2
  have hk1 : 1 ≤ (s - g0) / h := by rw [le_div_iff₀ hh]; push_cast at h1; linarith
  have hk2 : (s - g0) / h < ((grid.length - 2 : ℕ) : ℝ) := by rw [div_lt_iff₀ hh]; linarith
  have hf1 : 1 ≤ ⌊(s - g0) / h⌋ := by rw [Int.le_floor]; exact_mod_cast hk1
  have hf2 : ⌊(s - g0) / h⌋ < ((grid.length - 2 : ℕ) : ℤ) := by rw [Int.floor_lt]; exact_mod_cast hk2
  obtain ⟨k, hk⟩ : ∃ k : ℕ, ⌊(s - g0) / h⌋ = k := Int.eq_ofNat_of_zero_le (by omega)
  have h3 := Int.floor_le ((s - g0) / h)
  have h4 := Int.lt_floor_add_one ((s - g0) / h)
  rw [hk] at hf1 hf2 h3 h4
  refine ⟨k, (s - g0) / h - k, by omega, by omega, ?_, ?_, by ring⟩
  · push_cast at h3; linarith
  · push_cast at h4; linarith

/-- C16: on an equispaced grid every polynomial of degree at most two is reproduced exactly at any sample with at least
two grid points at or below it and at least two at or above it. -/
theorem C16_exact_on_quadratics (grid samples : List ℝ) (g0 h : ℝ) (hm : 4 ≤ grid.length) (hh : 0 < h)
    (he : Equispaced grid g0 h) (a b c : ℝ) :
    ∃ R, interpCubic (NDArr.vec grid) (NDArr.vec samples) = .ok R ∧
      ∀ i < samples.length,
        grid.getD 1 0 ≤ samples.getD i 0 → samples.getD i 0 ≤ grid.getD (grid.length - 2) 0 →
        ∑ j ∈ Finset.range grid.length, R.get i j * (a + b * grid.getD j 0 + c * grid.getD j 0 ^ 2) =
          a + b * samples.getD i 0 + c * samples.getD i 0 ^ 2 := by
  obtain ⟨R', hR', hG⟩ := C16_exact_at_grid_points grid samples g0 h hm hh.ne' he (fun x => a + b * x + c * x ^ 2)
  refine ⟨R', hR', fun i hi h1 h2 => ?_⟩
  rcases h2.eq_or_lt with h2 | h2
  · exact hG i hi _ (by omega) h2
  · rw [interpCubic_eq hm] at hR'
    obtain rfl := Except.ok.inj hR'
    obtain ⟨k, t, hk1, hk2, t0, t1, e⟩ := interior_cell hm hh he h1 h2
    rw [Finset.sum_congr rfl fun j hj => by rw [Csr.ofFn_get hi (Finset.mem_range.1 hj)]]
    rw [factor_equispaced hm he, e, interpRow_interior hk1 hk2 t0 t1 (fun j => a + b * grid.getD j 0 + c * grid.getD j 0 ^ 2)]
    have hs : samples.getD i 0 = g0 + (k + t) * h := by
      rw [← e]; field_simp; ring
    rw [he _ (by omega : k + 2 < _), he _ (by omega : k + 1 < _), he _ (by omega : k < _), he _ (by omega : k - 1 < _), hs,
      keys_m2 t0 t1.le, keys_m1 t0 t1.le, keys_0 t0 t1.le, keys_p1 t0 t1.le]
    push_cast [Nat.cast_sub hk1]
    ring

example : ∃ R, interpCubic (NDArr.vec [0, 2, 4, 6, 8]) (NDArr.vec [5, 6]) = .ok R ∧
    ∑ j ∈ Finset.range 5, R.get 0 j * (1 + 2 * [0, 2, 4, 6, 8].getD j 0 + 3 * [0, 2, 4, 6, 8].getD j 0 ^ 2) = (86 : ℝ) := by
  have he : Equispaced [0, 2, 4, 6, 8] 0 2 := by
    intro i hi
    simp only [List.length_cons, List.length_nil] at hi
    interval_cases i <;> norm_num
  obtain ⟨R, h, h'⟩ := C16_exact_on_quadratics [0, 2, 4, 6, 8] [5, 6] 0 2 (by simp) (by norm_num) he 1 2 3
  refine ⟨R, h, ?_⟩
  have := h' 0 (by simp) (by norm_num) (by norm_num)
  norm_num at this ⊢
  exact this

/-! ### C17 -/

theorem nonneg_of_deriv_nonneg {h h' : ℝ → ℝ} {s x : ℝ} (hsx : s ≤ x) (hs : h s = 0)
    (hd : ∀ y ∈ Set.Icc s x, HasDerivAt h (h' y) y) (hp : ∀ y ∈ Set.Icc s x, 0 ≤ h' y) : ∀ y ∈ Set.Icc s x, 0 ≤ h y := by
  have hm : MonotoneOn h (Set.Icc s x) := by
    refine monotoneOn_of_deriv_nonneg (convex_Icc s x) (fun y hy => (hd y hy).continuousAt.continuousWithinAt) ?_ ?_
    · intro y hy
      exact (hd y (interior_subset hy)).differentiableAt.differentiableWithinAt
    · intro y hy
      rw [(hd y (interior_subset hy)).deriv]
      exact hp y (interior_subset hy)
  intro y hy
  rw [← hs]
  exact hm ⟨le_rfl, hsx⟩ hy hy.1

/-- one-sided Taylor bound -/
theorem taylor_right {f f1 f2 f3 : ℝ → ℝ} {s x M : ℝ} (hsx : s ≤ x)
    (d0 : ∀ y ∈ Set.Icc s x, HasDerivAt f (f1 y) y) (d1 : ∀ y ∈ Set.Icc s x, HasDerivAt f1 (f2 y) y)
    (d2 : ∀ y ∈ Set.Icc s x, HasDerivAt f2 (f3 y) y) (hM : ∀ y ∈ Set.Icc s x, -M ≤ f3 y) :
    0 ≤ f x - (f s + f1 s * (x - s) + f2 s / 2 * (x - s) ^ 2) + M / 6 * (x - s) ^ 3 := by
  have p : ∀ (n : ℕ) (y : ℝ), HasDerivAt (fun z => (z - s) ^ n) (n * (y - s) ^ (n - 1)) y := by
    intro n y
    refine (((hasDerivAt_id y).sub_const s).pow n).congr_deriv ?_
    simp
  have e2 : ∀ y ∈ Set.Icc s x, 0 ≤ f2 y - f2 s + M * (y - s) ^ 1 := by
    refine nonneg_of_deriv_nonneg (h' := fun y => f3 y + M) hsx (by simp) ?_ fun y hy => by linarith [hM y hy]
    intro y hy
    have := ((d2 y hy).sub_const (f2 s)).add ((p 1 y).const_mul M)
    refine this.congr_deriv ?_
    simp
  have e1 : ∀ y ∈ Set.Icc s x, 0 ≤ f1 y - f1 s - f2 s * (y - s) ^ 1 + M / 2 * (y - s) ^ 2 := by
    refine nonneg_of_deriv_nonneg (h' := fun y => f2 y - f2 s + M * (y - s) ^ 1) hsx (by simp) ?_ e2
    intro y hy
    have := (((d1 y hy).sub_const (f1 s)).sub ((p 1 y).const_mul (f2 s))).add ((p 2 y).const_mul (M / 2))
    refine this.congr_deriv ?_
    simp; ring
  have e0 : ∀ y ∈ Set.Icc s x, 0 ≤ f y - f s - f1 s * (y - s) ^ 1 - f2 s / 2 * (y - s) ^ 2 + M / 6 * (y - s) ^ 3 := by
    refine nonneg_of_deriv_nonneg (h' := fun y => f1 y - f1 s - f2 s * (y - s) ^ 1 + M / 2 * (y - s) ^ 2) hsx (by simp) ?_ e1
    intro y hy
    have := ((((d0 y hy).sub_const (f s)).sub ((p 1 y).const_mul (f1 s))).sub ((p 2 y).const_mul (f2 s / 2))).add
      ((p 3 y).const_mul (M / 6))
    refine this.congr_deriv ?_
    simp; ring
  have := e0 x ⟨hsx, le_rfl⟩
  linarith

theorem taylor_right_abs {f f1 f2 f3 : ℝ → ℝ} {s x M : ℝ} (hsx : s ≤ x)
    (d0 : ∀ y ∈ Set.Icc s x, HasDerivAt f (f1 y) y) (d1 : ∀ y ∈ Set.Icc s x, HasDerivAt f1 (f2 y) y)
    (d2 : ∀ y ∈ Set.Icc s x, HasDerivAt f2 (f3 y) y) (hM : ∀ y ∈ Set.Icc s x, |f3 y| ≤ M) :
    |f x - (f s + f1 s * (x - s) + f2 s / 2 * (x - s) ^ 2)| ≤ M / 6 * (x - s) ^ 3 := by
  have a := taylor_right hsx d0 d1 d2 fun y hy => (abs_le.1 (hM y hy)).1
  have b := taylor_right (f := fun y => -f y) (f1 := fun y => -f1 y) (f2 := fun y => -f2 y) (f3 := fun y => -f3 y) hsx
    (fun y hy => (d0 y hy).neg) (fun y hy => (d1 y hy).neg) (fun y hy => (d2 y hy).neg)
    (fun y hy => by have := (abs_le.1 (hM y hy)).2; linarith) (M := M)
  rw [abs_le]
  constructor <;> linarith

/-- Taylor's theorem with the bound `M/6·|x-s|³`, on either side of `s` -/
theorem taylor_abs {f f1 f2 f3 : ℝ → ℝ} {lo hi s x M : ℝ} (hs : s ∈ Set.Icc lo hi) (hx : x ∈ Set.Icc lo hi)
    (d0 : ∀ y ∈ Set.Icc lo hi, HasDerivAt f (f1 y) y) (d1 : ∀ y ∈ Set.Icc lo hi, HasDerivAt f1 (f2 y) y)
    (d2 : ∀ y ∈ Set.Icc lo hi, HasDerivAt f2 (f3 y) y) (hM : ∀ y ∈ Set.Icc lo hi, |f3 y| ≤ M) :
    |f x - (f s + f1 s * (x - s) + f2 s / 2 * (x - s) ^ 2)| ≤ M / 6 * |x - s| ^ 3 := by
  rcases le_total s x with h | h
  · rw [abs_of_nonneg (sub_nonneg.2 h)]
    have sub : ∀ y ∈ Set.Icc s x, y ∈ Set.Icc lo hi := fun y hy => ⟨hs.1.trans hy.1, hy.2.trans hx.2⟩
    exact taylor_right_abs h (fun y hy => d0 y (sub y hy)) (fun y hy => d1 y (sub y hy)) (fun y hy => d2 y (sub y hy))
      fun y hy => hM y (sub y hy)
  · rw [abs_of_nonpos (sub_nonpos.2 h)]
    have sub : ∀ y ∈ Set.Icc s (2 * s - x), 2 * s - y ∈ Set.Icc lo hi := by
      intro y hy
      have h1 := hy.1; have h2 := hy.2
      exact ⟨by linarith [hx.1], by linarith [hs.2]⟩
    have r : ∀ {g g' : ℝ → ℝ} (y : ℝ), HasDerivAt g (g' (2 * s - y)) (2 * s - y) →
        HasDerivAt (fun y => g (2 * s - y)) (-(g' (2 * s - y))) y := by
      intro g g' y hg
      have := hg.comp y ((hasDerivAt_id y).const_sub (2 * s))
      simpa [Function.comp_def] using this
    have := taylor_right_abs (f := fun y => f (2 * s - y)) (f1 := fun y => -f1 (2 * s - y)) (f2 := fun y => f2 (2 * s - y))
      (f3 := fun y => -f3 (2 * s - y)) (s := s) (x := 2 * s - x) (M := M) (by linarith)
      (fun y hy => r y (d0 _ (sub y hy)))
      (fun y hy => (r y (d1 _ (sub y hy))).neg.congr_deriv (by simp))
      (fun y hy => r y (d2 _ (sub y hy)))
      (fun y hy => by rw [abs_neg]; exact hM _ (sub y hy))
    rw [show 2 * s - (2 * s - x) = x by ring, show 2 * s - s = s by ring, show 2 * s - x - s = s - x by ring] at this
    rw [show -(x - s) = s - x by ring]
    refine le_trans (le_of_eq ?_) this
    congr 1; ring

theorem weighted_remainder {t M h : ℝ} (hM0 : 0 ≤ M) (hh : 0 < h) (t0 : 0 ≤ t) (t1 : t ≤ 1) :
    -(1 / 2 * t ^ 3 - 1 / 2 * t ^ 2) * (M / 6 * ((2 - t) * h) ^ 3) +
        (-3 / 2 * t ^ 3 + 2 * t ^ 2 + 1 / 2 * t) * (M / 6 * ((1 - t) * h) ^ 3) +
        (3 / 2 * t ^ 3 - 5 / 2 * t ^ 2 + 1) * (M / 6 * (t * h) ^ 3) +
        -(-1 / 2 * t ^ 3 + t ^ 2 - 1 / 2 * t) * (M / 6 * ((1 + t) * h) ^ 3) ≤ 3 / 32 * M * h ^ 3 := by
  have hv : 0 ≤ 1 - t := by linarith
  have hp0 : 0 ≤ t * (1 - t) := by positivity
  have hp1 : t * (1 - t) ≤ 1 / 4 := by nlinarith [sq_nonneg (t - 1 / 2)]
  have key : t * (1 - t) + 6 * (t * (1 - t)) ^ 2 - 4 * (t * (1 - t)) ^ 3 ≤ 9 / 16 := by
    generalize t * (1 - t) = p at hp0 hp1
    have : 0 ≤ (1 / 4 - p) * (9 / 4 + 4 * p + p * (1 - 4 * p)) :=
      mul_nonneg (by linarith) (by have : 0 ≤ p * (1 - 4 * p) := mul_nonneg hp0 (by linarith)
                                   linarith)
    have e : (1 / 4 - p) * (9 / 4 + 4 * p + p * (1 - 4 * p)) = 9 / 16 - (p + 6 * p ^ 2 - 4 * p ^ 3) := by ring
    linarith
  have hMh : 0 ≤ M / 6 * h ^ 3 := by positivity
  have := mul_le_mul_of_nonneg_left key hMh
  calc _ = M / 6 * h ^ 3 * (t * (1 - t) + 6 * (t * (1 - t)) ^ 2 - 4 * (t * (1 - t)) ^ 3) := by ring
    _ ≤ _ := this
    _ = _ := by ring

set_option maxHeartbeats 1000000 in
/-- C17: third-order accuracy. If `f` is three times differentiable over the grid's range with `|f'''| ≤ M` there, the
interpolated value at a sample with two grid points on each side differs from `f` by at most `(3/32)·M·h³`. -/
theorem C17_third_order (grid samples : List ℝ) (g0 h M : ℝ) (hm : 4 ≤ grid.length) (hh : 0 < h)
    (he : Equispaced grid g0 h) (f f1 f2 f3 : ℝ → ℝ)
    (d0 : ∀ y ∈ Set.Icc (grid.getD 0 0) (grid.getD (grid.length - 1) 0), HasDerivAt f (f1 y) y)
    (d1 : ∀ y ∈ Set.Icc (grid.getD 0 0) (grid.getD (grid.length - 1) 0), HasDerivAt f1 (f2 y) y)
    (d2 : ∀ y ∈ Set.Icc (grid.getD 0 0) (grid.getD (grid.length - 1) 0), HasDerivAt f2 (f3 y) y)
    (hM : ∀ y ∈ Set.Icc (grid.getD 0 0) (grid.getD (grid.length - 1) 0), |f3 y| ≤ M) :
    ∃ R, interpCubic (NDArr.vec grid) (NDArr.vec samples) = .ok R ∧
      ∀ i < samples.length,
        grid.getD 1 0 ≤ samples.getD i 0 → samples.getD i 0 ≤ grid.getD (grid.length - 2) 0 →
        |∑ j ∈ Finset.range grid.length, R.get i j * f (grid.getD j 0) - f (samples.getD i 0)| ≤ 3 / 32 * M * h ^ 3 := by
  obtain ⟨R', hR', hG⟩ := C16_exact_at_grid_points grid samples g0 h hm hh.ne' he f
  refine ⟨R', hR', fun i hi h1 h2 => ?_⟩
  have g00 : grid.getD 0 0 = g0 := by rw [he 0 (by omega)]; simp
  have gin : ∀ k < grid.length, grid.getD k 0 ∈ Set.Icc (grid.getD 0 0) (grid.getD (grid.length - 1) 0) := by
    intro k hk
    rw [he k hk, he _ (by omega : grid.length - 1 < _), g00]
    have hk' : (k : ℝ) ≤ ((grid.length - 1 : ℕ) : ℝ) := by exact_mod_cast (by omega : k ≤ grid.length - 1)
    constructor
    · have : 0 ≤ (k : ℝ) * h := by positivity
      linarith
    · have := mul_le_mul_of_nonneg_right hk' hh.le
      linarith
  have hM0 : 0 ≤ M := (abs_nonneg _).trans (hM _ (gin 0 (by omega)))
  rcases h2.eq_or_lt with h2 | h2
  · rw [hG i hi _ (by omega) h2]
    simp; positivity
  · rw [interpCubic_eq hm] at hR'
    obtain rfl := Except.ok.inj hR'
    obtain ⟨k, t, hk1, hk2, t0, t1, e⟩ := interior_cell hm hh he h1 h2
    rw [Finset.sum_congr rfl fun j hj => by rw [Csr.ofFn_get hi (Finset.mem_range.1 hj)]]
    rw [factor_equispaced hm he, e, interpRow_interior hk1 hk2 t0 t1 (fun j => f (grid.getD j 0))]
    set s := samples.getD i 0 with hsdef
    have hs : s = g0 + (k + t) * h := by
      rw [← e]; field_simp; ring
    have sin : s ∈ Set.Icc (grid.getD 0 0) (grid.getD (grid.length - 1) 0) :=
      ⟨(gin 1 (by omega)).1.trans h1, h2.le.trans (gin _ (by omega)).2⟩
    have T := fun k (hk : k < grid.length) => taylor_abs sin (gin k hk) d0 d1 d2 hM
    have x2 : grid.getD (k + 2) 0 - s = (2 - t) * h := by rw [he _ (by omega), hs]; push_cast; ring
    have x1 : grid.getD (k + 1) 0 - s = (1 - t) * h := by rw [he _ (by omega), hs]; push_cast; ring
    have x0 : grid.getD k 0 - s = (-t) * h := by rw [he _ (by omega), hs]; ring
    have xm : grid.getD (k - 1) 0 - s = (-(1 + t)) * h := by
      rw [he _ (by omega), hs]; push_cast [Nat.cast_sub hk1]; ring
    have T2 := T (k + 2) (by omega)
    have T1 := T (k + 1) (by omega)
    have T0 := T k (by omega)
    have Tm := T (k - 1) (by omega)
    rw [x2, abs_of_nonneg (by have : 0 ≤ 2 - t := by linarith
                              positivity : (0 : ℝ) ≤ (2 - t) * h)] at T2
    rw [x1, abs_of_nonneg (by have : 0 ≤ 1 - t := by linarith
                              positivity : (0 : ℝ) ≤ (1 - t) * h)] at T1
    rw [x0, show (-t) * h = -(t * h) by ring, abs_neg, abs_of_nonneg (by positivity : (0 : ℝ) ≤ t * h)] at T0
    rw [xm, show (-(1 + t)) * h = -((1 + t) * h) by ring, abs_neg, abs_of_nonneg (by positivity : (0 : ℝ) ≤ (1 + t) * h)] at Tm
    rw [abs_le] at T2 T1 T0 Tm ⊢
    generalize f (grid.getD (k + 2) 0) = y2 at *
    generalize f (grid.getD (k + 1) 0) = y1 at *
    generalize f (grid.getD k 0) = y0 at *
    generalize f (grid.getD (k - 1) 0) = ym at *
    generalize f s = a at *
    generalize f1 s = b at *
    generalize f2 s = c at *
    rw [keys_m2 t0 t1.le, keys_m1 t0 t1.le, keys_0 t0 t1.le, keys_p1 t0 t1.le]
    have hv : 0 ≤ 1 - t := by linarith
    have w2 : 0 ≤ -(1 / 2 * t ^ 3 - 1 / 2 * t ^ 2) := by
      have : -(1 / 2 * t ^ 3 - 1 / 2 * t ^ 2) = 1 / 2 * (t ^ 2 * (1 - t)) := by ring
      rw [this]; positivity
    have w1 : 0 ≤ -3 / 2 * t ^ 3 + 2 * t ^ 2 + 1 / 2 * t := by
      have : -3 / 2 * t ^ 3 + 2 * t ^ 2 + 1 / 2 * t = t * (1 / 2 + t / 2 + 3 / 2 * (t * (1 - t))) := by ring
      rw [this]; positivity
    have w0 : 0 ≤ 3 / 2 * t ^ 3 - 5 / 2 * t ^ 2 + 1 := by
      have : 3 / 2 * t ^ 3 - 5 / 2 * t ^ 2 + 1 = (1 - t) * (1 + t + -3 / 2 * t ^ 2) := by ring
      rw [this]
      refine mul_nonneg hv ?_
      nlinarith
    have wm : 0 ≤ -(-1 / 2 * t ^ 3 + t ^ 2 - 1 / 2 * t) := by
      have : -(-1 / 2 * t ^ 3 + t ^ 2 - 1 / 2 * t) = 1 / 2 * (t * (1 - t) ^ 2) := by ring
      rw [this]; positivity
    -- the weighted sum of the absolute remainders
    have hS := weighted_remainder hM0 hh t0 t1.le
    have a1 := mul_le_mul_of_nonneg_left T2.1 w2
    have a2 := mul_le_mul_of_nonneg_left T2.2 w2
    have b1 := mul_le_mul_of_nonneg_left T1.1 w1
    have b2 := mul_le_mul_of_nonneg_left T1.2 w1
    have c1 := mul_le_mul_of_nonneg_left T0.1 w0
    have c2 := mul_le_mul_of_nonneg_left T0.2 w0
    have e1 := mul_le_mul_of_nonneg_left Tm.1 wm
    have e2 := mul_le_mul_of_nonneg_left Tm.2 wm
    have id : (1 / 2 * t ^ 3 - 1 / 2 * t ^ 2) * y2 + (-3 / 2 * t ^ 3 + 2 * t ^ 2 + 1 / 2 * t) * y1 +
        (3 / 2 * t ^ 3 - 5 / 2 * t ^ 2 + 1) * y0 + (-1 / 2 * t ^ 3 + t ^ 2 - 1 / 2 * t) * ym - a =
        -(-(1 / 2 * t ^ 3 - 1 / 2 * t ^ 2) * (y2 - (a + b * ((2 - t) * h) + c / 2 * ((2 - t) * h) ^ 2))) +
        (-3 / 2 * t ^ 3 + 2 * t ^ 2 + 1 / 2 * t) * (y1 - (a + b * ((1 - t) * h) + c / 2 * ((1 - t) * h) ^ 2)) +
        (3 / 2 * t ^ 3 - 5 / 2 * t ^ 2 + 1) * (y0 - (a + b * (-(t * h)) + c / 2 * (-(t * h)) ^ 2)) -
        -(-1 / 2 * t ^ 3 + t ^ 2 - 1 / 2 * t) * (ym - (a + b * (-((1 + t) * h)) + c / 2 * (-((1 + t) * h)) ^ 2)) := by
      ring
    rw [id]
    constructor <;> linarith

/-- the bound at work: `x³` on a unit grid is reproduced within `9/16` -/
example : ∃ R, interpCubic (NDArr.vec [0, 1, 2, 3]) (NDArr.vec [1.25]) = .ok R ∧
    |∑ j ∈ Finset.range 4, R.get 0 j * ([0, 1, 2, 3].getD j 0) ^ 3 - (1.25 : ℝ) ^ 3| ≤ 9 / 16 := by
  have he : Equispaced [0, 1, 2, 3] 0 1 := by
    intro i hi
    simp only [List.length_cons, List.length_nil] at hi
    interval_cases i <;> norm_num
  obtain ⟨R, h, h'⟩ := C17_third_order [0, 1, 2, 3] [1.25] 0 1 6 (by simp) (by norm_num) he
    (fun x => x ^ 3) (fun x => 3 * x ^ 2) (fun x => 6 * x) (fun _ => 6)
    (fun y _ => by simpa using hasDerivAt_pow 3 y)
    (fun y _ => ((hasDerivAt_pow 2 y).const_mul 3).congr_deriv (by ring))
    (fun y _ => ((hasDerivAt_id y).const_mul 6).congr_deriv (by ring))
    (fun y _ => by norm_num)
  refine ⟨R, h, ?_⟩
  have := h' 0 (by simp) (by norm_num) (by norm_num)
  norm_num at this ⊢
  exact this

/-! ### C18 -/

/-- C18: a sample more than one cell below the first grid point (in particular two cells below) gets the first unit
row; a sample at least one cell above the last grid point gets the last unit row. -/
theorem C18_clamped (grid samples : List ℝ) (g0 h : ℝ) (hm : 4 ≤ grid.length) (hh : 0 < h) (he : Equispaced grid g0 h) :
    ∃ R, interpCubic (NDArr.vec grid) (NDArr.vec samples) = .ok R ∧
      ∀ i < samples.length, ∀ j < grid.length,
        (samples.getD i 0 < grid.getD 0 0 - h → R.get i j = if j = 0 then 1 else 0) ∧
        (grid.getD (grid.length - 1) 0 + h ≤ samples.getD i 0 → R.get i j = if j = grid.length - 1 then 1 else 0) := by
  refine ⟨_, interpCubic_eq hm, fun i hi j hj => ⟨fun hs => ?_, fun hs => ?_⟩⟩
  · rw [Csr.ofFn_get hi hj, factor_equispaced hm he]
    refine interpRow_below (by omega) ?_ j hj
    rw [he 0 (by omega)] at hs
    rw [div_lt_iff₀ hh]; push_cast at hs; linarith
  · rw [Csr.ofFn_get hi hj, factor_equispaced hm he]
    refine interpRow_above (by omega) ?_ j hj
    rw [he _ (by omega)] at hs
    rw [le_div_iff₀ hh]
    have : ((grid.length - 1 : ℕ) : ℝ) = grid.length - 1 := by push_cast [Nat.cast_sub (by omega : 1 ≤ grid.length)]; ring
    rw [this] at hs
    linarith

example : ∃ R, interpCubic (NDArr.vec [0, 1, 2, 3]) (NDArr.vec [-2, 4]) = .ok R ∧ R.get 0 0 = 1 ∧ R.get 1 3 = 1 := by
  have he : Equispaced [0, 1, 2, 3] 0 1 := by
    intro i hi
    simp only [List.length_cons, List.length_nil] at hi
    interval_cases i <;> norm_num
  obtain ⟨R, h, h'⟩ := C18_clamped [0, 1, 2, 3] [-2, 4] 0 1 (by simp) (by norm_num) he
  refine ⟨R, h, ?_, ?_⟩
  · have := (h' 0 (by simp) 0 (by simp)).1 (by norm_num)
    simpa using this
  · have := (h' 1 (by simp) 3 (by simp)).2 (by norm_num)
    simpa using this

/-! ### C23 -/

/-- C23 is false of the code: a grid that is not equispaced is accepted. -/
theorem C23_unequal_spacing_accepted :
    ∃ grid samples : List ℝ, samples ≠ [] ∧ 4 ≤ grid.length ∧ (¬ ∃ g0 h, Equispaced grid g0 h) ∧
      ∃ R, interpCubic (NDArr.vec grid) (NDArr.vec samples) = .ok R := by
  refine ⟨[0, 1, 2, 100], [0.5], by simp, by simp, ?_, _, interpCubic_eq (by simp)⟩
  rintro ⟨g0, h, he⟩
  have e0 := he 0 (by simp)
  have e1 := he 1 (by simp)
  have e3 := he 3 (by simp)
  norm_num at e0 e1 e3
  subst e0
  have : h = 1 := by linarith
  subst this
  norm_num at e3

/-- C23, the part that holds: with at least one sample, `interp_cubic` raises `ValueError` exactly for the other two
documented reasons (grid or samples not 1-D, fewer than four grid points). Missing: the equispacing check
(see `C23_unequal_spacing_accepted`), and with no samples at all nothing is checked. -/
theorem C23_shape_checks_partial (grid samples : NDArr ℝ) (hg : grid.WF) (hs : samples.WF) (h0 : grid.shape ≠ [])
    (hn : samples.data ≠ []) :
    (interpCubic grid samples = .error .valueError ↔
      grid.shape.length ≠ 1 ∨ samples.shape.length ≠ 1 ∨ grid.data.length < 4) ∧
    (¬ (grid.shape.length ≠ 1 ∨ samples.shape.length ≠ 1 ∨ grid.data.length < 4) → ∃ R, interpCubic grid samples = .ok R) := by
  have hl : samples.data.length ≠ 0 := by simpa using hn
  obtain ⟨gs, gd⟩ := grid
  obtain ⟨ss, sd⟩ := samples
  cases gs with
  | nil => exact absurd rfl h0
  | cons n gs =>
    simp only at hl hn
    by_cases h1 : gs = []
    · subst h1
      have hn' : gd.length = n := by simpa [NDArr.WF] using hg
      subst hn'
      by_cases h2 : ss.length = 1
      · obtain ⟨k, rfl⟩ := List.length_eq_one_iff.1 h2
        have hk : sd.length = k := by simpa [NDArr.WF] using hs
        subst hk
        by_cases h4 : gd.length < 4
        · have : interpCubic ⟨[gd.length], gd⟩ ⟨[sd.length], sd⟩ = .error .valueError := by
            simp only [interpCubic, NDArr.len, ok_bind, NDArr.ndim, hl, if_false, h4, if_true]
            simp
          exact ⟨⟨fun _ => by simp [h4], fun _ => this⟩, fun h => absurd (by simp [h4]) h⟩
        · have e := interpCubic_eq (samples := sd) (not_lt.1 h4)
          simp only [NDArr.vec] at e
          refine ⟨⟨fun h => ?_, fun h => ?_⟩, fun _ => ⟨_, e⟩⟩
          · rw [e] at h; cases h
          · simp at h; omega
      · have : interpCubic ⟨[gd.length], gd⟩ ⟨ss, sd⟩ = .error .valueError := by
          simp only [interpCubic, NDArr.len, ok_bind, NDArr.ndim, hl, if_false]
          rw [if_neg (by simp), if_pos h2]
        exact ⟨⟨fun _ => Or.inr (Or.inl h2), fun _ => this⟩, fun h => absurd (Or.inr (Or.inl h2)) h⟩
    · have hne : (n :: gs).length ≠ 1 := by simpa using h1
      have : interpCubic ⟨n :: gs, gd⟩ ⟨ss, sd⟩ = .error .valueError := by
        simp only [interpCubic, NDArr.len, ok_bind, NDArr.ndim, hl, if_false]
        rw [if_pos hne]
      exact ⟨⟨fun _ => Or.inl hne, fun _ => this⟩, fun h => absurd (Or.inl hne) h⟩

end Verif
