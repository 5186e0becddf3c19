import Verif.Proofs.SkiPsd
import Verif.Spec.SkiAccuracy
import Verif.Props.Interp
import Verif.Props.Likelihood2
import Mathlib.Analysis.SpecialFunctions.Sqrt
import Mathlib.Analysis.SpecialFunctions.Trigonometric.Deriv

/-! Accuracy of cubic interpolation of stationary kernels on product grids. -/

namespace Verif

/-! ### functions with a cubic remainder -/

/-- `ψ` has a second-order expansion at every point with remainder at most `M/6·|δ|³` -/
def Taylor3 (M : ℝ) (ψ : ℝ → ℝ) : Prop :=
  ∀ s, ∃ b c, ∀ δ, |ψ (s + δ) - (ψ s + b * δ + c / 2 * δ ^ 2)| ≤ M / 6 * |δ| ^ 3

theorem Taylor3.shift {M : ℝ} {ψ : ℝ → ℝ} (h : Taylor3 M ψ) (c : ℝ) : Taylor3 M fun t => ψ (t - c) := by
  intro s
  obtain ⟨b, d, hb⟩ := h (s - c)
  refine ⟨b, d, fun δ => ?_⟩
  have := hb δ
  rw [show s - c + δ = s + δ - c by ring] at this
  exact this

theorem taylor3_of_deriv {ψ ψ1 ψ2 ψ3 : ℝ → ℝ} {M : ℝ} (d0 : ∀ y, HasDerivAt ψ (ψ1 y) y) (d1 : ∀ y, HasDerivAt ψ1 (ψ2 y) y)
    (d2 : ∀ y, HasDerivAt ψ2 (ψ3 y) y) (hM : ∀ y, |ψ3 y| ≤ M) (s δ : ℝ) :
    |ψ (s + δ) - (ψ s + ψ1 s * δ + ψ2 s / 2 * δ ^ 2)| ≤ M / 6 * |δ| ^ 3 := by
  have := taylor_abs (f := ψ) (f1 := ψ1) (f2 := ψ2) (f3 := ψ3) (lo := min s (s + δ)) (hi := max s (s + δ)) (s := s) (x := s + δ) (M := M)
    ⟨min_le_left _ _, le_max_left _ _⟩ ⟨min_le_right _ _, le_max_right _ _⟩ (fun y _ => d0 y) (fun y _ => d1 y) (fun y _ => d2 y) fun y _ => hM y
  rw [show s + δ - s = δ by ring] at this
  exact this

/-- `g` agrees for non-negative arguments with a three times differentiable function whose slope vanishes at 0 and whose third derivative is
at most `M` there -/
structure Radial (g : ℝ → ℝ) (M : ℝ) : Prop where
  ex : ∃ G G1 G2 G3 : ℝ → ℝ, (∀ r, 0 ≤ r → g r = G r) ∧ (∀ r, HasDerivAt G (G1 r) r) ∧ (∀ r, HasDerivAt G1 (G2 r) r) ∧
    (∀ r, HasDerivAt G2 (G3 r) r) ∧ G1 0 = 0 ∧ ∀ r, 0 ≤ r → |G3 r| ≤ M

theorem radial_slope {G1 G2 G3 : ℝ → ℝ} {M : ℝ} (d1 : ∀ r, HasDerivAt G1 (G2 r) r) (d2 : ∀ r, HasDerivAt G2 (G3 r) r) (h0 : G1 0 = 0)
    (hM : ∀ r, 0 ≤ r → |G3 r| ≤ M) {r : ℝ} (hr : 0 ≤ r) : |r * G2 r - G1 r| ≤ M / 2 * r ^ 2 := by
  have dq : ∀ y, HasDerivAt (fun y => y * G2 y - G1 y) (y * G3 y) y := by
    intro y
    refine (((hasDerivAt_id y).mul (d2 y)).sub (d1 y)).congr_deriv ?_
    simp
  have dp : ∀ y, HasDerivAt (fun y : ℝ => M / 2 * y ^ 2) (M * y) y := by
    intro y
    refine ((hasDerivAt_pow 2 y).const_mul (M / 2)).congr_deriv ?_
    norm_num; ring
  have a := nonneg_of_deriv_nonneg (h := fun y => M / 2 * y ^ 2 - (y * G2 y - G1 y)) (h' := fun y => M * y - y * G3 y) hr (by simp [h0])
    (fun y _ => (dp y).sub (dq y)) (fun y hy => by
      have := (abs_le.1 (hM y hy.1)).2
      nlinarith [hy.1]) r ⟨hr, le_rfl⟩
  have b := nonneg_of_deriv_nonneg (h := fun y => M / 2 * y ^ 2 + (y * G2 y - G1 y)) (h' := fun y => M * y + y * G3 y) hr (by simp [h0])
    (fun y _ => (dp y).add (dq y)) (fun y hy => by
      have := (abs_le.1 (hM y hy.1)).1
      nlinarith [hy.1]) r ⟨hr, le_rfl⟩
  rw [abs_le]
  constructor <;> linarith

section
variable {G G1 G2 G3 : ℝ → ℝ} {M : ℝ}

theorem radial_pos (d0 : ∀ r, HasDerivAt G (G1 r) r) (d1 : ∀ r, HasDerivAt G1 (G2 r) r) (d2 : ∀ r, HasDerivAt G2 (G3 r) r) (h0 : G1 0 = 0)
    (hM : ∀ r, 0 ≤ r → |G3 r| ≤ M) {w : ℝ} (hw : 0 < w) (s δ : ℝ) :
    |G (Real.sqrt ((s + δ) ^ 2 + w)) - (G (Real.sqrt (s ^ 2 + w)) + G1 (Real.sqrt (s ^ 2 + w)) * (s / Real.sqrt (s ^ 2 + w)) * δ +
      (G2 (Real.sqrt (s ^ 2 + w)) * (s / Real.sqrt (s ^ 2 + w)) ^ 2 + G1 (Real.sqrt (s ^ 2 + w)) * (w / Real.sqrt (s ^ 2 + w) ^ 3)) / 2 * δ ^ 2)| ≤
      5 / 2 * M / 6 * |δ| ^ 3 := by
  have pos : ∀ u : ℝ, 0 < Real.sqrt (u ^ 2 + w) := fun u => Real.sqrt_pos.2 (by positivity)
  have sq : ∀ u : ℝ, Real.sqrt (u ^ 2 + w) ^ 2 = u ^ 2 + w := fun u => Real.sq_sqrt (by positivity)
  have dr : ∀ u : ℝ, HasDerivAt (fun u => Real.sqrt (u ^ 2 + w)) (u / Real.sqrt (u ^ 2 + w)) u := by
    intro u
    have h1 : HasDerivAt (fun u : ℝ => u ^ 2 + w) (2 * u) u := by
      refine ((hasDerivAt_pow 2 u).add_const w).congr_deriv ?_
      norm_num
    refine (h1.sqrt (by positivity)).congr_deriv ?_
    have := (pos u).ne'
    field_simp
  have dq : ∀ u : ℝ, HasDerivAt (fun u => u / Real.sqrt (u ^ 2 + w)) (w / Real.sqrt (u ^ 2 + w) ^ 3) u := by
    intro u
    refine ((hasDerivAt_id u).div (dr u) (pos u).ne').congr_deriv ?_
    have h1 := sq u
    have h2 := (pos u).ne'
    simp only [id]
    generalize Real.sqrt (u ^ 2 + w) = r at *
    field_simp
    rw [h1]; ring
  have dk : ∀ u : ℝ, HasDerivAt (fun u => w / Real.sqrt (u ^ 2 + w) ^ 3) (-3 * w * u / Real.sqrt (u ^ 2 + w) ^ 5) u := by
    intro u
    refine ((hasDerivAt_const u w).fun_div ((dr u).fun_pow 3) (pow_ne_zero 3 (pos u).ne')).congr_deriv ?_
    have h2 := (pos u).ne'
    generalize Real.sqrt (u ^ 2 + w) = r at *
    norm_num
    field_simp
  refine taylor3_of_deriv (ψ := fun u => G (Real.sqrt (u ^ 2 + w))) (ψ1 := fun u => G1 (Real.sqrt (u ^ 2 + w)) * (u / Real.sqrt (u ^ 2 + w)))
    (ψ2 := fun s => G2 (Real.sqrt (s ^ 2 + w)) * (s / Real.sqrt (s ^ 2 + w)) ^ 2 + G1 (Real.sqrt (s ^ 2 + w)) * (w / Real.sqrt (s ^ 2 + w) ^ 3))
    (ψ3 := fun u => G3 (Real.sqrt (u ^ 2 + w)) * (u / Real.sqrt (u ^ 2 + w)) ^ 3 +
      3 * (u * w / Real.sqrt (u ^ 2 + w) ^ 5) * (Real.sqrt (u ^ 2 + w) * G2 (Real.sqrt (u ^ 2 + w)) - G1 (Real.sqrt (u ^ 2 + w))))
    (fun u => (d0 _).comp u (dr u)) ?_ ?_ ?_ s δ
  · intro u
    refine (((d1 _).comp u (dr u)).mul (dq u)).congr_deriv ?_
    simp only [Function.comp_apply]
    ring
  · intro u
    refine ((((d2 _).comp u (dr u)).mul ((dq u).fun_pow 2)).add (((d1 _).comp u (dr u)).mul (dk u))).congr_deriv ?_
    simp only [Function.comp_apply]
    have h2 := (pos u).ne'
    generalize Real.sqrt (u ^ 2 + w) = r at *
    norm_num
    field_simp
    ring
  · intro u
    have h1 := sq u
    have h2 := pos u
    have h3 := hM _ h2.le
    have h4 := radial_slope d1 d2 h0 hM h2.le
    generalize Real.sqrt (u ^ 2 + w) = r at *
    have hM0 : 0 ≤ M := (abs_nonneg _).trans h3
    have hur : |u| ≤ r := abs_le_of_sq_le_sq (by nlinarith) h2.le
    have hq : |u / r| ≤ 1 := by
      rw [abs_div, abs_of_pos h2, div_le_one h2]; exact hur
    have t1 : |G3 r * (u / r) ^ 3| ≤ M := by
      rw [abs_mul, abs_pow]
      calc |G3 r| * |u / r| ^ 3 ≤ M * 1 := mul_le_mul h3 (pow_le_one₀ (abs_nonneg _) hq) (by positivity) hM0
        _ = M := mul_one M
    have hw2 : w ≤ r ^ 2 := by rw [h1]; nlinarith [sq_nonneg u]
    have t2 : |3 * (u * w / r ^ 5) * (r * G2 r - G1 r)| ≤ 3 / 2 * M := by
      rw [abs_mul, abs_mul, abs_div, abs_mul, abs_of_pos (by norm_num : (0 : ℝ) < 3), abs_of_pos hw, abs_of_pos (pow_pos h2 5)]
      have e : |u| * w / r ^ 5 ≤ 1 / r ^ 2 := by
        rw [div_le_div_iff₀ (pow_pos h2 5) (pow_pos h2 2)]
        have : |u| * w ≤ r * r ^ 2 := mul_le_mul hur hw2 hw.le h2.le
        calc |u| * w * r ^ 2 ≤ r * r ^ 2 * r ^ 2 := mul_le_mul_of_nonneg_right this (by positivity)
          _ = 1 * r ^ 5 := by ring
      calc 3 * (|u| * w / r ^ 5) * |r * G2 r - G1 r| ≤ 3 * (1 / r ^ 2) * (M / 2 * r ^ 2) :=
            mul_le_mul (mul_le_mul_of_nonneg_left e (by norm_num)) h4 (abs_nonneg _) (by positivity)
        _ = 3 / 2 * M := by field_simp
    calc _ ≤ |G3 r * (u / r) ^ 3| + |3 * (u * w / r ^ 5) * (r * G2 r - G1 r)| := abs_add_le _ _
      _ ≤ M + 3 / 2 * M := add_le_add t1 t2
      _ = 5 / 2 * M := by ring

end

/-- along a line a radial function has a cubic remainder -/
theorem Radial.taylor3 {g : ℝ → ℝ} {M : ℝ} (h : Radial g M) {w : ℝ} (hw : 0 ≤ w) : Taylor3 (5 / 2 * M) fun u => g (Real.sqrt (u ^ 2 + w)) := by
  obtain ⟨G, G1, G2, G3, hg, d0, d1, d2, h0, hM⟩ := h.ex
  have hM0 : 0 ≤ M := (abs_nonneg _).trans (hM 0 le_rfl)
  intro s
  simp only [hg _ (Real.sqrt_nonneg _)]
  rcases hw.eq_or_lt with rfl | hw
  · by_cases hs : s = 0
    · subst hs
      refine ⟨0, G2 0, fun δ => ?_⟩
      have := taylor_right_abs (f := G) (f1 := G1) (f2 := G2) (f3 := G3) (s := 0) (x := |δ|) (M := M) (abs_nonneg δ) (fun y _ => d0 y) (fun y _ => d1 y)
        (fun y _ => d2 y) fun y hy => hM y hy.1
      rw [h0, sub_zero, sq_abs, zero_mul, add_zero] at this
      simp only [zero_add, add_zero, zero_mul]
      rw [Real.sqrt_sq_eq_abs, show (0 : ℝ) ^ 2 = 0 by norm_num, Real.sqrt_zero]
      refine this.trans ?_
      have : 0 ≤ |δ| ^ 3 := by positivity
      nlinarith
    · set b := G1 (Real.sqrt (s ^ 2 + 0)) * (s / Real.sqrt (s ^ 2 + 0)) with hb
      set c := G2 (Real.sqrt (s ^ 2 + 0)) * (s / Real.sqrt (s ^ 2 + 0)) ^ 2 + G1 (Real.sqrt (s ^ 2 + 0)) * (0 / Real.sqrt (s ^ 2 + 0) ^ 3) with hc
      refine ⟨b, c, fun δ => ?_⟩
      have c0 : Continuous G := continuous_iff_continuousAt.2 fun r => (d0 r).continuousAt
      have c1 : Continuous G1 := continuous_iff_continuousAt.2 fun r => (d1 r).continuousAt
      have c2 : Continuous G2 := continuous_iff_continuousAt.2 fun r => (d2 r).continuousAt
      have hr : Real.sqrt (s ^ 2 + 0) ≠ 0 := by
        rw [add_zero, Real.sqrt_sq_eq_abs]; exact abs_ne_zero.2 hs
      have cr : ∀ u : ℝ, ContinuousAt (fun w : ℝ => Real.sqrt (u ^ 2 + w)) 0 := fun u =>
        (Real.continuous_sqrt.comp (continuous_const.add continuous_id)).continuousAt
      have cq : ContinuousAt (fun w : ℝ => s / Real.sqrt (s ^ 2 + w)) 0 := continuousAt_const.div (cr s) hr
      have ck : ContinuousAt (fun w : ℝ => w / Real.sqrt (s ^ 2 + w) ^ 3) 0 := continuousAt_id.div ((cr s).pow 3) (pow_ne_zero 3 hr)
      have e0 : ∀ u : ℝ, ContinuousAt (fun w : ℝ => G (Real.sqrt (u ^ 2 + w))) 0 := fun u => ContinuousAt.comp (f := fun w : ℝ => Real.sqrt (u ^ 2 + w)) c0.continuousAt (cr u)
      have e1 : ContinuousAt (fun w : ℝ => G1 (Real.sqrt (s ^ 2 + w))) 0 := ContinuousAt.comp (f := fun w : ℝ => Real.sqrt (s ^ 2 + w)) c1.continuousAt (cr s)
      have e2 : ContinuousAt (fun w : ℝ => G2 (Real.sqrt (s ^ 2 + w))) 0 := ContinuousAt.comp (f := fun w : ℝ => Real.sqrt (s ^ 2 + w)) c2.continuousAt (cr s)
      have cont : ContinuousAt (fun w : ℝ => |G (Real.sqrt ((s + δ) ^ 2 + w)) - (G (Real.sqrt (s ^ 2 + w)) + G1 (Real.sqrt (s ^ 2 + w)) * (s / Real.sqrt (s ^ 2 + w)) * δ +
          (G2 (Real.sqrt (s ^ 2 + w)) * (s / Real.sqrt (s ^ 2 + w)) ^ 2 + G1 (Real.sqrt (s ^ 2 + w)) * (w / Real.sqrt (s ^ 2 + w) ^ 3)) / 2 * δ ^ 2)|) 0 :=
        ((e0 _).sub (((e0 _).add ((e1.mul cq).mul continuousAt_const)).add ((((e2.mul (cq.pow 2)).add (e1.mul ck)).div_const 2).mul continuousAt_const))).abs
      have lim := cont.tendsto.mono_left (nhdsWithin_le_nhds (s := Set.Ioi (0 : ℝ)))
      exact le_of_tendsto lim (Filter.eventually_of_mem self_mem_nhdsWithin fun w hw => radial_pos d0 d1 d2 h0 hM hw s δ)
  · exact ⟨_, _, fun δ => radial_pos d0 d1 d2 h0 hM hw s δ⟩

/-! ### one axis -/

theorem taylor3_nonneg {M : ℝ} {ψ : ℝ → ℝ} (h : Taylor3 M ψ) : 0 ≤ M := by
  obtain ⟨b, c, hb⟩ := h 0
  have := (abs_nonneg _).trans (hb 1)
  norm_num at this
  linarith

/-- interpolating a function with a cubic remainder at a point with two grid points on each side -/
theorem axis_error {grid : List ℝ} {g0 h M s : ℝ} (hm : 4 ≤ grid.length) (hh : 0 < h) (he : Equispaced grid g0 h) {f : ℝ → ℝ} (hf : Taylor3 M f)
    (h1 : grid.getD 1 0 ≤ s) (h2 : s ≤ grid.getD (grid.length - 2) 0) :
    |∑ j ∈ Finset.range grid.length, keysWeight grid s j * f (grid.getD j 0) - f s| ≤ 3 / 32 * M * h ^ 3 := by
  have hM0 := taylor3_nonneg hf
  simp only [keysWeight_eq]
  rcases h2.eq_or_lt with h2 | h2
  · rw [factor_equispaced hm he]
    have e : (s - g0) / h = ((grid.length - 2 : ℕ) : ℝ) := by
      rw [h2, he _ (by omega)]; field_simp; ring
    rw [e, interpRow_gridpoint (by omega) (fun j => f (grid.getD j 0)), h2]
    simp; positivity
  · obtain ⟨k, t, hk1, hk2, t0, t1, e⟩ := interior_cell hm hh he h1 h2
    rw [factor_equispaced hm he, e, interpRow_interior hk1 hk2 t0 t1 (fun j => f (grid.getD j 0))]
    have hs : s = g0 + (k + t) * h := by
      rw [← e]; field_simp; ring
    obtain ⟨b, c, T⟩ := hf s
    have x2 : grid.getD (k + 2) 0 = s + (2 - t) * h := by rw [he _ (by omega), hs]; push_cast; ring
    have x1 : grid.getD (k + 1) 0 = s + (1 - t) * h := by rw [he _ (by omega), hs]; push_cast; ring
    have x0 : grid.getD k 0 = s + -(t * h) := by rw [he _ (by omega), hs]; ring
    have xm : grid.getD (k - 1) 0 = s + -((1 + t) * h) := by
      rw [he _ (by omega), hs]; push_cast [Nat.cast_sub hk1]; ring
    rw [x2, x1, x0, xm]
    have T2 := T ((2 - t) * h)
    have T1 := T ((1 - t) * h)
    have T0 := T (-(t * h))
    have Tm := T (-((1 + t) * h))
    rw [abs_of_nonneg (by have : 0 ≤ 2 - t := by linarith
                          positivity : (0 : ℝ) ≤ (2 - t) * h)] at T2
    rw [abs_of_nonneg (by have : 0 ≤ 1 - t := by linarith
                          positivity : (0 : ℝ) ≤ (1 - t) * h)] at T1
    rw [abs_neg, abs_of_nonneg (by positivity : (0 : ℝ) ≤ t * h)] at T0
    rw [abs_neg, abs_of_nonneg (by positivity : (0 : ℝ) ≤ (1 + t) * h)] at Tm
    rw [abs_le] at T2 T1 T0 Tm ⊢
    generalize f (s + (2 - t) * h) = y2 at *
    generalize f (s + (1 - t) * h) = y1 at *
    generalize f (s + -(t * h)) = y0 at *
    generalize f (s + -((1 + t) * h)) = ym at *
    generalize f s = a at *
    rw [keys_m2 t0 t1.le, keys_m1 t0 t1.le, keys_0 t0 t1.le, keys_p1 t0 t1.le]
    have hv : 0 ≤ 1 - t := by linarith
    have w2 : 0 ≤ -(1 / 2 * t ^ 3 - 1 / 2 * t ^ 2) := by
      have : -(1 / 2 * t ^ 3 - 1 / 2 * t ^ 2) = 1 / 2 * (t ^ 2 * (1 - t)) := by ring
      rw [this]; positivity
    have w1 : 0 ≤ -3 / 2 * t ^ 3 + 2 * t ^ 2 + 1 / 2 * t := by
      have : -3 / 2 * t ^ 3 + 2 * t ^ 2 + 1 / 2 * t = t * (1 / 2 + t / 2 + 3 / 2 * (t * (1 - t))) := by ring
      rw [this]; positivity
    have w0 : 0 ≤ 3 / 2 * t ^ 3 - 5 / 2 * t ^ 2 + 1 := by
      have : 3 / 2 * t ^ 3 - 5 / 2 * t ^ 2 + 1 = (1 - t) * (1 + t + -3 / 2 * t ^ 2) := by ring
      rw [this]
      refine mul_nonneg hv ?_
      nlinarith
    have wm : 0 ≤ -(-1 / 2 * t ^ 3 + t ^ 2 - 1 / 2 * t) := by
      have : -(-1 / 2 * t ^ 3 + t ^ 2 - 1 / 2 * t) = 1 / 2 * (t * (1 - t) ^ 2) := by ring
      rw [this]; positivity
    have hS := weighted_remainder hM0 hh t0 t1.le
    have a1 := mul_le_mul_of_nonneg_left T2.1 w2
    have a2 := mul_le_mul_of_nonneg_left T2.2 w2
    have b1 := mul_le_mul_of_nonneg_left T1.1 w1
    have b2 := mul_le_mul_of_nonneg_left T1.2 w1
    have c1 := mul_le_mul_of_nonneg_left T0.1 w0
    have c2 := mul_le_mul_of_nonneg_left T0.2 w0
    have e1 := mul_le_mul_of_nonneg_left Tm.1 wm
    have e2 := mul_le_mul_of_nonneg_left Tm.2 wm
    have id : (1 / 2 * t ^ 3 - 1 / 2 * t ^ 2) * y2 + (-3 / 2 * t ^ 3 + 2 * t ^ 2 + 1 / 2 * t) * y1 +
        (3 / 2 * t ^ 3 - 5 / 2 * t ^ 2 + 1) * y0 + (-1 / 2 * t ^ 3 + t ^ 2 - 1 / 2 * t) * ym - a =
        -(-(1 / 2 * t ^ 3 - 1 / 2 * t ^ 2) * (y2 - (a + b * ((2 - t) * h) + c / 2 * ((2 - t) * h) ^ 2))) +
        (-3 / 2 * t ^ 3 + 2 * t ^ 2 + 1 / 2 * t) * (y1 - (a + b * ((1 - t) * h) + c / 2 * ((1 - t) * h) ^ 2)) +
        (3 / 2 * t ^ 3 - 5 / 2 * t ^ 2 + 1) * (y0 - (a + b * (-(t * h)) + c / 2 * (-(t * h)) ^ 2)) -
        -(-1 / 2 * t ^ 3 + t ^ 2 - 1 / 2 * t) * (ym - (a + b * (-((1 + t) * h)) + c / 2 * (-((1 + t) * h)) ^ 2)) := by
      ring
    rw [id]
    constructor <;> linarith

/-- the absolute values of the interpolation weights along an axis add up to at most 5/4 -/
theorem keysWeight_abs {grid : List ℝ} (hm : 0 < grid.length) (s : ℝ) : ∑ j ∈ Finset.range grid.length, |keysWeight grid s j| ≤ 5 / 4 := by
  simp only [keysWeight_eq]
  generalize interpFactor grid s = f
  generalize grid.length = m at *
  have hw : ∀ c ∈ convWindow, ∑ j ∈ Finset.range m, |interpW m f c j| = |keys (f - ⌊f⌋ + c)| := by
    intro c hc
    rw [Finset.sum_eq_single (clampIdx m (⌊f⌋ - c))]
    · rw [interpW, if_pos rfl, cubicEntry_eq_keys (frac_le hc)]
    · intro b _ hb
      rw [interpW, if_neg (Ne.symm hb), abs_zero]
    · intro hb; exact absurd (Finset.mem_range.2 (clampIdx_lt hm _)) hb
  have e : ∑ j ∈ Finset.range m, |interpRow m f j| ≤
      ∑ j ∈ Finset.range m, (|interpW m f (-2) j| + |interpW m f (-1) j| + |interpW m f 0 j| + |interpW m f 1 j|) := by
    refine Finset.sum_le_sum fun j _ => ?_
    rw [interpRow_eq]
    exact (abs_add_le _ _).trans (add_le_add ((abs_add_le _ _).trans (add_le_add (abs_add_le _ _) le_rfl)) le_rfl)
  refine e.trans ?_
  simp only [Finset.sum_add_distrib]
  rw [hw (-2) (by simp [convWindow]), hw (-1) (by simp [convWindow]), hw 0 (by simp [convWindow]), hw 1 (by simp [convWindow])]
  push_cast
  obtain ⟨t0, t1⟩ := frac_mem f
  rw [show f - ⌊f⌋ + -2 = f - ⌊f⌋ - 2 by ring, show f - ⌊f⌋ + -1 = f - ⌊f⌋ - 1 by ring, add_zero]
  generalize f - (⌊f⌋ : ℝ) = t at *
  have hv : 0 ≤ 1 - t := by linarith
  rw [keys_m2 t0 t1, keys_m1 t0 t1, keys_0 t0 t1, keys_p1 t0 t1]
  have w2 : |1 / 2 * t ^ 3 - 1 / 2 * t ^ 2| = 1 / 2 * (t ^ 2 * (1 - t)) := by
    rw [abs_of_nonpos]
    · ring
    · have : 0 ≤ 1 / 2 * (t ^ 2 * (1 - t)) := by positivity
      nlinarith
  have w1 : |-3 / 2 * t ^ 3 + 2 * t ^ 2 + 1 / 2 * t| = -3 / 2 * t ^ 3 + 2 * t ^ 2 + 1 / 2 * t := by
    rw [abs_of_nonneg]
    have : -3 / 2 * t ^ 3 + 2 * t ^ 2 + 1 / 2 * t = t * (1 / 2 + t / 2 + 3 / 2 * (t * (1 - t))) := by ring
    rw [this]; positivity
  have w0 : |3 / 2 * t ^ 3 - 5 / 2 * t ^ 2 + 1| = 3 / 2 * t ^ 3 - 5 / 2 * t ^ 2 + 1 := by
    rw [abs_of_nonneg]
    have : 3 / 2 * t ^ 3 - 5 / 2 * t ^ 2 + 1 = (1 - t) * (1 + t + -3 / 2 * t ^ 2) := by ring
    rw [this]
    refine mul_nonneg hv ?_
    nlinarith
  have wm : |-1 / 2 * t ^ 3 + t ^ 2 - 1 / 2 * t| = 1 / 2 * (t * (1 - t) ^ 2) := by
    rw [abs_of_nonpos]
    · ring
    · have : 0 ≤ 1 / 2 * (t * (1 - t) ^ 2) := by positivity
      nlinarith
  rw [w2, w1, w0, wm]
  nlinarith [sq_nonneg (t - 1 / 2)]

/-! ### product grids -/

theorem gridSize_cons (a : List ℝ) (axes : List (List ℝ)) : gridSize (a :: axes) = a.length * gridSize axes := by
  unfold gridSize
  rw [List.map_cons, List.prod_cons]

theorem sum_grid_cons {a : List ℝ} {axes : List (List ℝ)} (x : ℕ → ℝ) (F : List ℝ → ℝ) :
    ∑ p ∈ Finset.range (gridSize (a :: axes)), gridWeight (a :: axes) x p * F (gridPoint (a :: axes) p) =
      ∑ i ∈ Finset.range a.length, keysWeight a (x 0) i * ∑ p ∈ Finset.range (gridSize axes), gridWeight axes (fun k => x (k + 1)) p * F (a.getD i 0 :: gridPoint axes p) := by
  rw [gridSize_cons, sum_range_mul]
  refine Finset.sum_congr rfl fun i _ => ?_
  rw [Finset.mul_sum]
  refine Finset.sum_congr rfl fun p hp => ?_
  have hp : p < gridSize axes := Finset.mem_range.1 hp
  rw [gridWeight, gridPoint, show (axes.map List.length).prod = gridSize axes from rfl]
  rw [idx_div hp, idx_mod hp, mul_assoc]

theorem gridWeight_abs : ∀ (axes : List (List ℝ)), (∀ a ∈ axes, 0 < a.length) → ∀ x : ℕ → ℝ,
    ∑ p ∈ Finset.range (gridSize axes), |gridWeight axes x p| ≤ (5 / 4) ^ axes.length
  | [], _, x => by simp [gridSize, gridWeight]
  | a :: axes, h, x => by
    rw [gridSize_cons, sum_range_mul]
    have e : ∀ i ∈ Finset.range a.length, ∑ p ∈ Finset.range (gridSize axes), |gridWeight (a :: axes) x (i * gridSize axes + p)| ≤
        |keysWeight a (x 0) i| * (5 / 4) ^ axes.length := by
      intro i _
      calc _ = ∑ p ∈ Finset.range (gridSize axes), |keysWeight a (x 0) i| * |gridWeight axes (fun k => x (k + 1)) p| := by
            refine Finset.sum_congr rfl fun p hp => ?_
            have hp : p < gridSize axes := Finset.mem_range.1 hp
            rw [gridWeight, show (axes.map List.length).prod = gridSize axes from rfl, idx_div hp, idx_mod hp, abs_mul]
        _ = |keysWeight a (x 0) i| * ∑ p ∈ Finset.range (gridSize axes), |gridWeight axes (fun k => x (k + 1)) p| := by rw [Finset.mul_sum]
        _ ≤ _ := mul_le_mul_of_nonneg_left (gridWeight_abs axes (fun b hb => h b (by simp [hb])) _) (abs_nonneg _)
    refine (Finset.sum_le_sum e).trans ?_
    rw [← Finset.sum_mul, List.length_cons, pow_succ, mul_comm]
    exact mul_le_mul_of_nonneg_left (keysWeight_abs (h a (by simp)) _) (by positivity)

/-- the constant for `n` axes -/
noncomputable def gridConst : ℕ → ℝ
  | 0 => 0
  | n + 1 => 5 / 4 * gridConst n + 3 / 32

theorem gridConst_nonneg : ∀ n, 0 ≤ gridConst n
  | 0 => le_rfl
  | n + 1 => by
    have := gridConst_nonneg n
    rw [gridConst]; linarith

theorem grid_error {h M : ℝ} : ∀ (axes : List (List ℝ)), (∀ a ∈ axes, FineAxis h a) → ∀ (x : ℕ → ℝ), (∀ k < axes.length, InsideAxis (axes.getD k []) (x k)) →
    ∀ (F : List ℝ → ℝ), 0 ≤ M → (∀ u : List ℝ, u.length = axes.length → ∀ k < axes.length, Taylor3 M fun t => F (u.set k t)) →
    |∑ p ∈ Finset.range (gridSize axes), gridWeight axes x p * F (gridPoint axes p) - F (vmk axes.length x)| ≤ gridConst axes.length * M * h ^ 3
  | [], _, x, _, F, _, _ => by simp [gridSize, gridWeight, gridPoint, gridConst, vmk]
  | a :: axes, ha, x, hx, F, hM, hF => by
    obtain ⟨ha4, g0, d, hd, hdh, he⟩ := ha a (by simp)
    have hh : 0 < h := hd.trans_le hdh
    rw [sum_grid_cons]
    have inner : ∀ i ∈ Finset.range a.length, |∑ p ∈ Finset.range (gridSize axes), gridWeight axes (fun k => x (k + 1)) p * F (a.getD i 0 :: gridPoint axes p) -
        F (a.getD i 0 :: vmk axes.length fun k => x (k + 1))| ≤ gridConst axes.length * M * h ^ 3 := by
      intro i _
      refine grid_error axes (fun b hb => ha b (by simp [hb])) (fun k => x (k + 1)) (fun k hk => ?_) (fun u => F (a.getD i 0 :: u)) hM fun u hu k hk => ?_
      · have := hx (k + 1) (by simpa using hk)
        exact this
      · exact hF (a.getD i 0 :: u) (by simp [hu]) (k + 1) (by simpa using hk)
    have hv : vmk (a :: axes).length x = x 0 :: vmk axes.length fun k => x (k + 1) := by
      unfold vmk
      rw [List.length_cons, List.range_succ_eq_map, List.map_cons, List.map_map]
      rfl
    have outer := axis_error ha4 hd he (f := fun t => F (t :: vmk axes.length fun k => x (k + 1))) (M := M)
      (hF (0 :: vmk axes.length fun k => x (k + 1)) (by simp) 0 (by simp)) (hx 0 (by simp)).1 (hx 0 (by simp)).2
    rw [hv]
    set S := ∑ i ∈ Finset.range a.length, keysWeight a (x 0) i * F (a.getD i 0 :: vmk axes.length fun k => x (k + 1)) with hS
    have step : |∑ i ∈ Finset.range a.length, keysWeight a (x 0) i * ∑ p ∈ Finset.range (gridSize axes), gridWeight axes (fun k => x (k + 1)) p * F (a.getD i 0 :: gridPoint axes p) - S| ≤
        5 / 4 * (gridConst axes.length * M * h ^ 3) := by
      rw [hS, ← Finset.sum_sub_distrib]
      refine (Finset.abs_sum_le_sum_abs _ _).trans ?_
      refine (Finset.sum_le_sum (g := fun i => |keysWeight a (x 0) i| * (gridConst axes.length * M * h ^ 3)) fun i hi => ?_).trans ?_
      · rw [← mul_sub, abs_mul]
        exact mul_le_mul_of_nonneg_left (inner i hi) (abs_nonneg _)
      · rw [← Finset.sum_mul]
        exact mul_le_mul_of_nonneg_right (keysWeight_abs (by omega) _)
          (mul_nonneg (mul_nonneg (gridConst_nonneg _) hM) (by positivity))
    have hd3 : d ^ 3 ≤ h ^ 3 := pow_le_pow_left₀ hd.le hdh 3
    have outer' := outer.trans (mul_le_mul_of_nonneg_left hd3 (by positivity : 0 ≤ 3 / 32 * M))
    rw [List.length_cons, gridConst]
    have tri := abs_sub_le (∑ i ∈ Finset.range a.length, keysWeight a (x 0) i * ∑ p ∈ Finset.range (gridSize axes), gridWeight axes (fun k => x (k + 1)) p * F (a.getD i 0 :: gridPoint axes p)) S
      (F (x 0 :: vmk axes.length fun k => x (k + 1)))
    refine tri.trans ((add_le_add step outer').trans (le_of_eq ?_))
    ring

/-! ### stationary kernels -/

theorem euclid_symm (n : ℕ) (u v : List ℝ) : euclid n u v = euclid n v u := by
  unfold euclid
  congr 1
  exact Finset.sum_congr rfl fun p _ => by ring

theorem euclid_set {n k : ℕ} (hk : k < n) (u v : List ℝ) (hu : u.length = n) :
    ∃ w, 0 ≤ w ∧ ∀ t, euclid n v (u.set k t) = Real.sqrt ((t - v.getD k 0) ^ 2 + w) := by
  refine ⟨∑ p ∈ (Finset.range n).erase k, (v.getD p 0 - u.getD p 0) ^ 2, Finset.sum_nonneg fun p _ => sq_nonneg _, fun t => ?_⟩
  unfold euclid
  rw [← Finset.add_sum_erase _ _ (Finset.mem_range.2 hk)]
  congr 2
  · rw [set_getD u k k t 0 (by omega), if_pos rfl]
    ring
  · refine Finset.sum_congr rfl fun p hp => ?_
    rw [set_getD u k p t 0 (by omega), if_neg (Finset.mem_erase.1 hp).1]

theorem distOn_euclid (ad : List ℕ) (x z : ℕ → ℝ) : distOn ad x z = euclid ad.length (vmk ad.length (coords ad x)) (vmk ad.length (coords ad z)) := by
  unfold distOn euclid
  congr 1
  rw [map_eq_vmk _ 0]
  unfold vmk
  rw [list_sum_range]
  refine Finset.sum_congr rfl fun p hp => ?_
  have hp : p < ad.length := Finset.mem_range.1 hp
  have := fun y : ℕ → ℝ => vmk_getD_lt (f := coords ad y) (d := 0) hp
  unfold vmk at this
  rw [this, this]
  rfl

theorem Radial.nonneg {g : ℝ → ℝ} {M : ℝ} (h : Radial g M) : 0 ≤ M := by
  obtain ⟨G, G1, G2, G3, -, -, -, -, -, hM⟩ := h.ex
  exact (abs_nonneg _).trans (hM 0 le_rfl)

theorem Radial.section {g : ℝ → ℝ} {M : ℝ} (h : Radial g M) {n : ℕ} (v : List ℝ) (u : List ℝ) (hu : u.length = n) (k : ℕ) (hk : k < n) :
    Taylor3 (5 / 2 * M) fun t => g (euclid n v (u.set k t)) := by
  obtain ⟨w, hw, e⟩ := euclid_set hk u v hu
  simp only [e]
  exact (h.taylor3 hw).shift _

theorem skiKernel_error {axes : List (List ℝ)} {ad : List ℕ} (hl : axes.length = ad.length) {h : ℝ} (ha : ∀ a ∈ axes, FineAxis h a) {f : ℝ → ℝ} {M : ℝ}
    (hf : Radial f M) (x z : ℕ → ℝ) (hx : ∀ k < ad.length, InsideAxis (axes.getD k []) (x (ad.getD k 0)))
    (hz : ∀ k < ad.length, InsideAxis (axes.getD k []) (z (ad.getD k 0))) (hh : 0 ≤ h) :
    |skiKernel axes ad f x z - f (distOn ad x z)| ≤ (1 + (5 / 4) ^ ad.length) * gridConst ad.length * (5 / 2 * M) * h ^ 3 := by
  have hM := hf.nonneg
  have hC := gridConst_nonneg ad.length
  set S := ∑ p ∈ Finset.range (gridSize axes), gridWeight axes (coords ad x) p * f (euclid axes.length (vmk axes.length (coords ad z)) (gridPoint axes p)) with hS
  have e1 : |skiKernel axes ad f x z - S| ≤ (5 / 4) ^ ad.length * (gridConst ad.length * (5 / 2 * M) * h ^ 3) := by
    unfold skiKernel
    rw [hS, ← Finset.sum_sub_distrib]
    refine (Finset.abs_sum_le_sum_abs _ _).trans ?_
    refine (Finset.sum_le_sum (g := fun p => |gridWeight axes (coords ad x) p| * (gridConst ad.length * (5 / 2 * M) * h ^ 3)) fun p _ => ?_).trans ?_
    · have := grid_error axes ha (coords ad z) (fun k hk => hz k (hl ▸ hk)) (fun v => f (euclid axes.length (gridPoint axes p) v)) (M := 5 / 2 * M) (by positivity)
        fun u hu k hk => hf.section _ u hu k hk
      rw [euclid_symm _ (vmk axes.length (coords ad z)), show (∑ q ∈ Finset.range (gridSize axes), gridWeight axes (coords ad x) p * f (gridDistance axes p q) * gridWeight axes (coords ad z) q) =
          gridWeight axes (coords ad x) p * ∑ q ∈ Finset.range (gridSize axes), gridWeight axes (coords ad z) q * f (euclid axes.length (gridPoint axes p) (gridPoint axes q)) from by
        rw [Finset.mul_sum]
        refine Finset.sum_congr rfl fun q _ => ?_
        unfold gridDistance
        ring, ← mul_sub, abs_mul]
      rw [hl] at this
      rw [hl]
      exact mul_le_mul_of_nonneg_left this (abs_nonneg _)
    · rw [← Finset.sum_mul, ← hl]
      refine mul_le_mul_of_nonneg_right (gridWeight_abs axes (fun a h => by have := (ha a h).1; omega) _) ?_
      rw [hl]
      positivity
  have e2 : |S - f (distOn ad x z)| ≤ gridConst ad.length * (5 / 2 * M) * h ^ 3 := by
    have := grid_error axes ha (coords ad x) (fun k hk => hx k (hl ▸ hk)) (fun v => f (euclid axes.length (vmk axes.length (coords ad z)) v)) (M := 5 / 2 * M) (by positivity)
        fun u hu k hk => hf.section _ u hu k hk
    rw [hS, distOn_euclid, euclid_symm, ← hl]
    exact this
  refine (abs_sub_le _ S _).trans ((add_le_add e1 e2).trans (le_of_eq ?_))
  ring

/-! ### the kernels -/

theorem sq_exp_bound {x : ℝ} (hx : 0 ≤ x) : (3 * x + x ^ 3) * Real.exp (-(x ^ 2 / 2)) ≤ 5 := by
  rw [Real.exp_neg, ← div_eq_mul_inv, div_le_iff₀ (Real.exp_pos _)]
  have h1 : 1 + x ^ 2 / 2 + (x ^ 2 / 2) ^ 2 / 2 ≤ Real.exp (x ^ 2 / 2) := Real.quadratic_le_exp_of_nonneg (by positivity)
  have h2 : 3 * x + x ^ 3 ≤ 5 * (1 + x ^ 2 / 2 + (x ^ 2 / 2) ^ 2 / 2) := by
    nlinarith [sq_nonneg (x - 1), sq_nonneg (x ^ 2 - x), sq_nonneg (x ^ 2 - 1)]
  linarith

theorem rbf_radial {g : ℝ} (hg : 0 < g) : ∃ M, Radial (fun r => Real.exp (-g * r ^ 2 / 2)) M := by
  have de : ∀ r : ℝ, HasDerivAt (fun r => Real.exp (-g * r ^ 2 / 2)) (-g * r * Real.exp (-g * r ^ 2 / 2)) r := by
    intro r
    have h1 : HasDerivAt (fun r : ℝ => -g * r ^ 2 / 2) (-g * r) r := by
      refine (((hasDerivAt_pow 2 r).const_mul (-g)).div_const 2).congr_deriv ?_
      norm_num; ring
    refine h1.exp.congr_deriv ?_
    ring
  refine ⟨Real.sqrt g ^ 3 * 5, _, _, fun r => (g ^ 2 * r ^ 2 - g) * Real.exp (-g * r ^ 2 / 2), fun r => (3 * g ^ 2 * r - g ^ 3 * r ^ 3) * Real.exp (-g * r ^ 2 / 2),
    fun r _ => rfl, de, ?_, ?_, by simp, ?_⟩
  · intro r
    refine (((hasDerivAt_id r).const_mul (-g)).fun_mul (de r)).congr_deriv ?_
    simp only [id]
    ring
  · intro r
    have h1 : HasDerivAt (fun r : ℝ => g ^ 2 * r ^ 2 - g) (2 * g ^ 2 * r) r := by
      refine (((hasDerivAt_pow 2 r).const_mul (g ^ 2)).sub_const g).congr_deriv ?_
      norm_num; ring
    refine (h1.fun_mul (de r)).congr_deriv ?_
    ring
  · intro r hr
    rw [abs_mul, abs_of_pos (Real.exp_pos _)]
    have hs : Real.sqrt g ^ 2 = g := Real.sq_sqrt hg.le
    have h0 := Real.sqrt_nonneg g
    generalize Real.sqrt g = q at *
    subst hs
    have hb := sq_exp_bound (mul_nonneg h0 hr)
    rw [show -q ^ 2 * r ^ 2 / 2 = -((q * r) ^ 2 / 2) by ring]
    have h1 : |3 * (q ^ 2) ^ 2 * r - (q ^ 2) ^ 3 * r ^ 3| ≤ q ^ 3 * (3 * (q * r) + (q * r) ^ 3) := by
      rw [abs_le]
      have : 0 ≤ q ^ 3 * (3 * (q * r)) := by positivity
      have : 0 ≤ q ^ 3 * (q * r) ^ 3 := by positivity
      constructor <;> nlinarith
    calc _ ≤ q ^ 3 * (3 * (q * r) + (q * r) ^ 3) * Real.exp (-((q * r) ^ 2 / 2)) := mul_le_mul_of_nonneg_right h1 (Real.exp_pos _).le
      _ = q ^ 3 * ((3 * (q * r) + (q * r) ^ 3) * Real.exp (-((q * r) ^ 2 / 2))) := by ring
      _ ≤ q ^ 3 * 5 := mul_le_mul_of_nonneg_left hb (by positivity)

theorem matern_radial {a : ℝ} (ha : 0 < a) : ∃ M, Radial (fun r => (1 + a * r) * Real.exp (-(a * r))) M := by
  have de : ∀ r : ℝ, HasDerivAt (fun r => Real.exp (-(a * r))) (-a * Real.exp (-(a * r))) r := by
    intro r
    have h1 : HasDerivAt (fun r : ℝ => -(a * r)) (-a) r := by
      refine ((hasDerivAt_id r).const_mul a).fun_neg.congr_deriv ?_
      ring
    refine h1.exp.congr_deriv ?_
    ring
  have dl : ∀ b c r : ℝ, HasDerivAt (fun r : ℝ => (b + c * r) * Real.exp (-(a * r))) ((c - a * b + (-a * c) * r) * Real.exp (-(a * r))) r := by
    intro b c r
    refine ((((hasDerivAt_id r).const_mul c).const_add b).fun_mul (de r)).congr_deriv ?_
    simp only [id]
    ring
  refine ⟨3 * a ^ 3, _, fun r => (0 + -a ^ 2 * r) * Real.exp (-(a * r)), fun r => (-a ^ 2 + a ^ 3 * r) * Real.exp (-(a * r)), fun r => (2 * a ^ 3 + -a ^ 4 * r) * Real.exp (-(a * r)),
    fun r _ => rfl, ?_, ?_, ?_, by simp, ?_⟩
  · intro r
    refine (dl 1 a r).congr_deriv ?_
    ring
  · intro r
    refine (dl 0 (-a ^ 2) r).congr_deriv ?_
    ring
  · intro r
    refine (dl (-a ^ 2) (a ^ 3) r).congr_deriv ?_
    ring
  · intro r hr
    have h1 : a * r * Real.exp (-(a * r)) ≤ 1 := by
      rw [Real.exp_neg, ← div_eq_mul_inv, div_le_one (Real.exp_pos _)]
      linarith [Real.add_one_le_exp (a * r)]
    have h2 : Real.exp (-(a * r)) ≤ 1 := by
      rw [Real.exp_le_one_iff]
      have : 0 ≤ a * r := by positivity
      linarith
    have h3 : 0 ≤ a * r * Real.exp (-(a * r)) := by positivity
    have h4 := Real.exp_pos (-(a * r))
    have a3 : 0 < a ^ 3 := by positivity
    simp only
    rw [show (2 * a ^ 3 + -a ^ 4 * r) * Real.exp (-(a * r)) = a ^ 3 * (2 * Real.exp (-(a * r)) - a * r * Real.exp (-(a * r))) by ring, abs_mul, abs_of_pos a3, mul_comm]
    refine mul_le_mul_of_nonneg_right ?_ a3.le
    rw [abs_le]
    constructor <;> linarith

theorem periodic_radial {b c : ℝ} (hb : 0 < b) : ∃ M, Radial (fun r => Real.exp (-b * Real.sin (c * r) ^ 2)) M := by
  have ds : ∀ r : ℝ, HasDerivAt (fun r => Real.sin (2 * c * r)) (2 * c * Real.cos (2 * c * r)) r := by
    intro r
    refine (((hasDerivAt_id r).const_mul (2 * c)).sin).congr_deriv ?_
    simp only [id]; ring
  have dc : ∀ r : ℝ, HasDerivAt (fun r => Real.cos (2 * c * r)) (-(2 * c * Real.sin (2 * c * r))) r := by
    intro r
    refine (((hasDerivAt_id r).const_mul (2 * c)).cos).congr_deriv ?_
    simp only [id]; ring
  have de : ∀ r : ℝ, HasDerivAt (fun r => Real.exp (-b * Real.sin (c * r) ^ 2)) (-(b * c) * Real.sin (2 * c * r) * Real.exp (-b * Real.sin (c * r) ^ 2)) r := by
    intro r
    have h1 : HasDerivAt (fun r : ℝ => -b * Real.sin (c * r) ^ 2) (-(b * c) * Real.sin (2 * c * r)) r := by
      refine ((((hasDerivAt_id r).const_mul c).sin.fun_pow 2).const_mul (-b)).congr_deriv ?_
      simp only [id]
      rw [show 2 * c * r = 2 * (c * r) by ring, Real.sin_two_mul]
      norm_num; ring
    refine h1.exp.congr_deriv ?_
    ring
  refine ⟨|4 * b * c ^ 3| + |6 * b ^ 2 * c ^ 3| + |b ^ 3 * c ^ 3|, _, _,
    fun r => (-(2 * b * c ^ 2) * Real.cos (2 * c * r) + b ^ 2 * c ^ 2 * Real.sin (2 * c * r) ^ 2) * Real.exp (-b * Real.sin (c * r) ^ 2),
    fun r => (4 * b * c ^ 3 * Real.sin (2 * c * r) + 6 * b ^ 2 * c ^ 3 * (Real.sin (2 * c * r) * Real.cos (2 * c * r)) - b ^ 3 * c ^ 3 * Real.sin (2 * c * r) ^ 3) * Real.exp (-b * Real.sin (c * r) ^ 2),
    fun r _ => rfl, de, ?_, ?_, by simp, ?_⟩
  · intro r
    refine (((ds r).const_mul (-(b * c))).fun_mul (de r)).congr_deriv ?_
    ring
  · intro r
    refine ((((dc r).const_mul (-(2 * b * c ^ 2))).fun_add (((ds r).fun_pow 2).const_mul (b ^ 2 * c ^ 2))).fun_mul (de r)).congr_deriv ?_
    norm_num; ring
  · intro r _
    have h2 : Real.exp (-b * Real.sin (c * r) ^ 2) ≤ 1 := by
      rw [Real.exp_le_one_iff]
      have : 0 ≤ b * Real.sin (c * r) ^ 2 := by positivity
      linarith
    have s1 : |Real.sin (2 * c * r)| ≤ 1 := Real.abs_sin_le_one _
    have c1 : |Real.cos (2 * c * r)| ≤ 1 := Real.abs_cos_le_one _
    rw [abs_mul, abs_of_pos (Real.exp_pos _)]
    refine (mul_le_of_le_one_right (abs_nonneg _) h2).trans ?_
    generalize Real.sin (2 * c * r) = S at *
    generalize Real.cos (2 * c * r) = C at *
    refine (abs_sub _ _).trans (add_le_add ((abs_add_le _ _).trans (add_le_add ?_ ?_)) ?_)
    · rw [abs_mul]
      exact mul_le_of_le_one_right (abs_nonneg _) s1
    · rw [abs_mul, abs_mul S C]
      exact mul_le_of_le_one_right (abs_nonneg _) (mul_le_one₀ s1 (abs_nonneg _) c1)
    · rw [abs_mul, abs_pow]
      exact mul_le_of_le_one_right (abs_nonneg _) (pow_le_one₀ (abs_nonneg _) s1)

theorem Radial.smul {g : ℝ → ℝ} {M : ℝ} (h : Radial g M) (s : ℝ) : Radial (fun r => s * g r) (|s| * M) := by
  obtain ⟨G, G1, G2, G3, hg, d0, d1, d2, h0, hM⟩ := h.ex
  refine ⟨fun r => s * G r, fun r => s * G1 r, fun r => s * G2 r, fun r => s * G3 r, fun r hr => by rw [hg r hr], fun r => (d0 r).const_mul s,
    fun r => (d1 r).const_mul s, fun r => (d2 r).const_mul s, by simp only [h0, mul_zero], fun r hr => ?_⟩
  rw [abs_mul]
  exact mul_le_mul_of_nonneg_left (hM r hr) (abs_nonneg s)

theorem Kern.radial (k : Kern) (hv : k.Valid) (hi : k.noIdentity) : ∃ M, Radial k.doc M := by
  induction k with
  | identity ad => exact hi.elim
  | rbf g ad => exact rbf_radial hv
  | matern32 g ad =>
    obtain ⟨M, h⟩ := matern_radial (a := g * Real.sqrt 3) (mul_pos hv (by positivity))
    refine ⟨M, ?_⟩
    have e : (Kern.matern32 g ad).doc = fun r => (1 + g * Real.sqrt 3 * r) * Real.exp (-(g * Real.sqrt 3 * r)) := by
      funext r
      rw [Kern.doc]
      congr 2 <;> ring
    rw [e]; exact h
  | stdPeriodic g T ad =>
    obtain ⟨M, h⟩ := periodic_radial (b := g / 2) (c := Real.pi / T) (by have := hv.1; linarith)
    refine ⟨M, ?_⟩
    have e : (Kern.stdPeriodic g T ad).doc = fun r => Real.exp (-(g / 2) * Real.sin (Real.pi / T * r) ^ 2) := by
      funext r
      rw [Kern.doc, show Real.pi * r / T = Real.pi / T * r by ring, show -g / 2 = -(g / 2) by ring]
    rw [e]; exact h
  | scaled k s ad ih =>
    obtain ⟨M, h⟩ := ih hv.1 hi
    exact ⟨|s| * M, h.smul s⟩

end Verif
