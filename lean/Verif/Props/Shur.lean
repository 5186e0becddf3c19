import Verif.Proofs.Shur

/-! C11: the Schur algorithm. -/

namespace Verif
open Matrix

/-- the symmetric Toeplitz matrix with first row `top` -/
def toeplitzEntries (top : List ℝ) (p q : ℕ) : ℝ := top.getD (absDiff p q) 0

/-- `C` is upper triangular and `Cᵀ C` is the symmetric Toeplitz matrix with first row `top` -/
def IsToeplitzCholesky (top : List ℝ) (C : Arr2 ℝ) : Prop :=
  C.rows = top.length ∧ C.cols = top.length ∧
  (∀ a < top.length, ∀ b < top.length, b < a → C.get a b = 0) ∧
  fnMatrix top.length top.length (fun i j => C.get j i) * fnMatrix top.length top.length C.get =
    fnMatrix top.length top.length (toeplitzEntries top)

theorem cholesky_of_factor {top : List ℝ} {t0 : ℝ} (ht : 0 < t0) {C : ℕ → ℕ → ℝ} (h1 : ∀ a b, b < a → C a b = 0)
    (h2 : ∀ p < top.length, ∀ q < top.length, top.getD (absDiff p q) 0 / t0 = ∑ k ∈ Finset.range top.length, C k p * C k q) :
    IsToeplitzCholesky top (Arr2.of top.length top.length fun a b => C a b * Real.sqrt t0) := by
  refine ⟨rfl, rfl, fun a ha b hb hab => ?_, ?_⟩
  · rw [Arr2.of_get ha hb, h1 a b hab, zero_mul]
  · ext i j
    simp only [fnMatrix, Matrix.mul_apply, toeplitzEntries]
    have := h2 i i.2 j j.2
    rw [div_eq_iff ht.ne'] at this
    rw [this, Finset.sum_mul, Finset.sum_range]
    refine Finset.sum_congr rfl fun k _ => ?_
    rw [Arr2.of_get k.2 i.2, Arr2.of_get k.2 j.2]
    have := Real.mul_self_sqrt ht.le
    linear_combination C k i * C k j * this

/-- C11: whenever the loop runs to the end (nothing printed, no NaN), `shur(top)` is an upper triangular `C` with
`CᵀC` the Toeplitz matrix of `top`; any length, any real entries. -/
theorem C11_shur_no_break {top : List ℝ} {C : Arr2 ℝ} (h : shur top = .ok (some (C, false))) :
    IsToeplitzCholesky top C := by
  unfold shur at h
  cases top with
  | nil => cases h
  | cons t0 rest =>
    simp only at h
    split at h
    · simp at h
    · rename_i ht
      simp only [Except.ok.injEq, Option.map_eq_some_iff, Prod.mk.injEq] at h
      obtain ⟨⟨Cf, b⟩, hl, rfl, rfl⟩ := h
      have hinit := SInv.init (top := t0 :: rest) (t0 := t0) rfl (by linarith [not_le.1 ht] : t0 ≠ 0)
      obtain ⟨a1, a2⟩ := shurLoop_ok _ _ _ _ _ _ hinit (by simp) hl
      exact cholesky_of_factor (not_le.1 ht) a1 a2

/-- pivots so far are non-zero and the next entry of the first generator is positive -/
structure PosInv (i : ℕ) (G0 : ℕ → ℝ) (C : ℕ → ℕ → ℝ) : Prop where
  diag : ∀ k < i, C k k ≠ 0
  pos : 0 < G0 i

theorem shurLoop_psd {n : ℕ} {T : ℕ → ℕ → ℝ} (hS : Sym n T) (hp : ∀ x, 0 ≤ quad n T x) :
    ∀ (k i : ℕ) (G0 G1 : ℕ → ℝ) (C : ℕ → ℕ → ℝ), SInv n T i G0 G1 C → PosInv i G0 C → i + k = n →
    ∃ Cout b, shurLoop k i G0 G1 C = some (Cout, b) ∧
      ((∀ x, (∃ j < n, x j ≠ 0) → 0 < quad n T x) → b = false) ∧
      (∀ a b, b < a → Cout a b = 0) ∧ ∀ p < n, ∀ q < n, T p q = ∑ k ∈ Finset.range n, Cout k p * Cout k q
  | 0, i, G0, G1, C, h, _, hk => ⟨C, false, rfl, fun _ => rfl, h.tri, h.done (by omega)⟩
  | k + 1, i, G0, G1, C, h, hP, hk => by
    have hi : i < n := by omega
    obtain ⟨x, x1, x2⟩ := h.pivot hi hP.diag
    have hpiv : resid T C i i i = G0 i * G0 i - G1 i * G1 i := h.resid_diag hi hi
    have hge : 0 ≤ G0 i * G0 i - G1 i * G1 i := by rw [← hpiv, ← x2]; exact hp x
    have h0 := hP.pos.ne'
    rw [shurLoop, if_neg h0]
    simp only
    by_cases hr : |(-G1 i / G0 i)| ≥ 1
    · rw [if_pos hr]
      have habs : G0 i ≤ |G1 i| := by
        rw [abs_div, abs_neg, abs_of_pos hP.pos, ge_iff_le, le_div_iff₀ hP.pos, one_mul] at hr; exact hr
      have hz : G0 i * G0 i - G1 i * G1 i = 0 := by
        have := abs_mul_abs_self (G1 i)
        nlinarith [hP.pos]
      have hrow := h.zero_row hi hP.diag hS hp (by rw [hpiv, hz])
      -- the generators agree up to a common sign, so nothing is left
      have hgen : ∀ q < n, G0 q * G0 i = G1 q * G1 i := by
        intro q hq
        rcases lt_trichotomy q i with h1 | h1 | h1
        · rw [h.z0 q h1, h.z1 q h1]; ring
        · subst h1; linarith
        · have := hrow q hq h1
          rw [h.resid_diag hq hi] at this
          linarith
      have hsq : ∀ p < n, ∀ q < n, G0 p * G0 q - G1 p * G1 q = 0 := by
        intro p hp' q hq
        have e1 := hgen p hp'
        have e2 := hgen q hq
        have : (G0 i * G0 i) * (G0 p * G0 q - G1 p * G1 q) = 0 := by
          have hz' : G0 i * G0 i = G1 i * G1 i := by linarith
          calc (G0 i * G0 i) * (G0 p * G0 q - G1 p * G1 q)
              = (G0 p * G0 i) * (G0 q * G0 i) - (G0 i * G0 i) * (G1 p * G1 q) := by ring
            _ = (G1 p * G1 i) * (G1 q * G1 i) - (G1 i * G1 i) * (G1 p * G1 q) := by rw [e1, e2, hz']
            _ = 0 := by ring
        rcases mul_eq_zero.1 this with h' | h'
        · exact absurd (mul_self_eq_zero.1 h') h0
        · exact h'
      have hres : ∀ p < n, ∀ q < n, resid T C i p q = 0 := by
        intro p
        induction p with
        | zero =>
          intro hp' q hq
          have := h.disp 0 hp' q hq
          rwa [upLeft_zero_left, sub_zero, hsq 0 hp' q hq] at this
        | succ p ih =>
          intro hp' q hq
          have := h.disp (p + 1) hp' q hq
          rw [hsq _ hp' q hq] at this
          cases q with
          | zero => rwa [upLeft_zero_right, sub_zero] at this
          | succ q => simp only [upLeft] at this; rwa [ih (by omega) q (by omega), sub_zero] at this
      refine ⟨C, true, rfl, fun hpd => ?_, h.tri, fun p hp' q hq => ?_⟩
      · exfalso
        have := hpd x ⟨i, hi, by rw [x1]; exact one_ne_zero⟩
        rw [x2, hpiv, hz] at this
        exact lt_irrefl _ this
      · have := hres p hp' q hq
        unfold resid at this
        rw [sub_eq_zero] at this
        rw [this]
        refine Finset.sum_subset (Finset.range_mono hi.le) fun k _ hk => ?_
        rw [h.rest k p (by simpa using hk)]; ring
    · rw [if_neg hr]
      have hr' := not_le.1 hr
      have hstep := h.step h0 hr'
      refine shurLoop_psd hS hp k (i + 1) _ _ _ hstep ⟨fun j hj => ?_, ?_⟩ (by omega)
      all_goals
        obtain ⟨s1, s2, s3⟩ := scale_sq hr'
        have hnum : G0 i + -G1 i / G0 i * G1 i = G0 i * (1 - (-G1 i / G0 i) ^ 2) := by field_simp; ring
        have hpos : 0 < (G0 i + -G1 i / G0 i * G1 i) / (Real.sqrt (1 - -G1 i / G0 i) * Real.sqrt (1 + -G1 i / G0 i)) := by
          refine div_pos ?_ s3
          rw [hnum, ← s2]
          exact mul_pos hP.pos (pow_pos s3 2)
      · rcases Nat.lt_succ_iff_lt_or_eq.1 hj with hj | rfl
        · simp only [show ¬ j = i by omega, false_and, if_false]
          exact hP.diag j hj
        · simp only [le_refl, and_self, if_true]
          exact hpos.ne'
      · simp only [show ¬ i + 1 = i by omega, if_false, le_refl, if_true, Nat.add_sub_cancel]
        exact hpos

/-- C11: for every positive semi-definite Toeplitz matrix with `top[0] > 0`, of any size, `shur(top)` returns a finite upper
triangular `C` with `CᵀC` equal to it, even when the matrix is singular and the loop stops early; for a
positive definite one nothing is printed. -/
theorem C11_shur_psd {t0 : ℝ} {rest : List ℝ} (ht : 0 < t0)
    (hp : (fnMatrix (t0 :: rest).length (t0 :: rest).length (toeplitzEntries (t0 :: rest))).PosSemidef) :
    ∃ C b, shur (t0 :: rest) = .ok (some (C, b)) ∧ IsToeplitzCholesky (t0 :: rest) C ∧
      ((fnMatrix (t0 :: rest).length (t0 :: rest).length (toeplitzEntries (t0 :: rest))).PosDef → b = false) := by
  obtain ⟨p1, p2⟩ := psd_iff_quad.1 hp
  set n := (t0 :: rest).length with hn
  set T : ℕ → ℕ → ℝ := fun p q => (t0 :: rest).getD (absDiff p q) 0 / t0 with hT
  have hq : ∀ x, quad n T x = quad n (toeplitzEntries (t0 :: rest)) x / t0 := fun x => by
    unfold quad
    rw [Finset.sum_div]
    refine Finset.sum_congr rfl fun i _ => ?_
    rw [Finset.sum_div]
    refine Finset.sum_congr rfl fun j _ => ?_
    simp only [hT, toeplitzEntries]; ring
  have hS : Sym n T := fun i hi j hj => by
    have := p1 i hi j hj
    simp only [toeplitzEntries] at this
    simp only [hT]
    rw [this]
  have hinit := SInv.init (top := t0 :: rest) (t0 := t0) rfl ht.ne'
  obtain ⟨Cf, b, h1, h2, h3, h4⟩ := shurLoop_psd hS (fun x => by rw [hq]; exact div_nonneg (p2 x) ht.le) (n - 1) 1 _ _ _ hinit
    ⟨fun k hk => by
      have : k = 0 := by omega
      subst this
      simp [div_self ht.ne'], by simp [div_self ht.ne']⟩ (by simp [hn]; omega)
  refine ⟨_, b, ?_, cholesky_of_factor ht h3 h4, fun hpd => h2 fun x hx => ?_⟩
  · unfold shur
    simp only [not_le.2 ht, if_false]
    rw [h1]; rfl
  · rw [hq]
    refine div_pos ?_ ht
    rw [quad_eq]
    have := hpd.dotProduct_mulVec_pos (x := fun i : Fin n => x i) (by
      obtain ⟨j, hj, hxj⟩ := hx
      intro h0; exact hxj (congrFun h0 ⟨j, hj⟩))
    simpa using this

/-- a positive definite instance: `[2, 1]` (matrix `[[2,1],[1,2]]`) -/
example : ∃ C b, shur [2, 1] = .ok (some (C, b)) ∧ IsToeplitzCholesky [2, 1] C := by
  have hp : (fnMatrix [(2 : ℝ), 1].length [(2 : ℝ), 1].length (toeplitzEntries [2, 1])).PosSemidef := by
    refine psd_iff_quad.2 ⟨fun i hi j hj => ?_, fun x => ?_⟩
    · simp only [toeplitzEntries, absDiff_comm]
    · simp [quad, Finset.sum_range_succ, toeplitzEntries, absDiff]
      nlinarith [mul_self_nonneg (x 0 + x 1), mul_self_nonneg (x 0), mul_self_nonneg (x 1)]
  obtain ⟨C, b, h, hc, -⟩ := C11_shur_psd (by norm_num) hp
  exact ⟨C, b, h, hc⟩

/-- a singular instance: `[1, 1, 1]` -/
example : ∃ C b, shur [1, 1, 1] = .ok (some (C, b)) ∧ IsToeplitzCholesky [1, 1, 1] C := by
  have hp : (fnMatrix [(1 : ℝ), 1, 1].length [(1 : ℝ), 1, 1].length (toeplitzEntries [1, 1, 1])).PosSemidef := by
    refine psd_iff_quad.2 ⟨fun i hi j hj => ?_, fun x => ?_⟩
    · simp only [toeplitzEntries, absDiff_comm]
    · simp [quad, Finset.sum_range_succ, toeplitzEntries, absDiff]
      nlinarith [mul_self_nonneg (x 0 + x 1 + x 2)]
  obtain ⟨C, b, h, hc, -⟩ := C11_shur_psd (by norm_num) hp
  exact ⟨C, b, h, hc⟩

end Verif
