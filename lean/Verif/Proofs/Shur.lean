import Verif.Model.Shur
import Verif.Proofs.EigBound2

namespace Verif
open Matrix

/-- what is left of `T` after subtracting the first `i` rank-one terms `C_k C_kᵀ` -/
noncomputable def resid (T C : ℕ → ℕ → ℝ) (i p q : ℕ) : ℝ := T p q - ∑ k ∈ Finset.range i, C k p * C k q

/-- the entry one step up the diagonal, zero at the border -/
def upLeft (D : ℕ → ℕ → ℝ) : ℕ → ℕ → ℝ
  | p + 1, q + 1 => D p q
  | _, _ => 0

/-- loop invariant: `i` rows are done and `(G0, G1)` generates the displacement of the residual -/
structure SInv (n : ℕ) (T : ℕ → ℕ → ℝ) (i : ℕ) (G0 G1 : ℕ → ℝ) (C : ℕ → ℕ → ℝ) : Prop where
  z0 : ∀ j < i, G0 j = 0
  z1 : ∀ j < i, G1 j = 0
  tri : ∀ a b, b < a → C a b = 0
  rest : ∀ a b, i ≤ a → C a b = 0
  disp : ∀ p < n, ∀ q < n, resid T C i p q - upLeft (resid T C i) p q = G0 p * G0 q - G1 p * G1 q

theorem upLeft_zero_left (D : ℕ → ℕ → ℝ) (q : ℕ) : upLeft D 0 q = 0 := by unfold upLeft; split <;> simp_all
theorem upLeft_zero_right (D : ℕ → ℕ → ℝ) (p : ℕ) : upLeft D p 0 = 0 := by unfold upLeft; split <;> simp_all

/-- the residual is determined by its displacement: it vanishes where the displacement has not started -/
theorem SInv.resid_zero {n : ℕ} {T : ℕ → ℕ → ℝ} {i : ℕ} {G0 G1 : ℕ → ℝ} {C : ℕ → ℕ → ℝ} (h : SInv n T i G0 G1 C) :
    ∀ p < n, ∀ q < n, (p < i ∨ q < i) → resid T C i p q = 0 := by
  intro p
  induction p with
  | zero =>
    intro hp q hq hi
    have := h.disp 0 hp q hq
    rw [upLeft_zero_left, sub_zero] at this
    rw [this]
    rcases hi with hi | hi
    · rw [h.z0 0 hi, h.z1 0 hi]; ring
    · rw [h.z0 q hi, h.z1 q hi]; ring
  | succ p ih =>
    intro hp q hq hi
    have := h.disp (p + 1) hp q hq
    cases q with
    | zero =>
      rw [upLeft_zero_right, sub_zero] at this
      rw [this]
      rcases hi with hi | hi
      · rw [h.z0 _ hi, h.z1 _ hi]; ring
      · rw [h.z0 0 hi, h.z1 0 hi]; ring
    | succ q =>
      simp only [upLeft] at this
      rw [ih (by omega) q (by omega) (by omega), sub_zero] at this
      rw [this]
      rcases hi with hi | hi
      · rw [h.z0 _ hi, h.z1 _ hi]; ring
      · rw [h.z0 _ hi, h.z1 _ hi]; ring

/-- at the end nothing is left -/
theorem SInv.done {n : ℕ} {T : ℕ → ℕ → ℝ} {i : ℕ} {G0 G1 : ℕ → ℝ} {C : ℕ → ℕ → ℝ} (h : SInv n T i G0 G1 C) (hi : n ≤ i) :
    ∀ p < n, ∀ q < n, T p q = ∑ k ∈ Finset.range n, C k p * C k q := by
  intro p hp q hq
  have h0 := h.resid_zero p hp q hq (Or.inl (by omega))
  unfold resid at h0
  rw [sub_eq_zero] at h0
  rw [h0]
  refine (Finset.sum_subset (Finset.range_mono hi) fun k _ hk => ?_).symm
  rw [h.tri k p (by simp at hk; omega)]; ring

theorem scale_sq {r : ℝ} (h : |r| < 1) :
    Real.sqrt (1 - r) * Real.sqrt (1 + r) ≠ 0 ∧ (Real.sqrt (1 - r) * Real.sqrt (1 + r)) ^ 2 = 1 - r ^ 2 ∧
      0 < Real.sqrt (1 - r) * Real.sqrt (1 + r) := by
  obtain ⟨h1, h2⟩ := abs_lt.1 h
  have p1 : 0 < Real.sqrt (1 - r) := Real.sqrt_pos.2 (by linarith)
  have p2 : 0 < Real.sqrt (1 + r) := Real.sqrt_pos.2 (by linarith)
  refine ⟨(mul_pos p1 p2).ne', ?_, mul_pos p1 p2⟩
  rw [mul_pow, Real.sq_sqrt (by linarith), Real.sq_sqrt (by linarith)]; ring

/-- one pass of the loop body keeps the invariant -/
theorem SInv.step {n : ℕ} {T : ℕ → ℕ → ℝ} {i : ℕ} {G0 G1 : ℕ → ℝ} {C : ℕ → ℕ → ℝ} (h : SInv n T i G0 G1 C)
    (h0 : G0 i ≠ 0) (hr : |(-G1 i / G0 i)| < 1) :
    let rho := -G1 i / G0 i
    let scale := Real.sqrt (1 - rho) * Real.sqrt (1 + rho)
    let G0' := fun j => if i ≤ j then (G0 j + rho * G1 j) / scale else G0 j
    let G1' := fun j => if i ≤ j then (rho * G0 j + G1 j) / scale else G1 j
    let C' := fun a b => if a = i ∧ i ≤ b then G0' b else C a b
    let G0'' := fun j => if j = i then 0 else if i + 1 ≤ j then G0' (j - 1) else G0' j
    SInv n T (i + 1) G0'' G1' C' := by
  intro rho scale G0' G1' C' G0''
  obtain ⟨hs, hs2, -⟩ := scale_sq hr
  -- the rotation, on all indices
  have e0 : ∀ j, G0' j = (G0 j + rho * G1 j) / scale := fun j => by
    by_cases hj : i ≤ j
    · simp only [G0', if_pos hj]
    · simp only [G0', if_neg hj]
      rw [h.z0 j (by omega), h.z1 j (by omega)]; ring
  have e1 : ∀ j, G1' j = (rho * G0 j + G1 j) / scale := fun j => by
    by_cases hj : i ≤ j
    · simp only [G1', if_pos hj]
    · simp only [G1', if_neg hj]
      rw [h.z0 j (by omega), h.z1 j (by omega)]; ring
  have rot : ∀ p q, G0' p * G0' q - G1' p * G1' q = G0 p * G0 q - G1 p * G1 q := fun p q => by
    rw [e0, e0, e1, e1]
    have : scale ^ 2 = 1 - rho ^ 2 := hs2
    have h' : (G0 p + rho * G1 p) / scale * ((G0 q + rho * G1 q) / scale) -
        (rho * G0 p + G1 p) / scale * ((rho * G0 q + G1 q) / scale) =
        (G0 p * G0 q - G1 p * G1 q) * (1 - rho ^ 2) / scale ^ 2 := by
      field_simp; ring
    rw [h', this, mul_div_assoc, div_self, mul_one]
    rw [← this]; exact pow_ne_zero 2 hs
  have g1i : G1' i = 0 := by
    rw [e1]
    have : rho * G0 i + G1 i = 0 := by simp only [rho]; field_simp; ring
    rw [this, zero_div]
  have g0z : ∀ j < i, G0' j = 0 := fun j hj => by rw [e0, h.z0 j hj, h.z1 j hj]; ring
  -- shifted first row
  have g0s : ∀ j, G0'' j = if j = 0 then 0 else G0' (j - 1) := fun j => by
    simp only [G0'']
    by_cases hji : j = i
    · rw [if_pos hji]
      by_cases hj0 : j = 0
      · rw [if_pos hj0]
      · rw [if_neg hj0, g0z _ (by omega)]
    · rw [if_neg hji]
      by_cases hj : i + 1 ≤ j
      · rw [if_pos hj, if_neg (by omega)]
      · rw [if_neg hj]
        by_cases hj0 : j = 0
        · rw [if_pos hj0, g0z _ (by omega)]
        · rw [if_neg hj0, g0z _ (by omega), g0z _ (by omega)]
  -- the new row of C
  have hC : ∀ b, C' i b = G0' b := fun b => by
    simp only [C']
    by_cases hb : i ≤ b
    · rw [if_pos ⟨trivial, hb⟩]
    · rw [if_neg (fun h => hb h.2), h.tri i b (by omega), g0z b (by omega)]
  have hCk : ∀ k < i, ∀ b, C' k b = C k b := fun k hk b => by
    simp only [C']; rw [if_neg (by omega)]
  have hres : ∀ p q, resid T C' (i + 1) p q = resid T C i p q - G0' p * G0' q := fun p q => by
    unfold resid
    rw [Finset.sum_range_succ, hC, hC, Finset.sum_congr rfl fun k hk => by
      rw [hCk k (Finset.mem_range.1 hk), hCk k (Finset.mem_range.1 hk)]]
    ring
  refine ⟨fun j hj => ?_, fun j hj => ?_, fun a b hab => ?_, fun a b ha => ?_, fun p hp q hq => ?_⟩
  · rw [g0s]
    by_cases hj0 : j = 0
    · rw [if_pos hj0]
    · rw [if_neg hj0, g0z _ (by omega)]
  · rcases Nat.lt_succ_iff_lt_or_eq.1 hj with hj | rfl
    · rw [e1, h.z0 j hj, h.z1 j hj]; ring
    · exact g1i
  · simp only [C']; rw [if_neg (by omega)]; exact h.tri a b hab
  · simp only [C']; rw [if_neg (by omega)]; exact h.rest a b (by omega)
  · have hd := h.disp p hp q hq
    rw [← rot] at hd
    rw [hres]
    cases p with
    | zero =>
      rw [upLeft_zero_left] at hd ⊢
      rw [g0s 0, if_pos rfl]; linarith
    | succ p =>
      cases q with
      | zero =>
        rw [upLeft_zero_right] at hd ⊢
        rw [g0s 0, if_pos rfl]; linarith
      | succ q =>
        simp only [upLeft, hres] at hd ⊢
        rw [g0s, g0s, if_neg (by omega), if_neg (by omega), Nat.add_sub_cancel, Nat.add_sub_cancel]
        linarith

/-- a finished loop gives a factorisation -/
theorem shurLoop_ok {n : ℕ} {T : ℕ → ℕ → ℝ} : ∀ (k i : ℕ) (G0 G1 : ℕ → ℝ) (C Cout : ℕ → ℕ → ℝ), SInv n T i G0 G1 C →
    n ≤ i + k → shurLoop k i G0 G1 C = some (Cout, false) →
    (∀ a b, b < a → Cout a b = 0) ∧ ∀ p < n, ∀ q < n, T p q = ∑ k ∈ Finset.range n, Cout k p * Cout k q
  | 0, i, G0, G1, C, Cout, h, hk, hl => by
    simp only [shurLoop, Option.some.injEq, Prod.mk.injEq, and_true] at hl
    subst hl
    exact ⟨h.tri, h.done (by omega)⟩
  | k + 1, i, G0, G1, C, Cout, h, hk, hl => by
    rw [shurLoop] at hl
    split at hl
    · split at hl <;> simp at hl
    · rename_i h0
      simp only at hl
      split at hl
      · simp at hl
      · rename_i hr
        exact shurLoop_ok k (i + 1) _ _ _ Cout (h.step h0 (not_le.1 hr)) (by omega) hl

/-- the state before the loop -/
theorem SInv.init {top : List ℝ} {t0 : ℝ} (h0 : top.getD 0 0 = t0) (ht : t0 ≠ 0) :
    let G0 := fun j => top.getD j 0 / t0
    let G1 := fun j => if j = 0 then 0 else G0 j
    let C := fun a b => if a = 0 then G0 b else 0
    let G0' := fun j => if j = 0 then 0 else G0 (j - 1)
    SInv top.length (fun p q => top.getD (absDiff p q) 0 / t0) 1 G0' G1 C := by
  intro G0 G1 C G0'
  have hr : ∀ p q, resid (fun p q => top.getD (absDiff p q) 0 / t0) C 1 p q =
      top.getD (absDiff p q) 0 / t0 - G0 p * G0 q := fun p q => by
    unfold resid; rw [Finset.sum_range_one]; simp [C]
  have g00 : G0 0 = 1 := by simp only [G0, h0]; exact div_self ht
  refine ⟨fun j hj => ?_, fun j hj => ?_, fun a b hab => ?_, fun a b ha => ?_, fun p hp q hq => ?_⟩
  · have : j = 0 := by omega
    simp [G0', this]
  · have : j = 0 := by omega
    simp [G1, this]
  · simp only [C]; rw [if_neg (by omega)]
  · simp only [C]; rw [if_neg (by omega)]
  · rw [hr]
    cases p with
    | zero =>
      rw [upLeft_zero_left]
      have : absDiff 0 q = q := by unfold absDiff; split <;> omega
      rw [this, g00]
      simp only [G0', G1, if_true]
      show G0 q - 1 * G0 q - 0 = _
      ring
    | succ p =>
      cases q with
      | zero =>
        rw [upLeft_zero_right]
        have : absDiff (p + 1) 0 = p + 1 := by simp [absDiff]
        rw [this, g00]
        simp only [G0', G1, if_true]
        show G0 (p + 1) - G0 (p + 1) * 1 - 0 = _
        ring
      | succ q =>
        simp only [upLeft, hr]
        have : absDiff (p + 1) (q + 1) = absDiff p q := by unfold absDiff; split <;> split <;> omega
        rw [this]
        simp only [G0', G1, Nat.add_sub_cancel, Nat.add_eq_zero_iff, one_ne_zero, and_false, if_false]
        ring

/-- back substitution: an upper triangular matrix with non-zero diagonal has a vector `x` with `x_i = 1`, zero after `i`,
orthogonal to its first `i` rows -/
theorem tri_solve (C : ℕ → ℕ → ℝ) (i : ℕ) (htri : ∀ a b, b < a → C a b = 0) (hd : ∀ k < i, C k k ≠ 0) :
    ∃ x : ℕ → ℝ, x i = 1 ∧ (∀ j, i < j → x j = 0) ∧ ∀ k < i, ∑ j ∈ Finset.range (i + 1), C k j * x j = 0 := by
  -- choose x_{i-1}, x_{i-2}, ... in turn
  have : ∀ m ≤ i, ∃ x : ℕ → ℝ, x i = 1 ∧ (∀ j, i < j → x j = 0) ∧
      ∀ k < i, i - m ≤ k → ∑ j ∈ Finset.range (i + 1), C k j * x j = 0 := by
    intro m
    induction m with
    | zero =>
      intro _
      exact ⟨fun j => if j = i then 1 else 0, by simp, fun j hj => by simp; omega, fun k h1 h2 => by omega⟩
    | succ m ih =>
      intro hm
      obtain ⟨x, x1, x2, x3⟩ := ih (by omega)
      set r := i - (m + 1) with hr
      have hri : r < i := by omega
      refine ⟨Function.update x r (x r - (∑ j ∈ Finset.range (i + 1), C r j * x j) / C r r), ?_, fun j hj => ?_, fun k h1 h2 => ?_⟩
      · rw [Function.update_of_ne (by omega), x1]
      · rw [Function.update_of_ne (by omega), x2 j hj]
      · have hsum : ∀ k, ∑ j ∈ Finset.range (i + 1), C k j * Function.update x r (x r - (∑ j ∈ Finset.range (i + 1), C r j * x j) / C r r) j =
            ∑ j ∈ Finset.range (i + 1), C k j * x j - C k r * ((∑ j ∈ Finset.range (i + 1), C r j * x j) / C r r) := by
          intro k
          rw [← Finset.add_sum_erase _ _ (Finset.mem_range.2 (show r < i + 1 by omega)),
            ← Finset.add_sum_erase (Finset.range (i + 1)) (fun j => C k j * x j) (Finset.mem_range.2 (show r < i + 1 by omega)),
            Function.update_self]
          have : ∀ c : ℝ, ∑ j ∈ (Finset.range (i + 1)).erase r, C k j * Function.update x r c j =
              ∑ j ∈ (Finset.range (i + 1)).erase r, C k j * x j := fun c => Finset.sum_congr rfl fun j hj => by
            rw [Function.update_of_ne (Finset.ne_of_mem_erase hj)]
          rw [this]
          ring
        rw [hsum]
        rcases Nat.lt_or_ge r k with hk | hk
        · rw [htri k r hk, x3 k h1 (by omega)]; ring
        · have : k = r := by omega
          subst this
          field_simp [hd r hri]
          ring
  obtain ⟨x, a, b, c⟩ := this i le_rfl
  exact ⟨x, a, b, fun k hk => c k hk (by omega)⟩

/-- the next pivot is a value of the quadratic form of `T` -/
theorem SInv.pivot {n : ℕ} {T : ℕ → ℕ → ℝ} {i : ℕ} {G0 G1 : ℕ → ℝ} {C : ℕ → ℕ → ℝ} (h : SInv n T i G0 G1 C) (hi : i < n)
    (hd : ∀ k < i, C k k ≠ 0) : ∃ x : ℕ → ℝ, x i = 1 ∧ quad n T x = resid T C i i i := by
  obtain ⟨x, x1, x2, x3⟩ := tri_solve C i h.tri hd
  refine ⟨x, x1, ?_⟩
  have hrow : ∀ k < i, ∑ j ∈ Finset.range n, C k j * x j = 0 := fun k hk => by
    rw [← x3 k hk]
    refine (Finset.sum_subset (Finset.range_mono (by omega)) fun j _ hj => ?_).symm
    rw [x2 j (by simp at hj; omega), mul_zero]
  have : quad n T x = quad n (resid T C i) x := by
    have e : ∀ p q, T p q = resid T C i p q + ∑ k ∈ Finset.range i, C k p * C k q := fun p q => by unfold resid; ring
    rw [quad_congr (B := fun p q => resid T C i p q + ∑ k ∈ Finset.range i, C k p * C k q) (fun p _ q _ => e p q), quad_add]
    have : quad n (fun p q => ∑ k ∈ Finset.range i, C k p * C k q) x = 0 := by
      unfold quad
      have e2 : ∀ p q, x p * (∑ k ∈ Finset.range i, C k p * C k q) * x q = ∑ k ∈ Finset.range i, (C k p * x p) * (C k q * x q) := fun p q => by
        rw [Finset.mul_sum, Finset.sum_mul]; exact Finset.sum_congr rfl fun k _ => by ring
      simp only [e2]
      rw [Finset.sum_congr rfl fun p _ => Finset.sum_comm, Finset.sum_comm]
      refine Finset.sum_eq_zero fun k hk => ?_
      simp only [← Finset.mul_sum, hrow k (Finset.mem_range.1 hk), mul_zero, Finset.sum_const_zero]
    rw [this, add_zero]
  rw [this]
  unfold quad
  rw [Finset.sum_eq_single i, Finset.sum_eq_single i]
  · rw [x1]; ring
  · intro q hq hqi
    rcases Nat.lt_or_ge q i with h1 | h1
    · rw [h.resid_zero i hi q (Finset.mem_range.1 hq) (Or.inr h1)]; ring
    · rw [x2 q (by omega)]; ring
  · intro hc; simp at hc; omega
  · intro p hp hpi
    refine Finset.sum_eq_zero fun q hq => ?_
    rcases Nat.lt_or_ge p i with h1 | h1
    · rw [h.resid_zero p (Finset.mem_range.1 hp) q (Finset.mem_range.1 hq) (Or.inl h1)]; ring
    · rw [x2 p (by omega)]; ring
  · intro hc; simp at hc; omega

theorem SInv.resid_diag {n : ℕ} {T : ℕ → ℕ → ℝ} {i : ℕ} {G0 G1 : ℕ → ℝ} {C : ℕ → ℕ → ℝ} (h : SInv n T i G0 G1 C) {p : ℕ} (hp : p < n)
    (hi : i < n) : resid T C i i p = G0 i * G0 p - G1 i * G1 p := by
  have := h.disp i hi p hp
  rw [← this]
  have : upLeft (resid T C i) i p = 0 := by
    cases i with
    | zero => exact upLeft_zero_left _ _
    | succ i =>
      cases p with
      | zero => exact upLeft_zero_right _ _
      | succ p => simp only [upLeft]; exact h.resid_zero i (by omega) p (by omega) (Or.inl (by omega))
  rw [this, sub_zero]

/-- a positive semi-definite residual with a zero pivot has a zero pivot row -/
theorem SInv.zero_row {n : ℕ} {T : ℕ → ℕ → ℝ} {i : ℕ} {G0 G1 : ℕ → ℝ} {C : ℕ → ℕ → ℝ} (h : SInv n T i G0 G1 C) (hi : i < n)
    (hd : ∀ k < i, C k k ≠ 0) (hS : Sym n T) (hp : ∀ x, 0 ≤ quad n T x) (h0 : resid T C i i i = 0) :
    ∀ q < n, i < q → resid T C i i q = 0 := by
  intro q hq hiq
  obtain ⟨x, x1, x2, x3⟩ := tri_solve C i h.tri hd
  -- a vector that also has a `1` in position q and is orthogonal to the first rows
  obtain ⟨y, y1, y2, y3⟩ : ∃ y : ℕ → ℝ, y q = 1 ∧ y i = 0 ∧ (∀ j, i ≤ j → j ≠ q → y j = 0) ∧
      ∀ k < i, ∑ j ∈ Finset.range n, C k j * y j = 0 := by
    -- back substitution against column q
    have hsol := tri_solve (fun a b => if b = i then (if a < i then C a q else 0) else C a b) i
      (fun a b hab => by
        by_cases hb : b = i
        · subst hb; simp; omega
        · simp only [hb, if_false]; exact h.tri a b hab) (fun k hk => by
          simp only [show k ≠ i by omega, if_false]; exact hd k hk)
    obtain ⟨z, z1, z2, z3⟩ := hsol
    refine ⟨fun j => if j = q then 1 else if j = i then 0 else z j, by simp, by simp [show i ≠ q by omega], fun j hj hjq => ?_, fun k hk => ?_⟩
    · simp only [hjq, if_false]
      split
      · rfl
      · exact z2 j (by omega)
    · have := z3 k hk
      rw [Finset.sum_range_succ] at this
      simp only [if_true, hk, z1, mul_one] at this
      rw [← Finset.add_sum_erase _ _ (Finset.mem_range.2 hq)]
      simp only [if_true, mul_one]
      refine Eq.trans ?_ this
      rw [add_comm]
      congr 1
      have hsub : Finset.range i ⊆ (Finset.range n).erase q := fun j hj => by
        simp at hj ⊢; omega
      rw [← Finset.sum_subset hsub fun j hj hj' => ?_]
      · refine Finset.sum_congr rfl fun j hj => ?_
        have := Finset.mem_range.1 hj
        simp only [show j ≠ q by omega, show j ≠ i by omega, if_false]
      · simp at hj hj'
        simp only [hj.1, if_false]
        split
        · ring
        · rw [z2 j (by omega)]; ring
  have hrowx : ∀ k < i, ∑ j ∈ Finset.range n, C k j * x j = 0 := fun k hk => by
    rw [← x3 k hk]
    refine (Finset.sum_subset (Finset.range_mono (by omega)) fun j _ hj => ?_).symm
    rw [x2 j (by simp at hj; omega), mul_zero]
  -- on such vectors the form of T is the form of the residual
  have hform : ∀ v : ℕ → ℝ, (∀ k < i, ∑ j ∈ Finset.range n, C k j * v j = 0) → quad n T v = quad n (resid T C i) v := by
    intro v hv
    have e : ∀ p q, T p q = resid T C i p q + ∑ k ∈ Finset.range i, C k p * C k q := fun p q => by unfold resid; ring
    rw [quad_congr (B := fun p q => resid T C i p q + ∑ k ∈ Finset.range i, C k p * C k q) (fun p _ q _ => e p q), quad_add]
    have : quad n (fun p q => ∑ k ∈ Finset.range i, C k p * C k q) v = 0 := by
      unfold quad
      have e2 : ∀ p q, v p * (∑ k ∈ Finset.range i, C k p * C k q) * v q = ∑ k ∈ Finset.range i, (C k p * v p) * (C k q * v q) := fun p q => by
        rw [Finset.mul_sum, Finset.sum_mul]; exact Finset.sum_congr rfl fun k _ => by ring
      simp only [e2]
      rw [Finset.sum_congr rfl fun p _ => Finset.sum_comm, Finset.sum_comm]
      refine Finset.sum_eq_zero fun k hk => ?_
      simp only [← Finset.mul_sum, hv k (Finset.mem_range.1 hk), mul_zero, Finset.sum_const_zero]
    rw [this, add_zero]
  -- restrict to a x + y
  have hres : ∀ a : ℝ, quad n T (fun j => a * x j + y j) =
      a ^ 2 * resid T C i i i + 2 * a * resid T C i i q + resid T C i q q := by
    intro a
    rw [hform _ fun k hk => by
      simp only [mul_add, Finset.sum_add_distrib, y3.2 k hk, add_zero]
      rw [Finset.sum_congr rfl fun j _ => show C k j * (a * x j) = a * (C k j * x j) by ring, ← Finset.mul_sum, hrowx k hk, mul_zero]]
    have hsymR : ∀ p < n, ∀ r < n, resid T C i p r = resid T C i r p := fun p hp r hr => by
      unfold resid
      rw [hS p hp r hr]
      congr 1
      exact Finset.sum_congr rfl fun k _ => mul_comm _ _
    have hw : ∀ j, j < n → i ≤ j → j ≠ i → j ≠ q → a * x j + y j = 0 := fun j hj h1 h2 h3 => by
      rw [x2 j (by omega), y3.1 j h1 h3]; ring
    have hwi : a * x i + y i = a := by rw [x1, y2]; ring
    have hwq : a * x q + y q = 1 := by rw [x2 q hiq, y1]; ring
    have hin : ∀ (f : ℕ → ℝ), (∀ j < n, j ≠ i → j ≠ q → f j = 0) → ∑ j ∈ Finset.range n, f j = f i + f q := by
      intro f hf
      rw [← Finset.add_sum_erase _ _ (Finset.mem_range.2 hi),
        ← Finset.add_sum_erase _ _ (Finset.mem_erase.2 ⟨(by omega : q ≠ i), Finset.mem_range.2 hq⟩),
        Finset.sum_eq_zero, add_zero]
      intro j hj
      simp at hj
      exact hf j hj.2.2 hj.2.1 hj.1
    have hz : ∀ p < n, ∀ r < n, (p ≠ i ∧ p ≠ q ∨ r ≠ i ∧ r ≠ q) →
        (a * x p + y p) * resid T C i p r * (a * x r + y r) = 0 := by
      intro p hp r hr hc
      rcases hc with ⟨h1, h2⟩ | ⟨h1, h2⟩
      · rcases Nat.lt_or_ge p i with h3 | h3
        · rw [h.resid_zero p hp r hr (Or.inl h3)]; ring
        · rw [hw p hp h3 h1 h2]; ring
      · rcases Nat.lt_or_ge r i with h3 | h3
        · rw [h.resid_zero p hp r hr (Or.inr h3)]; ring
        · rw [hw r hr h3 h1 h2]; ring
    unfold quad
    rw [hin _ fun p hp h1 h2 => Finset.sum_eq_zero fun r hr => hz p hp r (Finset.mem_range.1 hr) (Or.inl ⟨h1, h2⟩)]
    rw [hin _ fun r hr h1 h2 => hz i hi r hr (Or.inr ⟨h1, h2⟩), hin _ fun r hr h1 h2 => hz q hq r hr (Or.inr ⟨h1, h2⟩)]
    rw [hwi, hwq, hsymR q hq i hi]
    ring
  by_contra hne
  have key := hp (fun j => (-(resid T C i q q + 1) / (2 * resid T C i i q)) * x j + y j)
  rw [hres, h0] at key
  have : 2 * (-(resid T C i q q + 1) / (2 * resid T C i i q)) * resid T C i i q = -(resid T C i q q + 1) := by
    field_simp
  linarith

end Verif
