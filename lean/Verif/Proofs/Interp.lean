import Verif.Proofs.Csr
import Verif.Spec.Interp
import Verif.Proofs.Built
import Mathlib.Tactic.LinearCombination
import Mathlib.Tactic.FieldSimp
import Mathlib.Tactic.NormNum

namespace Verif

theorem ok_bind {α β : Type} (a : α) (f : α → Except PyErr β) : ((Except.ok a : Except PyErr α) >>= f) = f a := rfl

theorem cubicEntry_eq_keys {x : ℝ} (h : |x| ≤ 2) : cubicEntry x = keys x := by
  unfold cubicEntry keys
  generalize |x| = y at *
  by_cases h1 : y ≤ 1
  · simp only [h1, if_true]; norm_num; ring
  · simp only [h1, if_false, h, if_true]; norm_num; ring

theorem cubicKernel_ok {x : List ℝ} (h : ∀ a ∈ x, |a| ≤ 2) : cubicKernel x = .ok (x.map cubicEntry) := by
  unfold cubicKernel
  rw [if_neg]
  rintro ⟨a, ha, h2⟩
  exact absurd (h a ha) (not_le.2 h2)

/-- weight of grid column `j` for a sample with (real) grid coordinate `f` on a grid of `m` points -/
noncomputable def interpW (m : ℕ) (f : ℝ) (c : ℤ) (j : ℕ) : ℝ :=
  if clampIdx m (⌊f⌋ - c) = j then cubicEntry (f - ⌊f⌋ + c) else 0

noncomputable def interpRow (m : ℕ) (f : ℝ) (j : ℕ) : ℝ := (convWindow.map fun c => interpW m f c j).sum

theorem interpRow_eq (m : ℕ) (f : ℝ) (j : ℕ) :
    interpRow m f j = interpW m f (-2) j + interpW m f (-1) j + interpW m f 0 j + interpW m f 1 j := by
  simp [interpRow, convWindow]; ring

theorem frac_le {f : ℝ} {c : ℤ} (h : c ∈ convWindow) : |f - ⌊f⌋ + c| ≤ 2 := by
  have h0 := Int.floor_le f
  have h1 := Int.lt_floor_add_one f
  simp only [convWindow, List.mem_cons, List.not_mem_nil, or_false] at h
  rw [abs_le]
  rcases h with rfl | rfl | rfl | rfl <;> constructor <;> push_cast <;> linarith

theorem interpLoop_eq (grid samples : List ℝ) (cs : List ℤ) (hcs : ∀ c ∈ cs, c ∈ convWindow)
    (F : ℕ → ℕ → ℝ) :
    interpLoop grid samples cs (Csr.ofFn samples.length grid.length F) =
      .ok (Csr.ofFn samples.length grid.length fun i j =>
        F i j + (cs.map fun c => interpW grid.length (interpFactor grid (samples.getD i 0)) c j).sum) := by
  induction cs generalizing F with
  | nil => simp [interpLoop]
  | cons c cs ih =>
    have hk : cubicKernel (((samples.map (interpFactor grid)).map fun f => f - (⌊f⌋ : ℝ)).map fun d => d + (c : ℝ)) =
        .ok ((((samples.map (interpFactor grid)).map fun f => f - (⌊f⌋ : ℝ)).map fun d => d + (c : ℝ)).map cubicEntry) := by
      refine cubicKernel_ok fun a ha => ?_
      simp only [List.mem_map] at ha
      obtain ⟨d, ⟨f, -, rfl⟩, rfl⟩ := ha
      exact frac_le (hcs c (by simp))
    simp only [interpLoop, hk, ok_bind]
    rw [Csr.add, Csr.ofFn_rows, Csr.ofFn_cols]
    rw [Csr.ofFn_congr (g := fun i j => F i j + interpW grid.length (interpFactor grid (samples.getD i 0)) c j),
      ih fun c hc => hcs c (by simp [hc])]
    · congr 1
      refine Csr.ofFn_congr fun i _ j _ => ?_
      simp [add_assoc]
    · intro i hi j hj
      rw [Csr.ofFn_get hi hj, Csr.single_get (by simp) (by simpa using hi)]
      simp [hi, interpW]

theorem empty_eq_ofFn (r c : ℕ) : Csr.empty r c = Csr.ofFn r c fun _ _ => 0 := by
  rw [Csr.empty_eq, Csr.ofFn]
  congr 1
  refine eq_vmk [] (by simp) fun i hi => ?_
  simp [hi]

theorem interpCubic_eq {grid samples : List ℝ} (h : 4 ≤ grid.length) :
    interpCubic (NDArr.vec grid) (NDArr.vec samples) =
      .ok (Csr.ofFn samples.length grid.length fun i j =>
        interpRow grid.length (interpFactor grid (samples.getD i 0)) j) := by
  unfold interpCubic
  by_cases hs : samples = []
  · subst hs
    simp only [NDArr.len, NDArr.vec, ok_bind, List.length_nil, if_true]
    refine congrArg Except.ok ?_
    rw [empty_eq_ofFn]
    exact Csr.ofFn_congr fun i hi => by omega
  · have hl : samples.length ≠ 0 := by simpa using hs
    simp only [NDArr.len, NDArr.vec, NDArr.ndim, ok_bind, hl, if_false, List.length_cons, List.length_nil,
      ne_eq, not_true, zero_add, if_neg (not_lt.2 h)]
    rw [empty_eq_ofFn, interpLoop_eq _ _ _ (fun c hc => hc)]
    congr 1
    refine Csr.ofFn_congr fun i _ j _ => ?_
    rw [zero_add]; rfl

theorem clampIdx_lt {m : ℕ} (h : 0 < m) (c : ℤ) : clampIdx m c < m := by
  unfold clampIdx
  simp only
  split_ifs <;> omega

theorem clampIdx_mid {m : ℕ} {c : ℤ} (h0 : 0 ≤ c) (h1 : c < m) : (clampIdx m c : ℤ) = c := by
  unfold clampIdx
  simp only
  rw [if_neg (by omega), if_neg (by omega)]
  omega

theorem clampIdx_low {m : ℕ} (hm : 0 < m) {c : ℤ} (h : c ≤ 0) : clampIdx m c = 0 := by
  unfold clampIdx
  simp only
  split_ifs <;> omega

theorem clampIdx_high {m : ℕ} (hm : 0 < m) {c : ℤ} (h : (m : ℤ) - 1 ≤ c) : clampIdx m c = m - 1 := by
  unfold clampIdx
  simp only
  split_ifs <;> omega

/-- applying an interpolation row to grid values -/
theorem interpRow_apply {m : ℕ} (hm : 0 < m) (f : ℝ) (g : ℕ → ℝ) :
    ∑ j ∈ Finset.range m, interpRow m f j * g j =
      keys (f - ⌊f⌋ - 2) * g (clampIdx m (⌊f⌋ + 2)) + keys (f - ⌊f⌋ - 1) * g (clampIdx m (⌊f⌋ + 1)) +
      keys (f - ⌊f⌋) * g (clampIdx m ⌊f⌋) + keys (f - ⌊f⌋ + 1) * g (clampIdx m (⌊f⌋ - 1)) := by
  have hw : ∀ c ∈ convWindow, ∑ j ∈ Finset.range m, interpW m f c j * g j =
      keys (f - ⌊f⌋ + c) * g (clampIdx m (⌊f⌋ - c)) := by
    intro c hc
    rw [Finset.sum_eq_single (clampIdx m (⌊f⌋ - c))]
    · rw [interpW, if_pos rfl, cubicEntry_eq_keys (frac_le hc)]
    · intro b _ hb
      rw [interpW, if_neg (Ne.symm hb), zero_mul]
    · intro hb; exact absurd (Finset.mem_range.2 (clampIdx_lt hm _)) hb
  have e : ∀ j, interpRow m f j * g j =
      interpW m f (-2) j * g j + interpW m f (-1) j * g j + interpW m f 0 j * g j + interpW m f 1 j * g j := by
    intro j; rw [interpRow_eq]; ring
  simp only [e, Finset.sum_add_distrib]
  rw [hw (-2) (by simp [convWindow]), hw (-1) (by simp [convWindow]), hw 0 (by simp [convWindow]),
    hw 1 (by simp [convWindow])]
  push_cast
  simp only [← sub_eq_add_neg, sub_neg_eq_add, add_zero, sub_zero]

theorem keys_m2 {t : ℝ} (h0 : 0 ≤ t) (h1 : t ≤ 1) : keys (t - 2) = 1 / 2 * t ^ 3 - 1 / 2 * t ^ 2 := by
  have e : |t - 2| = 2 - t := by rw [abs_of_nonpos (by linarith)]; ring
  unfold keys
  rw [e]
  split_ifs with h2 h3
  · have : t = 1 := by linarith
    subst this; norm_num
  · ring
  · exfalso; linarith

theorem keys_m1 {t : ℝ} (h0 : 0 ≤ t) (h1 : t ≤ 1) : keys (t - 1) = -3 / 2 * t ^ 3 + 2 * t ^ 2 + 1 / 2 * t := by
  have e : |t - 1| = 1 - t := by rw [abs_of_nonpos (by linarith)]; ring
  unfold keys
  rw [e, if_pos (by linarith)]
  ring

theorem keys_0 {t : ℝ} (h0 : 0 ≤ t) (h1 : t ≤ 1) : keys t = 3 / 2 * t ^ 3 - 5 / 2 * t ^ 2 + 1 := by
  unfold keys
  rw [abs_of_nonneg h0, if_pos h1]

theorem keys_p1 {t : ℝ} (h0 : 0 ≤ t) (h1 : t ≤ 1) : keys (t + 1) = -1 / 2 * t ^ 3 + t ^ 2 - 1 / 2 * t := by
  unfold keys
  rw [abs_of_nonneg (by linarith)]
  split_ifs with h2 h3
  · have : t = 0 := by linarith
    subst this; norm_num
  · ring
  · exfalso; linarith

theorem frac_mem (f : ℝ) : 0 ≤ f - ⌊f⌋ ∧ f - ⌊f⌋ ≤ 1 := by
  have h0 := Int.floor_le f
  have h1 := Int.lt_floor_add_one f
  constructor <;> linarith

theorem interpRow_sum {m : ℕ} (hm : 0 < m) (f : ℝ) : ∑ j ∈ Finset.range m, interpRow m f j = 1 := by
  have := interpRow_apply hm f (fun _ => 1)
  simp only [mul_one] at this
  rw [this]
  obtain ⟨h0, h1⟩ := frac_mem f
  rw [keys_m2 h0 h1, keys_m1 h0 h1, keys_0 h0 h1, keys_p1 h0 h1]
  ring

theorem interpRow_card {m : ℕ} (f : ℝ) [DecidablePred fun j => interpRow m f j ≠ 0] :
    ((Finset.range m).filter fun j => interpRow m f j ≠ 0).card ≤ 4 := by
  have : ((Finset.range m).filter fun j => interpRow m f j ≠ 0) ⊆
      {clampIdx m (⌊f⌋ - -2), clampIdx m (⌊f⌋ - -1), clampIdx m (⌊f⌋ - 0), clampIdx m (⌊f⌋ - 1)} := by
    intro j hj
    by_contra hn
    simp only [Finset.mem_insert, Finset.mem_singleton, not_or] at hn
    obtain ⟨a, b, c, d⟩ := hn
    refine (Finset.mem_filter.1 hj).2 ?_
    rw [interpRow_eq, interpW, interpW, interpW, interpW, if_neg (Ne.symm a), if_neg (Ne.symm b), if_neg (Ne.symm c),
      if_neg (Ne.symm d)]
    norm_num
  exact (Finset.card_le_card this).trans Finset.card_le_four

/-- inside the grid the four window columns are the true neighbours -/
theorem interpRow_interior {m : ℕ} {k : ℕ} {t : ℝ} (hk : 1 ≤ k) (hk' : k + 2 < m) (h0 : 0 ≤ t) (h1 : t < 1)
    (g : ℕ → ℝ) :
    ∑ j ∈ Finset.range m, interpRow m (k + t) j * g j =
      keys (t - 2) * g (k + 2) + keys (t - 1) * g (k + 1) + keys t * g k + keys (t + 1) * g (k - 1) := by
  have hf : ⌊(k : ℝ) + t⌋ = k := by
    rw [Int.floor_eq_iff]; push_cast; constructor <;> linarith
  rw [interpRow_apply (by omega), hf]
  push_cast
  rw [show (k : ℝ) + t - k = t by ring]
  have c1 : clampIdx m ((k : ℤ) + 2) = k + 2 := by
    have := clampIdx_mid (m := m) (c := (k : ℤ) + 2) (by omega) (by omega); omega
  have c2 : clampIdx m ((k : ℤ) + 1) = k + 1 := by
    have := clampIdx_mid (m := m) (c := (k : ℤ) + 1) (by omega) (by omega); omega
  have c3 : clampIdx m (k : ℤ) = k := by
    have := clampIdx_mid (m := m) (c := (k : ℤ)) (by omega) (by omega); omega
  have c4 : clampIdx m ((k : ℤ) - 1) = k - 1 := by
    have := clampIdx_mid (m := m) (c := (k : ℤ) - 1) (by omega) (by omega); omega
  rw [c1, c2, c3, c4]

/-- at a grid point only that point contributes -/
theorem interpRow_gridpoint {m k : ℕ} (hk : k < m) (g : ℕ → ℝ) :
    ∑ j ∈ Finset.range m, interpRow m (k : ℝ) j * g j = g k := by
  have hf : ⌊(k : ℝ)⌋ = k := by simp
  rw [interpRow_apply (by omega), hf]
  push_cast
  have c3 : clampIdx m (k : ℤ) = k := by
    have := clampIdx_mid (m := m) (c := (k : ℤ)) (by omega) (by omega); omega
  rw [c3, show (k : ℝ) - k = 0 by ring, keys_m2 le_rfl zero_le_one, keys_m1 le_rfl zero_le_one,
    keys_0 le_rfl zero_le_one, keys_p1 le_rfl zero_le_one]
  ring

theorem interpRow_below {m : ℕ} (hm : 0 < m) {f : ℝ} (h : f < -1) (j : ℕ) (hj : j < m) :
    interpRow m f j = if j = 0 then 1 else 0 := by
  have hf : ⌊f⌋ + 2 ≤ 0 := by
    have : ⌊f⌋ < -1 := by rw [Int.floor_lt]; push_cast; exact h
    omega
  have e := interpRow_apply hm f (fun i => if i = j then (1 : ℝ) else 0)
  simp only [mul_ite, mul_one, mul_zero, Finset.sum_ite_eq', Finset.mem_range, hj, if_true] at e
  rw [e, clampIdx_low hm hf, clampIdx_low hm (by omega), clampIdx_low hm (by omega), clampIdx_low hm (by omega)]
  obtain ⟨h0, h1⟩ := frac_mem f
  by_cases h : j = 0
  · subst h
    simp only [if_true]
    rw [keys_m2 h0 h1, keys_m1 h0 h1, keys_0 h0 h1, keys_p1 h0 h1]; ring
  · simp [h, Ne.symm h]

theorem interpRow_above {m : ℕ} (hm : 0 < m) {f : ℝ} (h : (m : ℝ) ≤ f) (j : ℕ) (hj : j < m) :
    interpRow m f j = if j = m - 1 then 1 else 0 := by
  have hf : (m : ℤ) ≤ ⌊f⌋ := by rw [Int.le_floor]; exact_mod_cast h
  have e := interpRow_apply hm f (fun i => if i = j then (1 : ℝ) else 0)
  simp only [mul_ite, mul_one, mul_zero, Finset.sum_ite_eq', Finset.mem_range, hj, if_true] at e
  rw [e, clampIdx_high hm (by omega), clampIdx_high hm (by omega), clampIdx_high hm (by omega), clampIdx_high hm (by omega)]
  obtain ⟨h0, h1⟩ := frac_mem f
  by_cases h : j = m - 1
  · subst h
    simp only [if_true]
    rw [keys_m2 h0 h1, keys_m1 h0 h1, keys_0 h0 h1, keys_p1 h0 h1]; ring
  · simp [h, Ne.symm h]

end Verif
