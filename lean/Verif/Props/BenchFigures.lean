import Verif.Model.BenchFigures
import Verif.Spec.BenchFigures
import Verif.Proofs.ApproxGrad

/-! C120, C121: the curves and tables of the benchmarks -/

namespace Verif

open Finset

theorem addAccumulate_getD (a : List ℝ) {i : ℕ} (h : i < a.length) : (addAccumulate a).getD i 0 = ∑ j ∈ range (i + 1), a.getD j 0 := by
  unfold addAccumulate
  rw [vmk_getD, if_pos h]
  have : ∀ k ≤ a.length, (a.take k).sum = ∑ j ∈ range k, a.getD j 0 := by
    intro k
    induction k with
    | zero => intro _; simp
    | succ k ih =>
      intro hk
      rw [List.take_succ_eq_append_getElem hk, List.sum_append, ih (by omega), Finset.sum_range_succ, List.getD_eq_getElem _ _ hk]
      simp
  exact this _ h

theorem addAccumulate_length (a : List ℝ) : (addAccumulate a).length = a.length := by
  unfold addAccumulate; rw [vmk_length]

/-- C120: the moving average of at least as many numbers as the window has: each number is replaced by the mean of the last `n` up to it -/
theorem C120_average (a : List ℝ) (n : ℕ) (h1 : 1 ≤ n) (h2 : n ≤ a.length) :
    ∃ r, movingAverage a n = .ok r ∧ r.length = a.length ∧ ∀ i < a.length, r.getD i 0 = windowMean a n i := by
  have hl := addAccumulate_length a
  set S := addAccumulate a with hS
  have e1 : (sliceFrom S n).length = a.length - n := by unfold sliceFrom; rw [List.length_drop, hl]
  have e2 : (sliceToEnd S n).length = a.length - n := by
    unfold sliceToEnd; rw [if_neg (by omega), List.length_take, hl]; omega
  set dl := List.zipWith (· - ·) (sliceFrom S n) (sliceToEnd S n) with hdl
  have e3 : dl.length = a.length - n := by rw [hdl, List.length_zipWith, e1, e2, min_self]
  have hb : broadcast2 (· - ·) (sliceFrom S n) (sliceToEnd S n) = .ok dl := by unfold broadcast2; rw [if_pos (e1.trans e2.symm)]
  have ha : assignFrom S n dl = .ok (S.take n ++ dl) := by unfold assignFrom; rw [if_pos (by rw [e3, List.length_drop, hl])]
  have lt : (S.take n).length = n := by rw [List.length_take, hl]; omega
  have htk : (S.take n ++ dl).take n = S.take n := by rw [List.take_append_of_le_length (by omega), List.take_of_length_le (by omega)]
  have hdp : (S.take n ++ dl).drop n = dl := by rw [List.drop_append_of_le_length (by omega), List.drop_of_length_le (by omega), List.nil_append]
  set q := dl.map fun x => x / (n : ℝ) with hq
  have htk' : (S.take n ++ q).take n = S.take n := by rw [List.take_append_of_le_length (by omega), List.take_of_length_le (by omega)]
  have hdp' : (S.take n ++ q).drop n = q := by rw [List.drop_append_of_le_length (by omega), List.drop_of_length_le (by omega), List.nil_append]
  have hv : divideTo (S.take n ++ q) n (vmk n fun i => (i + 1 : ℝ)) = .ok (List.zipWith (· / ·) (S.take n) (vmk n fun i => (i + 1 : ℝ)) ++ q) := by
    unfold divideTo
    rw [htk', hdp', if_pos (by rw [vmk_length, lt])]
  refine ⟨List.zipWith (· / ·) (S.take n) (vmk n fun i => (i + 1 : ℝ)) ++ q, ?_, ?_, ?_⟩
  · unfold movingAverage
    simp only [← hS, hb, ha, bind, Except.bind, htk, hdp, ← hq, hv]
  · rw [List.length_append, List.length_zipWith, lt, vmk_length, hq, List.length_map, e3]; omega
  · intro i hi
    have lz : (List.zipWith (· / ·) (S.take n) (vmk n fun i => (i + 1 : ℝ))).length = n := by rw [List.length_zipWith, lt, vmk_length, min_self]
    unfold windowMean
    by_cases hin : i < n
    · rw [List.getD_append _ _ _ _ (by omega), List.getD_eq_getElem _ _ (by omega), List.getElem_zipWith, List.getElem_take, ← List.getD_eq_getElem _ 0 (by omega),
        ← List.getD_eq_getElem (vmk n _) 0 (by rw [vmk_length]; exact hin), vmk_getD, if_pos hin, addAccumulate_getD a hi, min_eq_left (by omega)]
      have : Finset.Icc (i + 1 - n) i = range (i + 1) := by ext j; simp only [Finset.mem_Icc, Finset.mem_range]; omega
      rw [this]; push_cast; rfl
    · rw [List.getD_append_right _ _ _ _ (by omega), lz, hq, List.getD_eq_getElem _ _ (by rw [List.length_map, e3]; omega), List.getElem_map, min_eq_right (by omega)]
      congr 1
      rw [List.getElem_zipWith]
      have g1 : (sliceFrom S n)[i - n]'(by rw [e1]; omega) = ∑ j ∈ range (i + 1), a.getD j 0 := by
        unfold sliceFrom
        rw [List.getElem_drop, ← List.getD_eq_getElem _ 0 (by omega), show n + (i - n) = i by omega, addAccumulate_getD a hi]
      have g2 : (sliceToEnd S n)[i - n]'(by rw [e2]; omega) = ∑ j ∈ range (i + 1 - n), a.getD j 0 := by
        rw [← List.getD_eq_getElem _ 0 (by rw [e2]; omega)]
        unfold sliceToEnd
        rw [if_neg (by omega), List.getD_eq_getElem _ _ (by rw [List.length_take]; omega), List.getElem_take, ← List.getD_eq_getElem _ 0 (by omega), addAccumulate_getD a (by omega),
          show i - n + 1 = i + 1 - n by omega]
      rw [g1, g2, ← Finset.sum_sdiff (Finset.range_subset_range.2 (show i + 1 - n ≤ i + 1 by omega)), add_sub_cancel_right]
      congr 1
      ext j; simp only [Finset.mem_sdiff, Finset.mem_range, Finset.mem_Icc]; omega

/-- C120: the moving average fails exactly when the window is longer than the numbers (except for a window of one and no numbers) or has length zero; it is a `ValueError` -/
theorem C120_fails (a : List ℝ) (n : ℕ) (e : PyErr) : movingAverage a n = .error e ↔ e = .valueError ∧ ((a.length < n ∧ n ≠ 1) ∨ (n = 0 ∧ a ≠ [])) := by
  have hl := addAccumulate_length a
  by_cases h0 : n = 0
  · subst h0
    by_cases ha : a = []
    · subst ha
      have : movingAverage [] 0 = .ok [] := by
        simp [movingAverage, addAccumulate, sliceFrom, sliceToEnd, broadcast2, assignFrom, divideTo, vmk, bind, Except.bind]
      rw [this]; simp
    · have hp := List.length_pos_of_ne_nil ha
      have : movingAverage a 0 = .error .valueError := by
        unfold movingAverage
        by_cases h1 : a.length = 1
        · simp [sliceFrom, sliceToEnd, broadcast2, assignFrom, bind, Except.bind, hl, h1]
        · simp [sliceFrom, sliceToEnd, broadcast2, bind, Except.bind, hl, h1, ha]
      rw [this]
      constructor
      · intro h; exact ⟨(Except.error.inj h).symm, Or.inr ⟨rfl, ha⟩⟩
      · rintro ⟨rfl, -⟩; rfl
  · by_cases hn : n ≤ a.length
    · obtain ⟨r, hr, -⟩ := C120_average a n (by omega) hn
      rw [hr]
      constructor
      · intro h; cases h
      · rintro ⟨-, h | h⟩
        · omega
        · exact absurd h.1 h0
    · have e1 : sliceFrom (addAccumulate a) n = [] := by unfold sliceFrom; exact List.drop_of_length_le (by omega)
      have e2 : sliceToEnd (addAccumulate a) n = [] := by unfold sliceToEnd; rw [if_neg h0, show (addAccumulate a).length - n = 0 by omega, List.take_zero]
      have e3 : (addAccumulate a).drop n = [] := List.drop_of_length_le (by omega)
      have e4 : (addAccumulate a).take n = addAccumulate a := List.take_of_length_le (by omega)
      have hm : movingAverage a n = divideTo (addAccumulate a) n (vmk n fun i => (i + 1 : ℝ)) := by
        unfold movingAverage
        simp [e1, e2, e3, e4, broadcast2, assignFrom, bind, Except.bind]
      rw [hm]
      unfold divideTo
      rw [vmk_length, e4, hl, if_neg (by omega)]
      by_cases h1 : n = 1
      · rw [if_pos h1]
        constructor
        · intro h; cases h
        · rintro ⟨-, h | h⟩
          · exact absurd h1 h.2
          · exact absurd h.1 h0
      · rw [if_neg h1]
        constructor
        · intro h; exact ⟨(Except.error.inj h).symm, Or.inl ⟨by omega, h1⟩⟩
        · rintro ⟨rfl, -⟩; rfl

theorem scanl_max_length (x : ℝ) : ∀ l : List ℝ, (l.scanl max x).length = l.length + 1 := fun l => List.length_scanl

theorem scanl_max_getD : ∀ (l : List ℝ) (x : ℝ) (i : ℕ), i < l.length + 1 →
    (∃ j ≤ i, (l.scanl max x).getD i 0 = (x :: l).getD j 0) ∧ ∀ j ≤ i, (x :: l).getD j 0 ≤ (l.scanl max x).getD i 0
  | l, x, 0, _ => by
    have h0 : (l.scanl max x).getD 0 0 = x := by cases l <;> simp
    refine ⟨⟨0, le_refl _, by rw [h0]; rfl⟩, ?_⟩
    intro j hj
    obtain rfl : j = 0 := by omega
    rw [h0]; exact le_refl _
  | [], x, i + 1, h => by simp at h
  | y :: l, x, i + 1, h => by
    have hs : ((y :: l).scanl max x).getD (i + 1) 0 = (l.scanl max (max x y)).getD i 0 := by rw [List.scanl_cons]; simp
    obtain ⟨⟨j, hj, he⟩, hle⟩ := scanl_max_getD l (max x y) i (by simpa using h)
    rw [hs]
    refine ⟨?_, ?_⟩
    · rcases j with _ | j
      · rw [he]
        rcases le_total x y with hxy | hxy
        · exact ⟨1, by omega, by simp [hxy]⟩
        · exact ⟨0, by omega, by simp [hxy]⟩
      · exact ⟨j + 2, by omega, by rw [he]; simp⟩
    · intro k hk
      rcases k with _ | _ | k
      · exact le_trans (by simp) (hle 0 (by omega))
      · exact le_trans (by simp) (hle 0 (by omega))
      · exact le_trans (by simp) (hle (k + 1) (by omega))

/-- C120: the rolled maximum: each entry is the largest of the moving averages up to it -/
theorem C120_max (a : List ℝ) (n : ℕ) (h1 : 1 ≤ n) (h2 : n ≤ a.length) :
    ∃ r, divRolledMax a n = .ok r ∧ r.length = a.length ∧
      ∀ i < a.length, (∃ j ≤ i, r.getD i 0 = windowMean a n j) ∧ ∀ j ≤ i, windowMean a n j ≤ r.getD i 0 := by
  obtain ⟨m, hm, hl, hv⟩ := C120_average a n h1 h2
  refine ⟨maximumAccumulate m, by unfold divRolledMax; rw [hm]; rfl, ?_, ?_⟩
  · rw [← hl]
    cases m with
    | nil => rfl
    | cons x m => unfold maximumAccumulate; rw [scanl_max_length]; rfl
  · intro i hi
    cases m with
    | nil => simp at hl; omega
    | cons x m =>
      obtain ⟨⟨j, hj, he⟩, hle⟩ := scanl_max_getD m x i (by rw [← hl] at hi; simpa using hi)
      exact ⟨⟨j, hj, he.trans (hv j (by omega))⟩, fun j hj => (hv j (by omega)).symm.le.trans (hle j hj)⟩

theorem windowMean_one (a : List ℝ) (i : ℕ) : windowMean a 1 i = a.getD i 0 := by
  unfold windowMean
  rw [show i + 1 - 1 = i by omega, Finset.Icc_self, Finset.sum_singleton, min_eq_right (by omega)]
  simp

/-- C120: the dashed curve of the figure is the cutoff of the optimizer: where the norms of the gradients are below `ratio` times the curve, and only there, the optimizer
with this ratio counts a drop -/
theorem C120_cutoff (norms : List ℝ) (G : ℕ → List ℝ) (hG : ∀ k < norms.length, norms.getD k 0 = largest (G k)) (hne : norms ≠ []) (ratio : ℝ) :
    ∃ r, divRolledMax norms 1 = .ok r ∧ r.length = norms.length ∧ ∀ k < norms.length, (Drop ratio G k ↔ norms.getD k 0 < ratio * r.getD k 0) := by
  obtain ⟨r, hr, hl, hv⟩ := C120_max norms 1 (le_refl _) (List.length_pos_of_ne_nil hne)
  refine ⟨r, hr, hl, fun k hk => ?_⟩
  obtain ⟨⟨j, hj, he⟩, hle⟩ := hv k hk
  simp only [windowMean_one] at he hle
  constructor
  · rintro ⟨i, hi, hmax, hlt⟩
    have : r.getD k 0 = largest (G i) := by
      refine le_antisymm ?_ ?_
      · rw [he, hG j (by omega)]; exact hmax j hj
      · rw [← hG i (by omega)]; exact hle i hi
    rw [this, hG k hk]; exact hlt
  · intro h
    refine ⟨j, hj, fun i hi => ?_, ?_⟩
    · rw [← hG i (by omega), ← hG j (by omega), ← he]; exact hle i hi
    · rw [← hG k hk, ← hG j (by omega), ← he]; exact h

/-- the hypotheses are met by three gradients of different size, of which the last is a drop for the ratio 1/2 and the second is not -/
example : movingAverage [4, 2, 1] 2 = .ok [4, 3, 3 / 2] ∧ divRolledMax [4, 2, 1] 1 = .ok [4, 4, 4] := by
  constructor
  · simp [movingAverage, addAccumulate, sliceFrom, sliceToEnd, broadcast2, assignFrom, divideTo, vmk, bind, Except.bind, List.range_succ]; norm_num
  · simp [divRolledMax, maximumAccumulate, movingAverage, addAccumulate, sliceFrom, sliceToEnd, broadcast2, assignFrom, divideTo, vmk, bind, Except.bind, List.range_succ, pure, Except.pure]; norm_num

end Verif
