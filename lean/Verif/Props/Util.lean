import Verif.Model.PyUtil
import Verif.Proofs.BTTB
import Verif.Proofs.EigBound2

/-! C59-C63: `runlmc/util/numpy_convenience.py`. -/

namespace Verif

/-! ### C59 -/

theorem accumulateFrom_getLast? (s : ℕ) (l : List ℕ) : (s :: accumulateFrom s l).getLast? = some (s + l.sum) := by
  induction l generalizing s with
  | nil => simp [accumulateFrom]
  | cons a l ih =>
    simp only [accumulateFrom]
    rw [List.getLast?_cons_cons, ih, List.sum_cons, add_assoc]

theorem slice_append_drop {α : Type*} (a : List α) {s e : ℕ} (h : s ≤ e) : slice a s e ++ a.drop e = a.drop s := by
  unfold slice
  have := List.take_append_drop (e - s) (a.drop s)
  rwa [List.drop_drop, show s + (e - s) = e by omega] at this

theorem npSplit_spec {α : Type*} (a : List α) (s n : ℕ) (l : List ℕ) (h : s + n + l.sum = a.length) :
    (npSplit a s ((s + n) :: accumulateFrom (s + n) l).dropLast).flatten = a.drop s ∧
    (npSplit a s ((s + n) :: accumulateFrom (s + n) l).dropLast).map List.length = n :: l := by
  induction l generalizing s n with
  | nil =>
    simp only [accumulateFrom, List.dropLast_singleton, npSplit, List.flatten_cons, List.flatten_nil, List.append_nil,
      List.map_cons, List.map_nil, List.length_drop]
    simp at h
    exact ⟨trivial, by rw [show a.length - s = n by omega]⟩
  | cons b l ih =>
    simp only [List.sum_cons] at h
    obtain ⟨i1, i2⟩ := ih (s + n) b (by omega)
    simp only [accumulateFrom]
    rw [List.dropLast_cons_of_ne_nil (by simp)]
    simp only [npSplit, List.flatten_cons, List.map_cons, i1, i2]
    exact ⟨slice_append_drop _ (by omega), by rw [slice_length (by omega)]; simp⟩

/-- C59: `tesselate(a, lens)` succeeds exactly when `lens` is non-empty and sums to `len(a)` (`ValueError`
otherwise); then the segments have the given lengths and concatenate to `a`. -/
theorem C59_tesselate {α : Type*} (a : List α) (lens : List ℕ) :
    ((∃ r, tesselate a lens = .ok r) ↔ lens ≠ [] ∧ lens.sum = a.length) ∧
    (∀ e, tesselate a lens = .error e → e = .valueError) ∧
    ∀ r, tesselate a lens = .ok r → r.flatten = a ∧ r.map List.length = lens := by
  cases lens with
  | nil => simp [tesselate, accumulate, eq_comm]
  | cons n l =>
    have hl := accumulateFrom_getLast? n l
    simp only [tesselate, accumulate, hl, List.sum_cons]
    by_cases h : a.length = n + l.sum
    · have hs := npSplit_spec a 0 n l (by omega)
      simp only [Nat.zero_add, List.drop_zero] at hs
      simp [h, hs]
    · simp [h, eq_comm]

theorem chunks_flatten {α : Type*} (l : List α) (n k : ℕ) :
    ((List.range k).map fun i => slice l (i * n) (i * n + n)).flatten = l.take (k * n) := by
  induction k with
  | zero => simp
  | succ k ih =>
    rw [List.range_succ, List.map_append, List.flatten_append, ih]
    simp only [List.map_cons, List.map_nil, List.flatten_cons, List.flatten_nil, List.append_nil, slice]
    rw [show k * n + n - k * n = n by omega, add_mul, one_mul, List.take_add]

/-- C59: `chunks(l, n)` for `n ≥ 1`: the chunks concatenate to `l`; every chunk has length `n` except possibly the
last, which is not empty. `n = 0` is a ValueError. -/
theorem C59_chunks {α : Type*} (l : List α) (n : ℕ) :
    (n = 0 → chunks l n = .error .valueError) ∧
    (0 < n → ∃ cs, chunks l n = .ok cs ∧ cs.flatten = l ∧ (∀ c ∈ cs, 0 < c.length ∧ c.length ≤ n) ∧
      ∀ c ∈ cs.dropLast, c.length = n) := by
  refine ⟨fun h => by simp [chunks, h], fun h => ⟨chunksL l n, by simp [chunks]; omega, ?_, ?_, ?_⟩⟩
  · unfold chunksL
    rw [chunks_flatten l n]
    refine List.take_of_length_le ?_
    unfold nchunks
    have := Nat.div_add_mod (l.length + n - 1) n
    have := Nat.mod_lt (l.length + n - 1) h
    rw [mul_comm]; omega
  · intro c hc
    unfold chunksL at hc
    obtain ⟨k, hk, rfl⟩ := List.mem_map.1 hc
    have hk := List.mem_range.1 hk
    unfold nchunks at hk
    have h1 : k * n < l.length := by
      have := Nat.div_mul_le_self (l.length + n - 1) n
      have h2 : (k + 1) * n ≤ (l.length + n - 1) / n * n := Nat.mul_le_mul_right _ hk
      have : (k + 1) * n = k * n + n := by ring
      omega
    simp [slice]; omega
  · intro c hc
    unfold chunksL at hc
    rw [← List.map_dropLast] at hc
    obtain ⟨k, hk, rfl⟩ := List.mem_map.1 hc
    have hk : k + 1 < nchunks l.length n := by
      rw [List.dropLast_eq_take, List.length_range, List.take_range] at hk
      have := List.mem_range.1 hk
      omega
    unfold nchunks at hk
    have h2 : (k + 2) * n ≤ (l.length + n - 1) / n * n := Nat.mul_le_mul_right _ hk
    have := Nat.div_mul_le_self (l.length + n - 1) n
    have : (k + 2) * n = k * n + n + n := by ring
    rw [slice_length (by omega)]; omega

/-! ### C60 -/

/-- C60: consecutive half-open intervals starting at 0 with the given lengths, ending at the total; the empty
list raises IndexError. -/
theorem C60_beginEndIndices (lens : List ℕ) :
    (lens = [] → beginEndIndices lens = .error .indexError) ∧
    (lens ≠ [] → ∃ b e, beginEndIndices lens = .ok (b, e) ∧ b.length = lens.length ∧ e.length = lens.length ∧
      b.getD 0 0 = 0 ∧ (∀ i < lens.length, e.getD i 0 = b.getD i 0 + lens.getD i 0) ∧
      (∀ i, i + 1 < lens.length → b.getD (i + 1) 0 = e.getD i 0) ∧ e.getLast? = some lens.sum) := by
  refine ⟨fun h => by subst h; rfl, fun h => ?_⟩
  obtain ⟨b, e, h1, h2, h3, h4⟩ := beginEnd_ok h
  have key : ∀ (l : List ℕ) (s i : ℕ), i < l.length →
      ((spansFrom s l).getD i (0, 0)).2 = ((spansFrom s l).getD i (0, 0)).1 + l.getD i 0 := by
    intro l
    induction l with
    | nil => intro s i hi; simp at hi
    | cons a l ih =>
      intro s i hi
      cases i with
      | zero => simp [spansFrom]
      | succ i => simpa [spansFrom] using ih (s + a) i (by simpa using hi)
  have key2 : ∀ (l : List ℕ) (s i : ℕ), i + 1 < l.length →
      ((spansFrom s l).getD (i + 1) (0, 0)).1 = ((spansFrom s l).getD i (0, 0)).2 := by
    intro l
    induction l with
    | nil => intro s i hi; simp at hi
    | cons a l ih =>
      intro s i hi
      cases i with
      | zero =>
        cases l with
        | nil => simp at hi
        | cons c l => simp [spansFrom]
      | succ i => simpa [spansFrom] using ih (s + a) i (by simpa using hi)
  have hz : ∀ i < lens.length, (spansFrom 0 lens).getD i (0, 0) = (b.getD i 0, e.getD i 0) := by
    intro i hi
    rw [← h2]
    have hb : i < b.length := by omega
    have he : i < e.length := by omega
    rw [getD_getElem (0 : ℕ) hb, getD_getElem (0 : ℕ) he, getD_getElem _ (by simp; omega), List.getElem_zip]
  refine ⟨b, e, h1, h3, h4, ?_, fun i hi => ?_, fun i hi => ?_, ?_⟩
  · cases lens with
    | nil => exact absurd rfl h
    | cons a l => simpa [spansFrom] using (congrArg Prod.fst (hz 0 (by simp))).symm
  · have := key lens 0 i hi; rw [hz i hi] at this; exact this
  · have := key2 lens 0 i hi; rw [hz i (by omega), hz (i + 1) hi] at this; exact this
  · cases lens with
    | nil => exact absurd rfl h
    | cons a l =>
      have : e = accumulate (a :: l) := by
        unfold beginEndIndices at h1
        simp only at h1
        split at h1
        · cases h1
        · simp only [Except.ok.injEq, Prod.mk.injEq] at h1; exact h1.2.symm
      rw [this]
      exact accumulateFrom_getLast? a l

/-! ### C61 -/

theorem npDiff_nonpos_iff (xs : List ℝ) : (¬ ∃ d ∈ npDiff xs, d > 0) ↔ xs.Pairwise (fun a b => b ≤ a) := by
  rw [← List.isChain_iff_pairwise]
  unfold npDiff
  induction xs with
  | nil => simp
  | cons a l ih =>
    cases l with
    | nil => simp
    | cons b l =>
      simp only [List.tail_cons, List.isChain_cons_cons] at ih ⊢
      rw [← ih]
      simp only [List.zipWith_cons_cons, List.mem_cons, exists_eq_or_imp, not_or, not_lt, gt_iff_lt, sub_nonpos]

theorem takeWhile_sorted {p : ℝ → Bool} : ∀ (l : List ℝ), l.Pairwise (fun a b => p b = true → p a = true) →
    ∀ k, (h : k < l.length) → (k < (l.takeWhile p).length ↔ p l[k] = true)
  | [], _, k, h => by simp at h
  | a :: l, hp, k, h => by
    rw [List.pairwise_cons] at hp
    by_cases ha : p a = true
    · rw [List.takeWhile_cons_of_pos ha]
      cases k with
      | zero => simp [ha]
      | succ k =>
        simp only [List.length_cons, Nat.add_lt_add_iff_right, List.getElem_cons_succ]
        exact takeWhile_sorted l hp.2 k (by simpa using h)
    · rw [List.takeWhile_cons_of_neg ha]
      simp only [List.length_nil, Nat.not_lt_zero, false_iff]
      cases k with
      | zero => simpa using ha
      | succ k =>
        simp only [List.getElem_cons_succ]
        exact fun h' => ha (hp.1 _ (List.getElem_mem _) h')

/-- C61: on a weakly decreasing array the result `i` satisfies: exactly the entries at positions `< i` are `≥ x`
(inclusive) respectively `> x`; any other array is a ValueError. -/
theorem C61_searchDescending (x : ℝ) (xs : List ℝ) (inclusive : Bool) :
    ((∃ i, searchDescending x xs inclusive = .ok i) ↔ xs.Pairwise (fun a b => b ≤ a)) ∧
    (∀ e, searchDescending x xs inclusive = .error e → e = .valueError) ∧
    ∀ i, searchDescending x xs inclusive = .ok i → i ≤ xs.length ∧
      ∀ k, (h : k < xs.length) → (k < i ↔ if inclusive then x ≤ xs[k] else x < xs[k]) := by
  unfold searchDescending
  by_cases hd : ∃ d ∈ npDiff xs, d > 0
  · rw [if_pos hd]
    have : ¬ xs.Pairwise (fun a b => b ≤ a) := fun h => (npDiff_nonpos_iff xs).2 h hd
    simp [this, eq_comm]
  · rw [if_neg hd]
    have hs := (npDiff_nonpos_iff xs).1 hd
    have hr : xs.reverse.Pairwise (fun a b => a ≤ b) := List.pairwise_reverse.2 hs
    refine ⟨by simp [hs], by simp, fun i hi => ?_⟩
    simp only [Except.ok.injEq] at hi
    subst hi
    refine ⟨Nat.sub_le _ _, fun k hk => ?_⟩
    have hk' : xs.length - 1 - k < xs.reverse.length := by simp; omega
    have he : xs.reverse[xs.length - 1 - k] = xs[k] := by
      rw [List.getElem_reverse]; congr 1; omega
    cases inclusive with
    | true =>
      simp only [if_true, searchLeft]
      have := takeWhile_sorted (p := fun a => decide (a < x)) xs.reverse
        (hr.imp fun {a b} hab => by simp only [decide_eq_true_eq]; exact fun h => hab.trans_lt h) _ hk'
      rw [he] at this
      simp only [decide_eq_true_eq] at this
      rw [← not_lt, ← this]
      omega
    | false =>
      simp only [Bool.false_eq_true, if_false, searchRight]
      have := takeWhile_sorted (p := fun a => decide (a ≤ x)) xs.reverse
        (hr.imp fun {a b} hab => by simp only [decide_eq_true_eq]; exact fun h => hab.trans h) _ hk'
      rw [he] at this
      simp only [decide_eq_true_eq] at this
      rw [← not_le (a := xs[k]), ← this]
      omega

/-! ### C62 -/

/-- C62: one row per multi-index, in C order, holding one entry of each array. -/
theorem C62_cartesianProduct (arrays : List (List ℝ)) :
    (cartesianProduct arrays).length = (arrays.map List.length).prod ∧
    ∀ idx, inBox (arrays.map List.length) idx →
      (cartesianProduct arrays).getD (ravel (arrays.map List.length) idx) [] =
        List.zipWith (fun a i => a.getD i 0) arrays idx := by
  refine ⟨by simp [cartesianProduct, indices_length], fun idx h => ?_⟩
  have hl := inBox_length h
  unfold cartesianProduct
  rw [indices_eq, show (vmk (arrays.map List.length).prod (unravel (arrays.map List.length))).map _ =
    vmk (arrays.map List.length).prod (fun k => (vmk arrays.length fun i => (arrays.getD i []).getD
      ((unravel (arrays.map List.length) k).getD i 0) 0)) from by simp [vmk],
    vmk_getD_lt (ravel_lt h), unravel_ravel h]
  refine (eq_vmk 0 (by simpa using hl.ge) fun i hi => ?_).symm
  have hi' : i < idx.length := by rw [hl]; simpa using hi
  rw [getD_getElem _ (by simp; omega), List.getElem_zipWith, getD_getElem [] hi, getD_getElem 0 hi']

/-! ### C63 -/

/-- C63: `symm_2d_list_map(f, arr, D)` is the symmetric `D × D` array with `f(arr[i,j])` for `i ≤ j`. -/
theorem C63_symm2dListMap {α β : Type*} (f : α → β) (arr : ℕ → ℕ → α) (D : ℕ) (empty : ℕ → ℕ → β) :
    ∀ i j, i ≤ j → j < D → symm2dListMap f arr D empty i j = f (arr i j) ∧
      symm2dListMap f arr D empty j i = f (arr i j) := by
  intro i j hij hj
  have h1 := symm2dListMap_eq f arr D empty (p := i) (q := j) (by omega) hj
  have h2 := symm2dListMap_eq f arr D empty (p := j) (q := i) hj (by omega)
  rw [h1, h2]
  simp [hij]

/-- C63 (partial): on a C-contiguous array `map_entries` applies `f` to each entry and keeps the shape, empty
arrays included. Missing, because false: other memory layouts, see `C63_mapEntries_layout_unsound`. -/
theorem C63_mapEntries_partial (f : ℝ → ℝ) (a : NDArr ℝ) (hw : a.WF) :
    (mapEntriesLaid f ⟨a, List.range a.data.length⟩).shape = a.shape ∧
    (mapEntriesLaid f ⟨a, List.range a.data.length⟩).WF ∧
    ∀ idx, inBox a.shape idx → (mapEntriesLaid f ⟨a, List.range a.data.length⟩).get idx = f (a.get idx) := by
  unfold mapEntriesLaid
  by_cases h : a.data.length = 0
  · simp only [h, if_true]
    refine ⟨trivial, hw, fun idx hi => ?_⟩
    have := ravel_lt hi
    rw [← hw, h] at this; omega
  · simp only [h, if_false]
    refine ⟨trivial, by simpa [NDArr.WF] using hw, fun idx hi => ?_⟩
    have h1 : ravel a.shape idx < a.data.length := by rw [hw]; exact ravel_lt hi
    show (vmk a.data.length _).getD (ravel a.shape idx) 0 = _
    rw [vmk_getD_lt h1]; rfl

/-- the simpler C-order definition agrees with the layout-aware one -/
theorem mapEntries_eq (f : ℝ → ℝ) (a : NDArr ℝ) : mapEntries f a = mapEntriesLaid f ⟨a, List.range a.data.length⟩ := by
  unfold mapEntries mapEntriesLaid
  split
  · rfl
  · congr 1
    refine (eq_vmk 0 (by simp) fun i hi => ?_)
    rw [getD_getElem _ (by simpa using hi), getD_getElem _ hi, List.getElem_map]

/-- C63 is false for arrays that are not C-contiguous: `map_entries(lambda t: t, a)` for the 2×2 array
`a = np.array([[0,2],[1,3]]).T` (entries `[[0,1],[2,3]]`, laid out column first) is not `a`. -/
theorem C63_mapEntries_layout_unsound :
    ∃ a : LaidOut ℝ, a.arr.WF ∧ a.order.Perm (List.range a.arr.data.length) ∧ a.arr.shape = [2, 2] ∧
      mapEntriesLaid (fun t => t) a ≠ a.arr := by
  refine ⟨⟨⟨[2, 2], [0, 1, 2, 3]⟩, [0, 2, 1, 3]⟩, rfl, by decide, rfl, fun h => ?_⟩
  have := congrArg (fun r => NDArr.data r) h
  simp [mapEntriesLaid] at this

/-! ### instances -/

example : tesselate [1, 2, 3] [2, 0, 1] = .ok [[1, 2], [], [3]] := rfl
example : chunks [1, 2, 3, 4, 5] 2 = .ok [[1, 2], [3, 4], [5]] := rfl
example : beginEndIndices [2, 0, 3] = .ok ([0, 2, 2], [2, 2, 5]) := rfl
example : ∃ i, searchDescending 2 [3, 2, 2, 1] true = .ok i :=
  (C61_searchDescending 2 [3, 2, 2, 1] true).1.2 (by norm_num)
example : inBox ([[1, 2], [3, 4, 5]].map List.length) [1, 2] := by simp [inBox]

end Verif
