import Verif.Model.Base
import Mathlib.Tactic.Ring
import Mathlib.Tactic.Linarith
import Mathlib.Algebra.BigOperators.Intervals
import Mathlib.Algebra.BigOperators.Ring.Finset

namespace Verif
variable {α β : Type*}

@[simp] theorem vmk_length (n : ℕ) (f : ℕ → α) : (vmk n f).length = n := by simp [vmk]

@[simp] theorem vmk_getElem (n : ℕ) (f : ℕ → α) (i : ℕ) (h : i < (vmk n f).length) :
    (vmk n f)[i] = f i := by simp [vmk]

theorem vmk_getD (n : ℕ) (f : ℕ → α) (i : ℕ) (d : α) :
    (vmk n f).getD i d = if i < n then f i else d := by
  by_cases h : i < n
  · simp [vmk, h]
  · simp [vmk, h]

theorem vmk_getD_lt {n : ℕ} {f : ℕ → α} {i : ℕ} {d : α} (h : i < n) :
    (vmk n f).getD i d = f i := by simp [h]

theorem vmk_congr {n : ℕ} {f g : ℕ → α} (h : ∀ i < n, f i = g i) : vmk n f = vmk n g := by
  unfold vmk
  exact List.map_congr_left fun i hi => h i (List.mem_range.1 hi)

theorem vmk_inj {n m : ℕ} {f g : ℕ → α} (h : vmk n f = vmk m g) : n = m ∧ ∀ i < n, f i = g i := by
  have h1 : n = m := by simpa using congrArg List.length h
  subst h1
  refine ⟨rfl, fun i hi => ?_⟩
  have := congrArg (fun l => l.getD i (f i)) h
  simpa [hi] using this

theorem list_ext_getD {l l' : List α} (d : α) (hl : l.length = l'.length)
    (h : ∀ i < l.length, l.getD i d = l'.getD i d) : l = l' := by
  refine List.ext_getElem hl fun i h1 h2 => ?_
  have := h i h1
  simpa [h1, h2] using this

theorem eq_vmk {l : List α} {n : ℕ} {f : ℕ → α} (d : α) (hl : l.length = n)
    (h : ∀ i < n, l.getD i d = f i) : l = vmk n f := by
  refine list_ext_getD d (by simp [hl]) fun i hi => ?_
  rw [h i (hl ▸ hi), vmk_getD_lt (hl ▸ hi)]

theorem vmk_self (l : List α) (d : α) : vmk l.length (fun i => l.getD i d) = l :=
  (eq_vmk d rfl fun _ _ => rfl).symm

theorem getD_ge {l : List α} {i : ℕ} {d : α} (h : l.length ≤ i) : l.getD i d = d := by
  simp [h]

theorem getD_append_left' {l l' : List α} {i : ℕ} {d : α} (h : i < l.length) :
    (l ++ l').getD i d = l.getD i d := by
  simp [List.getElem?_append_left h]

theorem getD_append_right' {l l' : List α} {i : ℕ} {d : α} (h : l.length ≤ i) :
    (l ++ l').getD i d = l'.getD (i - l.length) d := by
  simp [List.getElem?_append_right h]

theorem getD_drop {l : List α} {i k : ℕ} {d : α} : (l.drop k).getD i d = l.getD (k + i) d := by
  simp

theorem getD_take {l : List α} {i k : ℕ} {d : α} (h : i < k) : (l.take k).getD i d = l.getD i d := by
  simp [h]

theorem slice_length {x : List α} {b e : ℕ} (he : e ≤ x.length) : (slice x b e).length = e - b := by
  simp [slice]; omega

theorem slice_getD {x : List α} {b e i : ℕ} {d : α} (h : i < e - b) :
    (slice x b e).getD i d = x.getD (b + i) d := by
  simp [slice, h]

theorem setSlice_length {x : List α} {b : ℕ} {v : List α} (h : b + v.length ≤ x.length) :
    (setSlice x b v).length = x.length := by
  simp [setSlice]; omega

theorem setSlice_getD {x : List α} {b i : ℕ} {v : List α} {d : α} (h : b + v.length ≤ x.length) :
    (setSlice x b v).getD i d =
      if b ≤ i ∧ i < b + v.length then v.getD (i - b) d else x.getD i d := by
  have hb : (x.take b).length = b := by simp; omega
  unfold setSlice
  by_cases h1 : i < b
  · rw [if_neg (by omega), List.append_assoc, getD_append_left' (by omega), getD_take h1]
  · by_cases h2 : i < b + v.length
    · rw [if_pos ⟨by omega, h2⟩, getD_append_left' (by simp; omega), getD_append_right' (by omega), hb]
    · rw [if_neg (by omega), getD_append_right' (by simp; omega), getD_drop]
      congr 1
      simp; omega

@[simp] theorem vadd_length (x y : List ℝ) : (vadd x y).length = min x.length y.length := by
  simp [vadd]
@[simp] theorem vmul_length (x y : List ℝ) : (vmul x y).length = min x.length y.length := by
  simp [vmul]

theorem vadd_getD {x y : List ℝ} (h : x.length = y.length) (i : ℕ) :
    (vadd x y).getD i 0 = x.getD i 0 + y.getD i 0 := by
  by_cases hi : i < x.length
  · have hi' : i < y.length := h ▸ hi
    simp [vadd, hi, hi']
  · have hi' : ¬ i < y.length := h ▸ hi
    rw [getD_ge (by simp; omega), getD_ge (by omega), getD_ge (by omega)]; simp

theorem vmul_getD {x y : List ℝ} (h : x.length = y.length) (i : ℕ) :
    (vmul x y).getD i 0 = x.getD i 0 * y.getD i 0 := by
  by_cases hi : i < x.length
  · have hi' : i < y.length := h ▸ hi
    simp [vmul, hi, hi']
  · have hi' : ¬ i < y.length := h ▸ hi
    rw [getD_ge (by simp; omega), getD_ge (by omega), getD_ge (by omega)]; simp

theorem idx_lt {i j r c : ℕ} (hi : i < r) (hj : j < c) : i * c + j < r * c := by
  calc i * c + j < i * c + c := by omega
    _ = (i + 1) * c := by ring
    _ ≤ r * c := Nat.mul_le_mul_right _ hi

theorem idx_div {i j c : ℕ} (hj : j < c) : (i * c + j) / c = i := by
  rw [mul_comm, Nat.mul_add_div (by omega), Nat.div_eq_of_lt hj, add_zero]

theorem idx_mod {i j c : ℕ} (hj : j < c) : (i * c + j) % c = j := by
  rw [mul_comm, Nat.mul_add_mod, Nat.mod_eq_of_lt hj]

theorem idx_split {k r c : ℕ} (hk : k < r * c) : k / c < r ∧ k % c < c ∧ k / c * c + k % c = k := by
  have hc : 0 < c := by
    rcases Nat.eq_zero_or_pos c with h | h
    · simp [h] at hk
    · exact h
  exact ⟨Nat.div_lt_of_lt_mul (by rwa [mul_comm] at hk), Nat.mod_lt _ hc, Nat.div_add_mod' k c⟩

namespace Arr2

@[simp] theorem of_rows (r c : ℕ) (f : ℕ → ℕ → α) : (of r c f).rows = r := rfl
@[simp] theorem of_cols (r c : ℕ) (f : ℕ → ℕ → α) : (of r c f).cols = c := rfl
theorem of_wf (r c : ℕ) (f : ℕ → ℕ → α) : (of r c f).WF := by simp [WF, of]

theorem of_get [Zero α] {r c : ℕ} {f : ℕ → ℕ → α} {i j : ℕ} (hi : i < r) (hj : j < c) :
    (of r c f).get i j = f i j := by
  simp only [get, of]
  rw [vmk_getD_lt (idx_lt hi hj), idx_div hj, idx_mod hj]

theorem of_congr {r c : ℕ} {f g : ℕ → ℕ → α} (h : ∀ i < r, ∀ j < c, f i j = g i j) :
    of r c f = of r c g := by
  unfold of
  congr 1
  refine vmk_congr fun k hk => ?_
  obtain ⟨h1, h2, -⟩ := idx_split hk
  exact h _ h1 _ h2

theorem eq_of [Zero α] {A : Arr2 α} (hA : A.WF) {f : ℕ → ℕ → α}
    (h : ∀ i < A.rows, ∀ j < A.cols, A.get i j = f i j) : A = of A.rows A.cols f := by
  obtain ⟨r, c, d⟩ := A
  simp only [of, Arr2.mk.injEq, true_and]
  refine eq_vmk 0 hA fun k hk => ?_
  obtain ⟨h1, h2, h3⟩ := idx_split hk
  have := h _ h1 _ h2
  rw [← this]
  simp [get, h3]

theorem ext' [Zero α] {A B : Arr2 α} (hA : A.WF) (hB : B.WF) (hr : A.rows = B.rows)
    (hc : A.cols = B.cols) (h : ∀ i < A.rows, ∀ j < A.cols, A.get i j = B.get i j) : A = B := by
  have h1 := eq_of hA h
  rw [hr, hc, ← eq_of hB (fun i _ j _ => rfl)] at h1
  exact h1

theorem of_self [Zero α] {A : Arr2 α} (hA : A.WF) : of A.rows A.cols A.get = A :=
  (eq_of hA fun _ _ _ _ => rfl).symm

theorem of_inj [Zero α] {r c r' c' : ℕ} {f g : ℕ → ℕ → α} (h : of r c f = of r' c' g) :
    r = r' ∧ c = c' ∧ ∀ i < r, ∀ j < c, f i j = g i j := by
  have h1 : r = r' := congrArg Arr2.rows h
  have h2 : c = c' := congrArg Arr2.cols h
  subst h1; subst h2
  refine ⟨rfl, rfl, fun i hi j hj => ?_⟩
  have := congrArg (fun A => A.get i j) h
  simpa [of_get hi hj] using this

@[simp] theorem T_rows [Zero α] (A : Arr2 α) : A.T.rows = A.cols := rfl
@[simp] theorem T_cols [Zero α] (A : Arr2 α) : A.T.cols = A.rows := rfl
theorem T_wf [Zero α] (A : Arr2 α) : A.T.WF := of_wf _ _ _
theorem T_get [Zero α] {A : Arr2 α} {i j : ℕ} (hi : i < A.cols) (hj : j < A.rows) :
    A.T.get i j = A.get j i := of_get hi hj

@[simp] theorem col_length [Zero α] (A : Arr2 α) (j : ℕ) : (A.col j).length = A.rows := by simp [col]
@[simp] theorem row_length [Zero α] (A : Arr2 α) (j : ℕ) : (A.row j).length = A.cols := by simp [row]
theorem col_getD [Zero α] {A : Arr2 α} {i j : ℕ} (hi : i < A.rows) : (A.col j).getD i 0 = A.get i j := by
  simp only [col]; rw [vmk_getD_lt hi]
theorem row_getD [Zero α] {A : Arr2 α} {i j : ℕ} (hj : j < A.cols) : (A.row i).getD j 0 = A.get i j := by
  simp only [row]; rw [vmk_getD_lt hj]

@[simp] theorem dotv_length (A : Arr2 ℝ) (x : List ℝ) : (A.dotv x).length = A.rows := by simp [dotv]

end Arr2

/-- A sum over `r * c` flat indices is a double sum. -/
theorem sum_range_mul {M : Type*} [AddCommMonoid M] (r c : ℕ) (f : ℕ → M) :
    ∑ k ∈ Finset.range (r * c), f k = ∑ i ∈ Finset.range r, ∑ j ∈ Finset.range c, f (i * c + j) := by
  induction r with
  | zero => simp
  | succ r ih => rw [Nat.succ_mul, Finset.sum_range_add, ih, Finset.sum_range_succ]

end Verif
