import Verif.Model.Toeplitz
import Verif.Proofs.FFT
import Verif.Proofs.Matrix2
import Verif.Proofs.NumpyUtil

namespace Verif

theorem cyclicExtend_length {x : List ℝ} (hx : x ≠ []) : (cyclicExtend x).length = x.length * 2 := by
  have : 0 < x.length := List.length_pos_iff.2 hx
  unfold cyclicExtend
  simp only
  have h1 : (setSlice (vmk (x.length * 2) fun _ => (0 : ℝ)) 0 x).length = x.length * 2 := by
    rw [setSlice_length (by simp; omega)]; simp
  rw [setSlice_length (by rw [h1]; simp; omega), h1]

theorem cyclicExtend_getD {x : List ℝ} (hx : x ≠ []) (i : ℕ) :
    (cyclicExtend x).getD i 0 = if i < x.length then x.getD i 0
      else if x.length < i ∧ i < x.length * 2 then x.getD (x.length * 2 - i) 0 else 0 := by
  have hp : 0 < x.length := List.length_pos_iff.2 hx
  unfold cyclicExtend
  simp only
  have h1 : (setSlice (vmk (x.length * 2) fun _ => (0 : ℝ)) 0 x).length = x.length * 2 := by
    rw [setSlice_length (by simp; omega)]; simp
  rw [setSlice_getD (by rw [h1]; simp; omega), setSlice_getD (by simp; omega)]
  simp only [List.length_reverse, List.length_tail]
  by_cases a : i < x.length
  · rw [if_neg (by omega), if_pos (by omega), if_pos a, Nat.sub_zero]
  · by_cases b : x.length < i ∧ i < x.length * 2
    · rw [if_pos (by omega), if_neg a, if_pos b]
      have h2 : i - (x.length + 1) < x.tail.reverse.length := by simp; omega
      rw [List.getD_eq_getElem?_getD, List.getElem?_reverse (by simpa using h2)]
      simp only [List.length_tail]
      rw [List.getElem?_tail, ← List.getD_eq_getElem?_getD]
      congr 1
      omega
    · rw [if_neg (by omega), if_neg (by omega), if_neg a, if_neg b, vmk_getD]
      split <;> rfl

/-- the FFT product is multiplication by the symmetric Toeplitz matrix -/
theorem toeplitzMatvec_eq {top x : List ℝ} (ht : top ≠ []) (hx : x.length = top.length) :
    toeplitzMatvec top x = vmk top.length fun i => ∑ j ∈ Finset.range top.length,
      top.getD (if j ≤ i then i - j else j - i) 0 * x.getD j 0 := by
  have hp : 0 < top.length := List.length_pos_iff.2 ht
  set n := top.length with hn
  unfold toeplitzMatvec
  simp only
  rw [cyclicExtend_length ht, hx, irfft_mul (by omega) (by omega)]
  refine eq_vmk 0 (by simp; omega) fun i hi => ?_
  rw [getD_take hi, vmk_getD_lt (by omega), Nat.mul_two, Finset.sum_range_add]
  have z : ∑ k ∈ Finset.range n, x.getD (n + k) 0 * (cyclicExtend top).getD ((i + (n + n) - (n + k)) % (n + n)) 0 = 0 :=
    Finset.sum_eq_zero fun k _ => by rw [getD_ge (l := x) (by omega), zero_mul]
  rw [z, add_zero]
  refine Finset.sum_congr rfl fun j hj => ?_
  have hj := Finset.mem_range.1 hj
  rw [mul_comm]
  congr 1
  rw [cyclicExtend_getD ht, ← hn]
  by_cases h : j ≤ i
  · have e : (i + (n + n) - j) % (n + n) = i - j := by
      rw [show i + (n + n) - j = (i - j) + (n + n) by omega, Nat.add_mod_right, Nat.mod_eq_of_lt (by omega)]
    rw [e, if_pos (by omega), if_pos h]
  · have e : (i + (n + n) - j) % (n + n) = i + (n + n) - j := Nat.mod_eq_of_lt (by omega)
    rw [e, if_neg (by omega), if_pos (by omega), if_neg h]
    congr 1
    omega

theorem toeplitz_ok {top : NDArr ℝ} {M : MatObj} (h : toeplitzNew top = .ok M) :
    top.shape = [M.rows] ∧ M.cols = M.rows ∧ top.data ≠ [] ∧ 0 < M.rows ∧
    M.matvec = toeplitzMatvec top.data ∧ M.matmat = defaultMatmat M.rows M.matvec ∧
    M.asNumpy = laToeplitz top.data ∧ M.upperEigBound = toeplitzUpperEigBound top.data := by
  simp only [toeplitzNew, bind_ok] at h
  obtain ⟨n, hn, h⟩ := h
  split at h
  · cases h
  · rename_i hs
    split at h
    · cases h
    · rename_i hd
      simp only [bind_ok, pure_ok] at h
      obtain ⟨_, h1, rfl⟩ := h
      exact ⟨by simpa using hs, rfl, by simpa using hd, (matrixInit_ok.1 h1).1, rfl, rfl, rfl, rfl⟩

theorem toeplitz_represents {top : NDArr ℝ} {M : MatObj} (hw : top.WF) (h : toeplitzNew top = .ok M) :
    M.rows = top.data.length ∧ M.cols = top.data.length ∧
      Represents M (fun i j => top.data.getD (if j ≤ i then i - j else j - i) 0) := by
  obtain ⟨h1, h2, h3, h4, h5, h6, h7, -⟩ := toeplitz_ok h
  have hl : top.data.length = M.rows := by simpa [NDArr.WF, h1] using hw
  refine ⟨hl.symm, by omega, Represents.ofDefault h4 (by omega) (fun x hx => ?_) h6 ?_⟩
  · rw [h5, h2, toeplitzMatvec_eq h3 (by omega), hl]
  · rw [h7, h2]; unfold laToeplitz; rw [hl]

end Verif
