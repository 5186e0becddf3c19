import Verif.Model.TestingUtils
import Verif.Proofs.EigBound
import Verif.Spec.TestingUtils
import Mathlib.Analysis.Matrix.Spectrum

namespace Verif
open Matrix

/-! ### the smallest eigenvalue -/

theorem quad_neg (n : ℕ) (A : ℕ → ℕ → ℝ) (x : ℕ → ℝ) : quad n (fun i j => -A i j) x = -quad n A x := by
  unfold quad
  rw [← Finset.sum_neg_distrib]
  refine Finset.sum_congr rfl fun i _ => ?_
  rw [← Finset.sum_neg_distrib]
  exact Finset.sum_congr rfl fun j _ => by ring

theorem quad_diag (n : ℕ) (d : ℕ → ℝ) (x : ℕ → ℝ) : quad n (fun i j => if i = j then d i else 0) x = ∑ i ∈ Finset.range n, d i * (x i * x i) := by
  unfold quad
  refine Finset.sum_congr rfl fun i hi => ?_
  rw [Finset.sum_eq_single_of_mem i hi]
  · simp only [if_true]; ring
  · intro j _ hj
    simp only [if_neg (Ne.symm hj)]; ring

/-- the set of eigenvalues, with vectors given as functions of the index -/
def eigSet (n : ℕ) (A : ℕ → ℕ → ℝ) : Set ℝ :=
  {μ | ∃ v : ℕ → ℝ, (∃ i < n, v i ≠ 0) ∧ ∀ i < n, ∑ j ∈ Finset.range n, A i j * v j = μ * v i}

theorem mem_eigSet {n : ℕ} {A : ℕ → ℕ → ℝ} {μ : ℝ} : μ ∈ eigSet n A ↔ ∃ v : Fin n → ℝ, v ≠ 0 ∧ fnMatrix n n A *ᵥ v = μ • v := by
  constructor
  · rintro ⟨v, ⟨i, hi, h0⟩, h⟩
    refine ⟨fun j => v j, fun hz => h0 (congrFun hz ⟨i, hi⟩), ?_⟩
    funext j
    have := h j j.2
    rw [Finset.sum_range] at this
    simpa [mulVec, dotProduct, fnMatrix] using this
  · rintro ⟨v, h0, h⟩
    refine ⟨extV v, ?_, fun i hi => ?_⟩
    · by_contra hc
      push Not at hc
      exact h0 (by funext i; have := hc i i.2; rwa [extV, dif_pos i.2] at this)
    · have := congrFun h ⟨i, hi⟩
      rw [Finset.sum_range]
      simpa [mulVec, dotProduct, fnMatrix, extV, hi] using this

theorem least_eig {n : ℕ} (hn : 0 < n) {A : ℕ → ℕ → ℝ} (hs : Sym n A) : ∃ s, IsLeast (eigSet n A) s ∧ ∀ x, s * nrm n x ≤ quad n A x := by
  have hA := fnMatrix_isHermitian.2 hs
  have : Nonempty (Fin n) := ⟨⟨0, hn⟩⟩
  obtain ⟨i0, hi0⟩ := Finite.exists_min hA.eigenvalues
  have hlow : ∀ μ ∈ eigSet n A, hA.eigenvalues i0 ≤ μ := by
    intro μ hμ
    obtain ⟨v, h0, h⟩ := mem_eigSet.1 hμ
    have hev : Module.End.HasEigenvalue (Matrix.toLin' (fnMatrix n n A)) μ :=
      Module.End.hasEigenvalue_of_hasEigenvector (x := v)
        (Module.End.hasEigenvector_iff.2 ⟨Module.End.mem_eigenspace_iff.2 (by rw [toLin'_apply]; exact h), h0⟩)
    have hsp := hev.mem_spectrum
    rw [Matrix.spectrum_toLin', hA.spectrum_real_eq_range_eigenvalues] at hsp
    obtain ⟨i, rfl⟩ := hsp
    exact hi0 i
  refine ⟨hA.eigenvalues i0, ⟨?_, hlow⟩, fun x => ?_⟩
  · refine mem_eigSet.2 ⟨(hA.eigenvectorBasis i0).ofLp, fun hz => ?_, hA.mulVec_eigenvectorBasis i0⟩
    exact hA.eigenvectorBasis.orthonormal.ne_zero i0 (by ext j; exact congrFun hz j)
  · have hs' : Sym n fun i j => -A i j := fun i hi j hj => by simp only [hs i hi j hj]
    have : QLE n (fun i j => -A i j) (-hA.eigenvalues i0) := by
      rw [← eigLE_iff_qle hs']
      intro μ v hv h
      have hm : -μ ∈ eigSet n A := mem_eigSet.2 ⟨v, hv, by
        have e : fnMatrix n n (fun i j => -A i j) = -fnMatrix n n A := rfl
        rw [e, neg_mulVec] at h
        rw [neg_smul, ← h, neg_neg]⟩
      have := hlow _ hm
      linarith
    have h2 := this x
    rw [quad_neg] at h2
    linarith

/-- entries of the Toeplitz matrix of a top row -/
def tpf (top : List ℝ) (i j : ℕ) : ℝ := top.getD (absDiff i j) 0

theorem tpf_sym (top : List ℝ) (n : ℕ) : Sym n (tpf top) := fun i _ j _ => by unfold tpf; rw [absDiff_comm]

theorem laToeplitz_tpf (top : List ℝ) {i j : ℕ} (hi : i < top.length) (hj : j < top.length) : (laToeplitz top).get i j = tpf top i j :=
  Arr2.of_get hi hj

theorem toepMat_eq (top : List ℝ) : toepMat top = fnMatrix top.length top.length (tpf top) := by
  funext i j
  unfold toepMat fnMatrix tpf absDiff
  congr 1
  split_ifs <;> omega

theorem smallestEig_ok {top : List ℝ} (h : top ≠ []) : ∃ s, smallestEig top = .ok s ∧ IsLeast (eigSet top.length (tpf top)) s ∧
    ∀ x, s * nrm top.length x ≤ quad top.length (tpf top) x := by
  have hn : 0 < top.length := List.length_pos_iff.2 h
  obtain ⟨s, h1, h2⟩ := least_eig hn (tpf_sym top _)
  refine ⟨s, ?_, h1, h2⟩
  unfold smallestEig
  by_cases hone : top.length = 1
  · rw [if_pos hone]
    obtain ⟨v, ⟨i, hi, h0⟩, hv⟩ := h1.1
    have h0' : i = 0 := by omega
    subst h0'
    have := hv 0 hi
    rw [hone] at this
    simp only [Finset.range_one, Finset.sum_singleton] at this
    have e : tpf top 0 0 = s := mul_right_cancel₀ h0 this
    rw [← e]; rfl
  · rw [if_neg hone, if_neg (by omega)]
    congr 1
    have e : {μ : ℝ | ∃ v : ℕ → ℝ, (∃ i < top.length, v i ≠ 0) ∧
        ∀ i < top.length, ∑ j ∈ Finset.range top.length, (laToeplitz top).get i j * v j = μ * v i} = eigSet top.length (tpf top) := by
      ext μ
      refine exists_congr fun v => and_congr_right fun _ => forall_congr' fun i => imp_congr_right fun hi => ?_
      rw [Finset.sum_congr rfl fun j hj => by rw [laToeplitz_tpf top hi (Finset.mem_range.1 hj)]]
    rw [e]
    exact h1.csInf_eq

theorem smallestEig_nonneg {top : List ℝ} {s : ℝ} (h : smallestEig top = .ok s) : ¬ s < 0 ↔ ∀ x, 0 ≤ quad top.length (tpf top) x := by
  have hne : top ≠ [] := by rintro rfl; simp [smallestEig] at h
  obtain ⟨s', h1, h2, h3⟩ := smallestEig_ok hne
  rw [h] at h1
  cases h1
  constructor
  · intro hs x
    exact le_trans (mul_nonneg (not_lt.1 hs) (nrm_nonneg _ x)) (h3 x)
  · intro hq hs
    obtain ⟨v, ⟨i, hi, h0⟩, hv⟩ := h2.1
    have e : quad top.length (tpf top) v = s * nrm top.length v := by
      unfold quad nrm
      rw [Finset.mul_sum]
      refine Finset.sum_congr rfl fun i hi => ?_
      have := hv i (Finset.mem_range.1 hi)
      rw [show ∑ j ∈ Finset.range top.length, v i * tpf top i j * v j = v i * ∑ j ∈ Finset.range top.length, tpf top i j * v j by
        rw [Finset.mul_sum]; exact Finset.sum_congr rfl fun j _ => by ring]
      rw [this]; ring
    have hp : 0 < nrm top.length v := Finset.sum_pos' (fun _ _ => mul_self_nonneg _) ⟨i, Finset.mem_range.2 hi, mul_self_pos.2 h0⟩
    have := hq v
    rw [e] at this
    nlinarith

/-! ### the loop -/

theorem eigLoop_unique {body : List ℝ → List ℝ} {top : List ℝ} {r : Except PyErr (List ℝ)} (h : EigLoop body top r) :
    ∀ {r'}, EigLoop body top r' → r' = r := by
  induction h with
  | fail h => intro r' h'; cases h' with
    | fail h2 => rw [h] at h2; cases h2; rfl
    | stop h2 _ => rw [h] at h2; cases h2
    | step h2 _ _ => rw [h] at h2; cases h2
  | stop h hs => intro r' h'; cases h' with
    | fail h2 => rw [h] at h2; cases h2
    | stop h2 _ => rfl
    | step h2 h3 _ => rw [h] at h2; cases h2; exact absurd h3 hs
  | step h hs _ ih => intro r' h'; cases h' with
    | fail h2 => rw [h] at h2; cases h2
    | stop h2 h3 => rw [h] at h2; cases h2; exact absurd hs h3
    | step _ _ h4 => exact ih h4

/-- a top row whose first entry is at least twice the sum of the others gives a positive semi-definite matrix -/
theorem dominant_psd {top : List ℝ} (h : 2 * ∑ k ∈ Finset.range (top.length - 1), |top.getD (k + 1) 0| ≤ top.getD 0 0) (x : ℕ → ℝ) :
    0 ≤ quad top.length (tpf top) x := by
  set n := top.length with hn
  set B : ℕ → ℕ → ℝ := fun i j => if i = j then 0 else tpf top i j with hB
  have e : ∀ i < n, ∀ j < n, tpf top i j = (if i = j then top.getD 0 0 else 0) + B i j := by
    intro i _ j _
    rw [hB]
    by_cases hij : i = j
    · subst hij; simp [tpf, absDiff]
    · simp [hij]
  have hsymB : Sym n fun i j => -B i j := by
    intro i hi j hj
    simp only [hB, eq_comm (a := i) (b := j), tpf_sym top n i hi j hj]
  have hq : QLE n (fun i j => -B i j) (top.getD 0 0) := by
    rw [← eigLE_iff_qle hsymB]
    refine (eigAbsLE_of_rows fun i => le_trans ?_ h).le
    have e1 : ∑ j, |fnMatrix n n (fun i j => -B i j) i j| = ∑ j ∈ Finset.range n, |B i j| := by
      rw [Finset.sum_range]
      exact Finset.sum_congr rfl fun j _ => abs_neg _
    rw [e1]
    have hi := i.2
    have e3 : ∑ j ∈ Finset.range n, |B i j| = ∑ j ∈ Finset.range (i : ℕ), |B i j| + (∑ k ∈ Finset.range 1, |B i (i + k)| +
        ∑ k ∈ Finset.range (n - 1 - i), |B i (i + (1 + k))|) := by
      rw [← Finset.sum_range_add (fun k => |B i (i + k)|), ← Finset.sum_range_add (fun k => |B i k|)]
      congr 2; omega
    rw [e3]
    have h1 : ∑ j ∈ Finset.range (i : ℕ), |B i j| ≤ ∑ k ∈ Finset.range (n - 1), |top.getD (k + 1) 0| := by
      rw [← Finset.sum_range_reflect]
      refine le_trans (le_of_eq (Finset.sum_congr rfl fun k hk => ?_))
        (Finset.sum_le_sum_of_subset_of_nonneg (Finset.range_subset_range.2 (show (i : ℕ) ≤ n - 1 by omega)) fun _ _ _ => abs_nonneg _)
      have hk' := Finset.mem_range.1 hk
      rw [hB]
      simp only
      rw [if_neg (by omega)]
      unfold tpf absDiff
      rw [if_pos (by omega)]
      congr 2; omega
    have h2 : ∑ k ∈ Finset.range (n - 1 - i), |B i (i + (1 + k))| ≤ ∑ k ∈ Finset.range (n - 1), |top.getD (k + 1) 0| := by
      refine le_trans (le_of_eq (Finset.sum_congr rfl fun k hk => ?_))
        (Finset.sum_le_sum_of_subset_of_nonneg (Finset.range_subset_range.2 (show n - 1 - (i : ℕ) ≤ n - 1 by omega)) fun _ _ _ => abs_nonneg _)
      rw [hB]
      simp only
      rw [if_neg (by omega)]
      unfold tpf absDiff
      rw [if_neg (by omega)]
      congr 2; omega
    have h3 : ∑ k ∈ Finset.range 1, |B i (i + k)| = 0 := by simp [hB]
    rw [h3]
    linarith
  rw [quad_congr e, quad_add, quad_diag, ← Finset.mul_sum]
  have := hq x
  rw [quad_neg] at this
  have e2 : ∑ i ∈ Finset.range n, x i * x i = nrm n x := rfl
  rw [e2]
  linarith

/-- The loop of `random_toep` ends: its result is the input with a natural number added to the first entry. -/
theorem eigLoop_add (top : List ℝ) (h : top ≠ []) : ∃ k : ℕ, EigLoop (fun top => top.set 0 (top.getD 0 0 + 1)) top (.ok (top.set 0 (top.getD 0 0 + k))) := by
  have key : ∀ (N : ℕ) (top : List ℝ), top ≠ [] → 2 * ∑ k ∈ Finset.range (top.length - 1), |top.getD (k + 1) 0| ≤ top.getD 0 0 + N →
      ∃ k : ℕ, EigLoop (fun top => top.set 0 (top.getD 0 0 + 1)) top (.ok (top.set 0 (top.getD 0 0 + k))) := by
    intro N
    induction N with
    | zero =>
      intro top h hd
      obtain ⟨s, hs, -⟩ := smallestEig_ok h
      refine ⟨0, ?_⟩
      have e : top.set 0 (top.getD 0 0 + (0 : ℕ)) = top := by
        cases top with
        | nil => exact absurd rfl h
        | cons a l => simp
      rw [e]
      exact .stop hs ((smallestEig_nonneg hs).2 (dominant_psd (by simpa using hd)))
    | succ N ih =>
      intro top h hd
      obtain ⟨s, hs, -⟩ := smallestEig_ok h
      by_cases hneg : s < 0
      · cases top with
        | nil => exact absurd rfl h
        | cons a l =>
          obtain ⟨k, hk⟩ := ih ((a :: l).set 0 ((a :: l).getD 0 0 + 1)) (by simp) (by
            simp only [List.set_cons_zero, List.getD_cons_zero, List.getD_cons_succ, List.length_cons, Nat.add_sub_cancel] at hd ⊢
            push_cast at hd; linarith)
          refine ⟨k + 1, .step hs hneg ?_⟩
          simp only [List.set_cons_zero, List.getD_cons_zero] at hk ⊢
          rw [show a + ((k + 1 : ℕ) : ℝ) = a + 1 + k by push_cast; ring]
          exact hk
      · refine ⟨0, ?_⟩
        have e : top.set 0 (top.getD 0 0 + (0 : ℕ)) = top := by
          cases top with
          | nil => exact absurd rfl h
          | cons a l => simp
        rw [e]
        exact .stop hs hneg
  obtain ⟨N, hN⟩ := exists_nat_ge (2 * ∑ k ∈ Finset.range (top.length - 1), |top.getD (k + 1) 0| - top.getD 0 0)
  exact key N top h (by linarith)

theorem eigLoop_psd {body : List ℝ → List ℝ} {top : List ℝ} {r : Except PyErr (List ℝ)} (h : EigLoop body top r) :
    ∀ t, r = .ok t → (toepMat t).PosSemidef := by
  induction h with
  | fail h => intro t ht; cases ht
  | stop h hs =>
    intro t ht
    cases ht
    rw [toepMat_eq]
    exact psd_iff_quad.2 ⟨tpf_sym _ _, (smallestEig_nonneg h).1 hs⟩
  | step _ _ _ ih => exact ih

/-! ### sums of squares -/

theorem quad_squares (n L : ℕ) (w : ℕ → ℝ) (a : ℕ → ℕ → ℝ) (x : ℕ → ℝ) :
    quad n (fun i j => ∑ k ∈ Finset.range L, w k * (a k i * a k j)) x = ∑ k ∈ Finset.range L, w k * (∑ i ∈ Finset.range n, a k i * x i) ^ 2 := by
  unfold quad
  have : ∀ k, w k * (∑ i ∈ Finset.range n, a k i * x i) ^ 2 = ∑ i ∈ Finset.range n, ∑ j ∈ Finset.range n, x i * (w k * (a k i * a k j)) * x j := by
    intro k
    rw [sq, Finset.sum_mul_sum, Finset.mul_sum]
    refine Finset.sum_congr rfl fun i _ => ?_
    rw [Finset.mul_sum]
    exact Finset.sum_congr rfl fun j _ => by ring
  symm
  rw [Finset.sum_congr rfl fun k _ => this k, Finset.sum_comm]
  refine Finset.sum_congr rfl fun i _ => ?_
  rw [Finset.sum_comm]
  refine Finset.sum_congr rfl fun j _ => ?_
  rw [Finset.mul_sum, Finset.sum_mul]

/-- the number of `k < L` with `m ≤ k` -/
theorem count_ge (L m : ℕ) (h : m ≤ L) : ∑ k ∈ Finset.range L, (if m ≤ k then (1 : ℝ) else 0) = L - m := by
  induction L with
  | zero => have : m = 0 := by omega
            subst this; simp
  | succ L ih =>
    rw [Finset.sum_range_succ]
    rcases Nat.lt_or_ge L m with h1 | h1
    · have : m = L + 1 := by omega
      subst this
      rw [if_neg (by omega), Finset.sum_eq_zero fun k hk => if_neg (by have := Finset.mem_range.1 hk; omega)]
      push_cast; ring
    · rw [ih h1, if_pos h1]; push_cast; ring

theorem count_lt (L m : ℕ) (h : m ≤ L) : ∑ k ∈ Finset.range L, (if k + 1 ≤ m then (1 : ℝ) else 0) = m := by
  have h1 : ∀ k, (if k + 1 ≤ m then (1 : ℝ) else 0) = 1 - if m ≤ k then (1 : ℝ) else 0 := by
    intro k
    by_cases hk : m ≤ k
    · rw [if_neg (by omega), if_pos hk]; ring
    · rw [if_pos (by omega), if_neg hk]; ring
  rw [Finset.sum_congr rfl fun k _ => h1 k, Finset.sum_sub_distrib, count_ge L m h]
  simp

/-- the linear top row as a sum of windows -/
theorem linear_windows (L i j : ℕ) (hi : i < L + 1) (hj : j < L + 1) : (L : ℝ) - absDiff i j =
    ∑ k ∈ Finset.range L, 1 * ((if i ≤ k then (1 : ℝ) else 0) * if j ≤ k then (1 : ℝ) else 0) +
    ∑ k ∈ Finset.range L, 1 * ((if k + 1 ≤ i then (1 : ℝ) else 0) * if k + 1 ≤ j then (1 : ℝ) else 0) := by
  have e1 : ∀ k, 1 * ((if i ≤ k then (1 : ℝ) else 0) * if j ≤ k then (1 : ℝ) else 0) = if max i j ≤ k then 1 else 0 := by
    intro k
    by_cases h1 : i ≤ k <;> by_cases h2 : j ≤ k <;> simp [h1, h2]
  have e2 : ∀ k, 1 * ((if k + 1 ≤ i then (1 : ℝ) else 0) * if k + 1 ≤ j then (1 : ℝ) else 0) = if k + 1 ≤ min i j then 1 else 0 := by
    intro k
    by_cases h1 : k + 1 ≤ i <;> by_cases h2 : k + 1 ≤ j <;> simp only [h1, h2, le_min_iff, if_true, if_false, and_true, and_false] <;> norm_num
  rw [Finset.sum_congr rfl fun k _ => e1 k, Finset.sum_congr rfl fun k _ => e2 k, count_ge L _ (by omega), count_lt L _ (by omega)]
  unfold absDiff
  rcases le_total j i with h | h
  · rw [if_pos h, max_eq_left h, min_eq_right h, Nat.cast_sub h]; ring
  · rcases h.lt_or_eq with h' | h'
    · rw [if_neg (by omega), max_eq_right h, min_eq_left h, Nat.cast_sub h]; ring
    · subst h'; simp

theorem quad_linear (L : ℕ) (x : ℕ → ℝ) : quad (L + 1) (fun i j => (L : ℝ) - absDiff i j) x =
    ∑ k ∈ Finset.range L, (∑ i ∈ Finset.range (L + 1), (if i ≤ k then (1 : ℝ) else 0) * x i) ^ 2 +
    ∑ k ∈ Finset.range L, (∑ i ∈ Finset.range (L + 1), (if k + 1 ≤ i then (1 : ℝ) else 0) * x i) ^ 2 := by
  have h1 := quad_squares (L + 1) L (fun _ => 1) (fun k i => if i ≤ k then (1 : ℝ) else 0) x
  have h2 := quad_squares (L + 1) L (fun _ => 1) (fun k i => if k + 1 ≤ i then (1 : ℝ) else 0) x
  simp only [one_mul] at h1 h2
  rw [← h1, ← h2, ← quad_add]
  exact quad_congr (fun i hi j hj => by simpa only [one_mul] using linear_windows L i j hi hj) x

theorem prefix_bound (x : ℕ → ℝ) (m : ℕ) : ∑ i ∈ Finset.range m, x i ^ 2 + 2 * (∑ i ∈ Finset.range m, x i) ^ 2 ≤
    4 * ∑ k ∈ Finset.range m, (∑ i ∈ Finset.range (k + 1), x i) ^ 2 := by
  induction m with
  | zero => simp
  | succ m ih =>
    rw [Finset.sum_range_succ (fun k => (∑ i ∈ Finset.range (k + 1), x i) ^ 2), Finset.sum_range_succ (fun i => x i ^ 2), Finset.sum_range_succ x]
    nlinarith [sq_nonneg (∑ i ∈ Finset.range m, x i + (∑ i ∈ Finset.range m, x i + x m))]

theorem quad_linear_ge (L : ℕ) (hL : 1 ≤ L) (x : ℕ → ℝ) : nrm (L + 1) x ≤ 4 * quad (L + 1) (fun i j => (L : ℝ) - absDiff i j) x := by
  rw [quad_linear]
  have e1 : ∀ k ∈ Finset.range L, ∑ i ∈ Finset.range (L + 1), (if i ≤ k then (1 : ℝ) else 0) * x i = ∑ i ∈ Finset.range (k + 1), x i := by
    intro k hk
    have hk' := Finset.mem_range.1 hk
    rw [show L + 1 = (k + 1) + (L - k) by omega, Finset.sum_range_add]
    rw [Finset.sum_congr rfl fun i hi => by rw [if_pos (by have := Finset.mem_range.1 hi; omega), one_mul],
      Finset.sum_eq_zero (s := Finset.range (L - k)) fun i _ => by rw [if_neg (by omega), zero_mul], add_zero]
  rw [Finset.sum_congr rfl fun k hk => by rw [e1 k hk]]
  have e2 : x L ^ 2 ≤ ∑ k ∈ Finset.range L, (∑ i ∈ Finset.range (L + 1), (if k + 1 ≤ i then (1 : ℝ) else 0) * x i) ^ 2 := by
    refine le_trans (le_of_eq ?_) (Finset.single_le_sum (f := fun k => (∑ i ∈ Finset.range (L + 1), (if k + 1 ≤ i then (1 : ℝ) else 0) * x i) ^ 2)
      (fun _ _ => sq_nonneg _) (Finset.mem_range.2 (show L - 1 < L by omega)))
    rw [Finset.sum_range_succ, Finset.sum_eq_zero fun i hi => by rw [if_neg (by have := Finset.mem_range.1 hi; omega), zero_mul], if_pos (by omega)]
    ring
  have e3 := prefix_bound x L
  have e4 : nrm (L + 1) x = ∑ i ∈ Finset.range L, x i ^ 2 + x L ^ 2 := by
    unfold nrm
    rw [Finset.sum_range_succ]
    simp only [sq]
  rw [e4]
  nlinarith [sq_nonneg (∑ i ∈ Finset.range L, x i), sq_nonneg (x L)]

theorem pd_of_quad {n : ℕ} {A : ℕ → ℕ → ℝ} (h1 : Sym n A) (h2 : ∀ x : ℕ → ℝ, (∃ i < n, x i ≠ 0) → 0 < quad n A x) : (fnMatrix n n A).PosDef := by
  refine PosDef.of_dotProduct_mulVec_pos (fnMatrix_isHermitian.2 h1) fun v hv => ?_
  have := h2 (extV v) (by
    by_contra hc
    push Not at hc
    exact hv (by funext i; have := hc i i.2; rwa [extV, dif_pos i.2] at this))
  rw [quad_eq, extV_eq] at this
  simpa using this

theorem nrm_pos {n : ℕ} {x : ℕ → ℝ} (h : ∃ i < n, x i ≠ 0) : 0 < nrm n x := by
  obtain ⟨i, hi, h0⟩ := h
  exact Finset.sum_pos' (fun _ _ => mul_self_nonneg _) ⟨i, Finset.mem_range.2 hi, mul_self_pos.2 h0⟩

/-- eigenvalues of a matrix are bounded by its quadratic form -/
theorem eig_of_quad {n : ℕ} {A : ℕ → ℕ → ℝ} {μ : ℝ} {v : Fin n → ℝ} (hv : v ≠ 0) (h : fnMatrix n n A *ᵥ v = μ • v) :
    quad n A (extV v) = μ * nrm n (extV v) ∧ 0 < nrm n (extV v) := by
  constructor
  · rw [quad_eq, extV_eq, h, nrm_eq, extV_eq, dotProduct_smul, smul_eq_mul]
  · refine nrm_pos ?_
    by_contra hc
    push Not at hc
    exact hv (by funext i; have := hc i i.2; rwa [extV, dif_pos i.2] at this)

/-! ### exponential decay -/

theorem exp_windows (u : ℝ) (i j n : ℕ) (hi : i < n) (hj : j < n) : Real.exp (-u * absDiff i j) =
    ∑ k ∈ Finset.range n, (if k = 0 then 1 else Real.exp (2 * u * k) - Real.exp (2 * u * (k - 1 : ℕ))) *
      ((if k ≤ i then Real.exp (-u * i) else 0) * if k ≤ j then Real.exp (-u * j) else 0) := by
  have tele : ∀ m, ∑ k ∈ Finset.range (m + 1), (if k = 0 then (1 : ℝ) else Real.exp (2 * u * k) - Real.exp (2 * u * (k - 1 : ℕ))) = Real.exp (2 * u * m) := by
    intro m
    induction m with
    | zero => simp
    | succ m ih =>
      rw [Finset.sum_range_succ, ih, if_neg (by omega)]
      simp
  have hsplit : n = (min i j + 1) + (n - 1 - min i j) := by omega
  rw [hsplit, Finset.sum_range_add]
  rw [Finset.sum_eq_zero (s := Finset.range (n - 1 - min i j)) fun k _ => by
    rcases le_total i j with h | h
    · rw [if_neg (show ¬ min i j + 1 + k ≤ i by omega)]; ring
    · rw [if_neg (show ¬ min i j + 1 + k ≤ j by omega)]; ring]
  rw [add_zero, Finset.sum_congr rfl fun k hk => by
    rw [if_pos (show k ≤ i by have := Finset.mem_range.1 hk; omega), if_pos (show k ≤ j by have := Finset.mem_range.1 hk; omega)]]
  rw [← Finset.sum_mul, tele, ← Real.exp_add, ← Real.exp_add]
  congr 1
  unfold absDiff
  rcases le_total j i with h | h
  · rw [if_pos h, min_eq_right h, Nat.cast_sub h]; ring
  · rcases h.lt_or_eq with h' | h'
    · rw [if_neg (by omega), min_eq_left h, Nat.cast_sub h]; ring
    · subst h'; simp; ring

theorem quad_exp (u : ℝ) (n : ℕ) (x : ℕ → ℝ) : quad n (fun i j => Real.exp (-u * absDiff i j)) x =
    ∑ k ∈ Finset.range n, (if k = 0 then 1 else Real.exp (2 * u * k) - Real.exp (2 * u * (k - 1 : ℕ))) *
      (∑ i ∈ Finset.range n, (if k ≤ i then Real.exp (-u * i) else 0) * x i) ^ 2 := by
  rw [← quad_squares]
  exact quad_congr (fun i hi j hj => exp_windows u i j n hi hj) x

theorem exp_weight_pos {u : ℝ} (hu : 0 < u) (k : ℕ) : 0 < if k = 0 then (1 : ℝ) else Real.exp (2 * u * k) - Real.exp (2 * u * (k - 1 : ℕ)) := by
  split_ifs with h
  · norm_num
  · rw [sub_pos, Real.exp_lt_exp]
    have : ((k - 1 : ℕ) : ℝ) < k := by exact_mod_cast (show k - 1 < k by omega)
    nlinarith

theorem exp_weight_nonneg {u : ℝ} (hu : 0 ≤ u) (k : ℕ) : 0 ≤ if k = 0 then (1 : ℝ) else Real.exp (2 * u * k) - Real.exp (2 * u * (k - 1 : ℕ)) := by
  split_ifs with h
  · norm_num
  · rw [sub_nonneg, Real.exp_le_exp]
    have : ((k - 1 : ℕ) : ℝ) ≤ k := by exact_mod_cast (show k - 1 ≤ k by omega)
    nlinarith

theorem quad_exp_pos {u : ℝ} (hu : 0 < u) (n : ℕ) (x : ℕ → ℝ) (h : ∃ i < n, x i ≠ 0) : 0 < quad n (fun i j => Real.exp (-u * absDiff i j)) x := by
  rw [quad_exp]
  by_contra hc
  have h0 : ∑ k ∈ Finset.range n, (if k = 0 then 1 else Real.exp (2 * u * k) - Real.exp (2 * u * (k - 1 : ℕ))) *
      (∑ i ∈ Finset.range n, (if k ≤ i then Real.exp (-u * i) else 0) * x i) ^ 2 = 0 :=
    le_antisymm (not_lt.1 hc) (Finset.sum_nonneg fun k _ => mul_nonneg (exp_weight_pos hu k).le (sq_nonneg _))
  rw [Finset.sum_eq_zero_iff_of_nonneg fun k _ => mul_nonneg (exp_weight_pos hu k).le (sq_nonneg _)] at h0
  have hz : ∀ k < n, ∑ i ∈ Finset.range n, (if k ≤ i then Real.exp (-u * i) else 0) * x i = 0 := by
    intro k hk
    have := h0 k (Finset.mem_range.2 hk)
    rcases mul_eq_zero.1 this with h1 | h1
    · exact absurd h1 (exp_weight_pos hu k).ne'
    · exact pow_eq_zero_iff (two_ne_zero) |>.1 h1
  -- downwards induction
  have hx : ∀ d < n, x (n - 1 - d) = 0 := by
    intro d
    induction d using Nat.strong_induction_on with
    | _ d ih =>
      intro hd
      have := hz (n - 1 - d) (by omega)
      rw [Finset.sum_eq_single_of_mem (n - 1 - d) (Finset.mem_range.2 (by omega))] at this
      · rw [if_pos le_rfl] at this
        exact (mul_eq_zero.1 this).resolve_left (Real.exp_pos _).ne'
      · intro b hb hne
        have hb' := Finset.mem_range.1 hb
        by_cases hle : n - 1 - d ≤ b
        · have := ih (n - 1 - b) (by omega) (by omega)
          rw [show n - 1 - (n - 1 - b) = b by omega] at this
          rw [this, mul_zero]
        · rw [if_neg hle, zero_mul]
  obtain ⟨i, hi, hne⟩ := h
  have := hx (n - 1 - i) (by omega)
  rw [show n - 1 - (n - 1 - i) = i by omega] at this
  exact hne this

/-! ### random positive definite matrices -/

theorem quad_ge_rows {n : ℕ} {A : ℕ → ℕ → ℝ} (hs : Sym n A) (x : ℕ → ℝ) :
    -∑ i ∈ Finset.range n, (∑ k ∈ Finset.range n, |A i k|) * (x i * x i) ≤ quad n A x := by
  have h1 : ∀ i ∈ Finset.range n, ∀ j ∈ Finset.range n, -(|A i j| * (x i * x i) / 2 + |A j i| * (x j * x j) / 2) ≤ x i * A i j * x j := by
    intro i hi j hj
    rw [hs j (Finset.mem_range.1 hj) i (Finset.mem_range.1 hi)]
    have h2 : |x i * x j| ≤ (x i * x i + x j * x j) / 2 := by
      rw [abs_le]; constructor <;> nlinarith [sq_nonneg (x i + x j), sq_nonneg (x i - x j)]
    have h3 : -|x i * A i j * x j| ≤ x i * A i j * x j := neg_abs_le _
    have h4 : |x i * A i j * x j| = |A i j| * |x i * x j| := by rw [← abs_mul]; congr 1; ring
    rw [h4] at h3
    nlinarith [abs_nonneg (A i j), mul_le_mul_of_nonneg_left h2 (abs_nonneg (A i j))]
  have h5 : ∑ i ∈ Finset.range n, ∑ j ∈ Finset.range n, -(|A i j| * (x i * x i) / 2 + |A j i| * (x j * x j) / 2) ≤ quad n A x :=
    Finset.sum_le_sum fun i hi => Finset.sum_le_sum fun j hj => h1 i hi j hj
  refine le_trans (le_of_eq ?_) h5
  have h6 : ∑ i ∈ Finset.range n, ∑ j ∈ Finset.range n, |A j i| * (x j * x j) / 2 = ∑ i ∈ Finset.range n, ∑ j ∈ Finset.range n, |A i j| * (x i * x i) / 2 :=
    Finset.sum_comm
  simp only [neg_add, Finset.sum_add_distrib, Finset.sum_neg_distrib, h6]
  rw [← Finset.sum_neg_distrib, ← Finset.sum_neg_distrib, ← Finset.sum_add_distrib]
  refine Finset.sum_congr rfl fun i _ => ?_
  rw [Finset.sum_mul, ← neg_add, ← Finset.sum_add_distrib]
  congr 1
  exact Finset.sum_congr rfl fun j _ => by ring

end Verif
