import Verif.Proofs.TestingUtils

/-!
C75: the generators of test matrices end, whatever is drawn, and return what they promise; two promises of their documentation are wrong.
-/

namespace Verif
open Matrix

/-- C75: `smallest_eig` is the smallest eigenvalue: it is an eigenvalue, and the quadratic form is never below it. It fails exactly on an empty row. -/
theorem C75_smallest_eig (top : List ℝ) :
    (top = [] → smallestEig top = .error .valueError) ∧
    (top ≠ [] → ∃ s, smallestEig top = .ok s ∧ (∃ v, v ≠ 0 ∧ toepMat top *ᵥ v = s • v) ∧ ∀ v, s * (v ⬝ᵥ v) ≤ v ⬝ᵥ toepMat top *ᵥ v) := by
  refine ⟨fun h => by subst h; simp [smallestEig], fun h => ?_⟩
  obtain ⟨s, h1, h2, h3⟩ := smallestEig_ok h
  rw [toepMat_eq]
  refine ⟨s, h1, mem_eigSet.1 h2.1, fun v => ?_⟩
  have := h3 (extV v)
  rwa [quad_eq, nrm_eq, extV_eq] at this

/-- C75: `random_toep` ends for every non-empty draw, always in the same way, with the draws in descending order, a natural number added to the first of
them, and a positive semi-definite matrix. -/
theorem C75_random_toep (us : List ℝ) (hne : us ≠ []) (hu : ∀ u ∈ us, 0 ≤ u) : ∃ top l : List ℝ, ∃ k : ℕ,
    RandomToep us (.ok top) ∧ (∀ r, RandomToep us r → r = .ok top) ∧ l.Perm us ∧ l.Pairwise (· ≥ ·) ∧ top = l.set 0 (l.getD 0 0 + k) ∧
    (toepMat top).PosSemidef ∧ (∀ x ∈ top, 0 ≤ x) ∧ top.Pairwise (· ≥ ·) := by
  have habs : us.map (fun u => |u|) = us := by
    conv_rhs => rw [← List.map_id us]
    exact List.map_congr_left fun u h => abs_of_nonneg (hu u h)
  set l := (us.reverse.insertionSort (· ≤ ·)).reverse with hl
  have hperm : l.Perm us := (List.reverse_perm _).trans ((List.perm_insertionSort _ _).trans (List.reverse_perm _))
  have hsort : l.Pairwise (· ≥ ·) := by
    rw [hl, List.pairwise_reverse]
    exact List.pairwise_insertionSort _ _
  have hlne : l ≠ [] := fun h => hne (by rw [h] at hperm; exact hperm.symm.eq_nil)
  obtain ⟨k, hk⟩ := eigLoop_add l hlne
  have hrun : RandomToep us (.ok (l.set 0 (l.getD 0 0 + k))) := by
    unfold RandomToep
    simp only [habs]
    exact hk
  refine ⟨_, l, k, hrun, fun r hr => eigLoop_unique hrun hr, hperm, hsort, rfl, eigLoop_psd hk _ rfl, ?_, ?_⟩
  · intro x hx
    cases hc : l with
    | nil => exact absurd hc hlne
    | cons a t =>
      have hnn : ∀ x ∈ a :: t, 0 ≤ x := fun x hx => hu x (hperm.mem_iff.1 (by rw [hc]; exact hx))
      rw [hc] at hx
      simp only [List.set_cons_zero, List.getD_cons_zero] at hx
      rcases List.mem_cons.1 hx with rfl | hx
      · exact add_nonneg (hnn a (by simp)) (Nat.cast_nonneg k)
      · exact hnn x (by simp [hx])
  · cases hc : l with
    | nil => exact absurd hc hlne
    | cons a t =>
      rw [hc, List.pairwise_cons] at hsort
      simp only [List.set_cons_zero, List.getD_cons_zero]
      rw [List.pairwise_cons]
      exact ⟨fun b hb => le_trans (hsort.1 b hb) (le_add_of_nonneg_right (Nat.cast_nonneg k)), hsort.2⟩

theorem poor_top (n : ℕ) (u : ℝ) : ((vmk n fun i => (i : ℝ)).reverse.map (· * (u + 1e-3))).length = n ∧
    ∀ i < n, ((vmk n fun i => (i : ℝ)).reverse.map (· * (u + 1e-3))).getD i 0 = ((n - 1 : ℕ) - i : ℝ) * (u + 1e-3) := by
  refine ⟨by simp [vmk], fun i hi => ?_⟩
  simp only [vmk, List.getD_eq_getElem?_getD]
  rw [List.getElem?_map]
  rw [List.getElem?_reverse (by simpa using hi)]
  simp only [List.length_map, List.length_range, List.getElem?_map]
  rw [List.getElem?_range (by omega)]
  simp only [Option.map_some, Option.getD_some]
  rw [Nat.cast_sub (by omega)]

/-- C75: `poor_cond_toep(n)` ends at once for every `n ≥ 1` and every draw, with the linear row `(n-1, …, 1, 0)` times the drawn scale, and a positive
semi-definite matrix. Contrary to its documentation the condition number does not grow exponentially: for `n ≥ 2` any two eigenvalues are within a factor
`4 n²` of each other. -/
theorem C75_poor_cond_toep (n : ℕ) (u : ℝ) (hn : 1 ≤ n) (hu : 0 ≤ u) : ∃ top,
    PoorCondToep n u (.ok top) ∧ (∀ r, PoorCondToep n u r → r = .ok top) ∧ top.length = n ∧
    (∀ i < n, top.getD i 0 = ((n - 1 : ℕ) - i : ℝ) * (u + 1e-3)) ∧ (toepMat top).PosSemidef ∧
    (2 ≤ n → ∀ (μ ν : ℝ) (v w), v ≠ 0 → w ≠ 0 → toepMat top *ᵥ v = μ • v → toepMat top *ᵥ w = ν • w → 0 < ν ∧ μ ≤ 4 * n ^ 2 * ν) := by
  obtain ⟨e1, e2⟩ := poor_top n u
  set top := (vmk n fun i => (i : ℝ)).reverse.map (· * (u + 1e-3)) with htop
  set c : ℝ := u + 1e-3 with hc
  have hcpos : 0 < c := by rw [hc]; positivity
  obtain ⟨L, rfl⟩ : ∃ L, n = L + 1 := ⟨n - 1, by omega⟩
  have hent : ∀ i < L + 1, ∀ j < L + 1, tpf top i j = c * ((L : ℝ) - absDiff i j) := by
    intro i hi j hj
    have : absDiff i j < L + 1 := by unfold absDiff; split_ifs <;> omega
    unfold tpf
    rw [e2 _ this]
    simp only [Nat.add_sub_cancel]
    ring
  have hq : ∀ x, quad (L + 1) (tpf top) x = c * quad (L + 1) (fun i j => (L : ℝ) - absDiff i j) x := by
    intro x
    rw [quad_congr hent]
    unfold quad
    rw [Finset.mul_sum]
    refine Finset.sum_congr rfl fun i _ => ?_
    rw [Finset.mul_sum]
    exact Finset.sum_congr rfl fun j _ => by ring
  have hpsd : ∀ x, 0 ≤ quad top.length (tpf top) x := by
    intro x
    rw [e1, hq, quad_linear]
    refine mul_nonneg hcpos.le (add_nonneg (Finset.sum_nonneg fun _ _ => sq_nonneg _) (Finset.sum_nonneg fun _ _ => sq_nonneg _))
  have hne : top ≠ [] := fun h => by rw [h] at e1; simp at e1
  obtain ⟨s, hs, -⟩ := smallestEig_ok hne
  have hrun : PoorCondToep (L + 1) u (.ok top) := EigLoop.stop hs ((smallestEig_nonneg hs).2 hpsd)
  refine ⟨top, hrun, fun r hr => eigLoop_unique hrun hr, e1, e2, ?_, fun hn2 μ ν v w hv hw hμ hν => ?_⟩
  · rw [toepMat_eq]
    exact psd_iff_quad.2 ⟨tpf_sym _ _, hpsd⟩
  · rw [toepMat_eq] at hμ hν
    obtain ⟨w1, w2⟩ := eig_of_quad hw hν
    have hlow : c / 4 ≤ ν := by
      generalize extV w = z at w1 w2
      have := quad_linear_ge L (by omega) z
      rw [e1] at w1 w2
      rw [hq] at w1
      have h3 : c * nrm (L + 1) z ≤ 4 * (ν * nrm (L + 1) z) := by rw [← w1]; nlinarith
      by_contra hlt
      push Not at hlt
      nlinarith
    have hup : μ ≤ (L + 1 : ℕ) * ((L : ℝ) * c) := by
      refine (eigAbsLE_of_rows fun i => ?_).le μ v hv hμ
      have hi : (i : ℕ) < L + 1 := lt_of_lt_of_eq i.2 e1
      have : ∀ j : Fin top.length, |fnMatrix top.length top.length (tpf top) i j| ≤ (L : ℝ) * c := by
        intro j
        have hj : (j : ℕ) < L + 1 := lt_of_lt_of_eq j.2 e1
        show |tpf top i j| ≤ _
        rw [hent _ hi _ hj]
        have h1 : (absDiff (i : ℕ) j : ℝ) ≤ L := by
          have : absDiff (i : ℕ) j ≤ L := by unfold absDiff; split_ifs <;> omega
          exact_mod_cast this
        have h2 : (0 : ℝ) ≤ absDiff (i : ℕ) j := Nat.cast_nonneg _
        rw [abs_of_nonneg (mul_nonneg hcpos.le (by linarith))]
        nlinarith
      refine le_trans (Finset.sum_le_sum fun j _ => this j) ?_
      rw [Finset.sum_const, Finset.card_univ, Fintype.card_fin, e1, nsmul_eq_mul]
    refine ⟨by linarith, hup.trans ?_⟩
    have hL : (0 : ℝ) ≤ L := Nat.cast_nonneg L
    push_cast
    nlinarith [mul_nonneg hL hcpos.le, mul_nonneg (mul_nonneg hL hL) hcpos.le, mul_nonneg (sq_nonneg ((L : ℝ) + 1)) (sub_nonneg.2 hlow)]

/-- C75: with `n = 0` both loops fail with ValueError -/
theorem C75_empty (u : ℝ) : PoorCondToep 0 u (.error .valueError) ∧ RandomToep [] (.error .valueError) :=
  ⟨EigLoop.fail (by simp [smallestEig, vmk]), EigLoop.fail (by simp [smallestEig])⟩

/-- C75: `exp_decr_toep` gives a positive semi-definite matrix, positive definite unless the draw is zero, that falls by the factor `e^u` per step. Contrary
to its documentation this factor is never as large as `e`. -/
theorem C75_exp_decr_toep (n : ℕ) (u : ℝ) (hu : 0 ≤ u) (hu1 : u < 1) :
    (expDecrToep n u).length = n ∧ (toepMat (expDecrToep n u)).PosSemidef ∧ (0 < u → (toepMat (expDecrToep n u)).PosDef) ∧
    (∀ i, i + 1 < n → (expDecrToep n u).getD i 0 = Real.exp u * (expDecrToep n u).getD (i + 1) 0) ∧ Real.exp u < Real.exp 1 := by
  have hlen : (expDecrToep n u).length = n := by simp [expDecrToep, vmk]
  have hent : ∀ i < n, ∀ j < n, tpf (expDecrToep n u) i j = Real.exp (-u * absDiff i j) := by
    intro i hi j hj
    have : absDiff i j < n := by unfold absDiff; split_ifs <;> omega
    unfold tpf expDecrToep
    rw [vmk_getD_lt this]
  have hq : ∀ x, quad (expDecrToep n u).length (tpf (expDecrToep n u)) x = quad n (fun i j => Real.exp (-u * absDiff i j)) x := by
    intro x; rw [hlen]; exact quad_congr hent x
  refine ⟨hlen, ?_, fun hpos => ?_, fun i hi => ?_, Real.exp_lt_exp.2 hu1⟩
  · rw [toepMat_eq]
    refine psd_iff_quad.2 ⟨tpf_sym _ _, fun x => ?_⟩
    rw [hq, quad_exp]
    exact Finset.sum_nonneg fun k _ => mul_nonneg (exp_weight_nonneg hu k) (sq_nonneg _)
  · rw [toepMat_eq]
    refine pd_of_quad (tpf_sym _ _) fun x hx => ?_
    rw [hq]
    exact quad_exp_pos hpos n x (by rwa [hlen] at hx)
  · unfold expDecrToep
    rw [vmk_getD_lt (by omega), vmk_getD_lt hi, ← Real.exp_add]
    congr 1
    push_cast; ring

/-- C75: `rand_pd` gives a symmetric matrix with eigenvalues of at least one, whose entries are not negative for non-negative draws, and positive for
positive draws. -/
theorem C75_rand_pd (n : ℕ) (A : Arr2 ℝ) (hr : A.rows = n) (hc : A.cols = n) :
    (randPd n A).rows = n ∧ (randPd n A).cols = n ∧ (∀ i < n, ∀ j < n, (randPd n A).get i j = (randPd n A).get j i) ∧
    (fnMatrix n n (randPd n A).get).PosDef ∧ (∀ (μ : ℝ) v, v ≠ 0 → fnMatrix n n (randPd n A).get *ᵥ v = μ • v → 1 ≤ μ) ∧
    ((∀ i < n, ∀ j < n, 0 ≤ A.get i j) → ∀ i < n, ∀ j < n, 0 ≤ (randPd n A).get i j) ∧
    ((∀ i < n, ∀ j < n, 0 < A.get i j) → ∀ i < n, ∀ j < n, 0 < (randPd n A).get i j) := by
  have hS : ∀ i < n, ∀ j < n, (Arr2.of n n fun i j => (A.get i j + A.T.get i j) / 2).get i j = (A.get i j + A.get j i) / 2 := by
    intro i hi j hj
    rw [Arr2.of_get hi hj]
    unfold Arr2.T
    rw [Arr2.of_get (by rw [hc]; exact hi) (by rw [hr]; exact hj)]
  set S : ℕ → ℕ → ℝ := fun i j => (A.get i j + A.get j i) / 2 with hSdef
  have hent : ∀ i < n, ∀ j < n, (randPd n A).get i j = S i j + if i = j then (∑ k ∈ Finset.range n, |S i k|) + 1 else 0 := by
    intro i hi j hj
    unfold randPd
    show ((Arr2.of n n fun i j => (A.get i j + A.T.get i j) / 2).add _).get i j = _
    unfold Arr2.add
    refine (Arr2.of_get (r := n) (c := n) hi hj).trans ?_
    rw [hS i hi j hj, Arr2.of_get hi hj]
    congr 2
    congr 1
    exact Finset.sum_congr rfl fun k hk => by rw [hS i hi k (Finset.mem_range.1 hk)]
  have hsymS : Sym n S := fun i _ j _ => by rw [hSdef]; simp only; ring
  have hsym : Sym n (randPd n A).get := by
    intro i hi j hj
    rw [hent i hi j hj, hent j hj i hi, hsymS i hi j hj]
    by_cases hij : i = j
    · subst hij; rfl
    · rw [if_neg hij, if_neg (Ne.symm hij)]
  have hq : ∀ x, nrm n x ≤ quad n (randPd n A).get x := by
    intro x
    rw [quad_congr hent, quad_add, quad_diag]
    have h1 := quad_ge_rows hsymS x
    have h2 : ∑ i ∈ Finset.range n, ((∑ k ∈ Finset.range n, |S i k|) + 1) * (x i * x i) =
        ∑ i ∈ Finset.range n, (∑ k ∈ Finset.range n, |S i k|) * (x i * x i) + nrm n x := by
      unfold nrm
      rw [← Finset.sum_add_distrib]
      exact Finset.sum_congr rfl fun i _ => by ring
    rw [h2]; linarith
  refine ⟨rfl, rfl, hsym, pd_of_quad hsym fun x hx => lt_of_lt_of_le (nrm_pos hx) (hq x), fun μ v hv h => ?_, fun h i hi j hj => ?_, fun h i hi j hj => ?_⟩
  · obtain ⟨h1, h2⟩ := eig_of_quad hv h
    have := hq (extV v)
    rw [h1] at this
    by_contra hlt
    push Not at hlt
    nlinarith
  · rw [hent i hi j hj]
    refine add_nonneg (by have := h i hi j hj; have := h j hj i hi; rw [hSdef]; simp only; linarith) ?_
    split_ifs
    · exact add_nonneg (Finset.sum_nonneg fun _ _ => abs_nonneg _) zero_le_one
    · exact le_rfl
  · rw [hent i hi j hj]
    refine add_pos_of_pos_of_nonneg (by have := h i hi j hj; have := h j hj i hi; rw [hSdef]; simp only; linarith) ?_
    split_ifs
    · exact add_nonneg (Finset.sum_nonneg fun _ _ => abs_nonneg _) zero_le_one
    · exact le_rfl

/-- three draws -/
example : ([0.1, 0.9, 0.5] : List ℝ) ≠ [] ∧ ∀ u ∈ ([0.1, 0.9, 0.5] : List ℝ), 0 ≤ u := by
  refine ⟨by simp, fun u hu => ?_⟩
  simp only [List.mem_cons, List.not_mem_nil, or_false] at hu
  rcases hu with rfl | rfl | rfl <;> norm_num

/-- the loop of `random_toep` can run: the row `(1, 1, 0)` has a negative eigenvalue -/
example : ∃ s, smallestEig [1, 1, 0] = .ok s ∧ s < 0 := by
  obtain ⟨s, h1, -⟩ := smallestEig_ok (top := [1, 1, 0]) (by simp)
  refine ⟨s, h1, ?_⟩
  by_contra hs
  have := (smallestEig_nonneg h1).1 hs fun i => if i = 1 then -1.4 else 1
  simp [quad, Finset.sum_range_succ, tpf, absDiff] at this
  norm_num at this

end Verif
