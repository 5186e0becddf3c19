import Verif.Spec.Iterative
import Verif.Proofs.Likelihood

/-! C51: `Iterative.solve`. -/

namespace Verif

theorem residual_eq {K : MatObj} {n : ℕ} {A : ℕ → ℕ → ℝ} (h : SquareOp K n A) (y x : List ℝ) (hy : y.length = n) (hx : x.length = n) :
    residual K y x = resNorm n A y x := by
  unfold residual resNorm
  rw [h.rep.matvec x (by rw [h.cols, hx]), h.rows, h.cols]
  conv_lhs => rw [show y = vmk n fun i => y.getD i 0 by rw [← hy, vmk_self]]
  rw [vsub_norm, list_sum_range, Finset.sum_range]
  congr 1
  refine Finset.sum_congr rfl fun i _ => ?_
  congr 2
  rw [Finset.sum_range]
  rfl

/-- the callback loop, from any counter value -/
theorem runCallbacks_spec {K : MatObj} {n : ℕ} {A : ℕ → ℕ → ℝ} (h : SquareOp K n A) (y : List ℝ) (hy : y.length = n) (tol : ℝ) :
    ∀ (xs : List (List ℝ)) (c : ℕ), (∀ x ∈ xs, x.length = n) →
      (∃ k, (0 < k ∧ k ≤ xs.length ∧ 100 ∣ c + k ∧ resNorm n A y (xs.getD (k - 1) []) < tol) ∧
        (∀ j, j < k → ¬ (0 < j ∧ j ≤ xs.length ∧ 100 ∣ c + j ∧ resNorm n A y (xs.getD (j - 1) []) < tol)) ∧
        runCallbacks K y tol c xs = (c + k, some (xs.getD (k - 1) []))) ∨
      ((∀ k, ¬ (0 < k ∧ k ≤ xs.length ∧ 100 ∣ c + k ∧ resNorm n A y (xs.getD (k - 1) []) < tol)) ∧
        runCallbacks K y tol c xs = (c + xs.length, none))
  | [], c, _ => by
    right
    exact ⟨fun k hk => by simp at hk; omega, rfl⟩
  | x :: xs, c, hx => by
    have hx0 := hx x (by simp)
    simp only [runCallbacks]
    by_cases e : (c + 1) % 100 = 0 ∧ residual K y x < tol
    · left
      rw [if_pos e, residual_eq h y x hy hx0] at *
      exact ⟨1, ⟨by norm_num, by simp, Nat.dvd_of_mod_eq_zero e.1, by simpa using e.2⟩, fun j hj hj' => by omega, by simp⟩
    · rw [if_neg e]
      rw [residual_eq h y x hy hx0] at e
      have ih := runCallbacks_spec h y hy tol xs (c + 1) fun z hz => hx z (by simp [hz])
      have hshift : ∀ k, (0 < k ∧ k ≤ (x :: xs).length ∧ 100 ∣ c + k ∧ resNorm n A y ((x :: xs).getD (k - 1) []) < tol) ↔
          (0 < k - 1 ∧ 0 < k ∧ k - 1 ≤ xs.length ∧ 100 ∣ c + 1 + (k - 1) ∧ resNorm n A y (xs.getD (k - 1 - 1) []) < tol) := by
        intro k
        rcases k with _ | _ | k
        · simp
        · simp only [zero_add, List.length_cons, Nat.sub_self, List.getD_cons_zero, lt_irrefl, false_and, iff_false]
          rintro ⟨-, -, h3, h4⟩
          exact e ⟨Nat.mod_eq_zero_of_dvd h3, h4⟩
        · simp only [List.length_cons, Nat.add_sub_cancel, List.getD_cons_succ]
          rw [show c + 1 + (k + 1) = c + (k + 1 + 1) by ring]
          constructor
          · rintro ⟨h1, h2, h3, h4⟩; exact ⟨by omega, by omega, by omega, h3, h4⟩
          · rintro ⟨h1, h2, h3, h4, h5⟩; exact ⟨by omega, by omega, h4, h5⟩
      rcases ih with ⟨k, ⟨k1, k2, k3, k4⟩, k5, k6⟩ | ⟨h1, h2⟩
      · left
        refine ⟨k + 1, (hshift _).2 ⟨by omega, by omega, by simpa using k2, by simpa using k3, by simpa using k4⟩, ?_, ?_⟩
        · intro j hj hj'
          obtain ⟨j1, j2, j3, j4, j5⟩ := (hshift j).1 hj'
          exact k5 (j - 1) (by omega) ⟨j1, j3, j4, j5⟩
        · rw [k6]
          obtain ⟨k', rfl⟩ : ∃ k', k = k' + 1 := ⟨k - 1, by omega⟩
          simp only [Nat.add_sub_cancel, List.getD_cons_succ]
          rw [show c + 1 + (k' + 1) = c + (k' + 1 + 1) by ring]
      · right
        refine ⟨fun k hk => ?_, ?_⟩
        · obtain ⟨j1, j2, j3, j4, j5⟩ := (hshift k).1 hk
          exact h1 (k - 1) ⟨j1, j3, j4, j5⟩
        · rw [h2, List.length_cons]
          congr 1
          ring

/-- The run of the chosen method inside `solve`. -/
def Solvers.run (s : Solvers) (K : MatObj) (y : List ℝ) (minres : Bool) (tol : ℝ) : KrylovRun :=
  (if minres then s.minres else s.cg) K y (min 1e-10 tol) K.rows

/-- C51: whatever iterates the Krylov method produces, `solve` returns a vector and logs a message or not such that

* the returned error is the norm of `y - A x`,
* a message is logged iff that error is above `tol`, or the method ran to its end and reported a failure: without a message the error is
  at most `tol`,
* the run is cut short exactly at the first iteration that is a multiple of 100 and whose iterate has residual below `tol`; that iterate
  is then the result, otherwise it is the method's own. The counter is the number of iterations made,
* without `verbose` the same vector is returned. -/
theorem C51_solve (s : Solvers) (hs : s.Fit) (K : MatObj) (n : ℕ) (A : ℕ → ℕ → ℝ) (hK : SquareOp K n A) (y : List ℝ) (hy : y.length = n)
    (minres : Bool) (tol : ℝ) :
    ∃ x ctr error logged, iterativeSolve s K y true minres tol = .ok (.verbose x ctr error, logged) ∧
      iterativeSolve s K y false minres tol = .ok (.plain x, logged) ∧
      error = resNorm n A y x ∧ (logged = false → resNorm n A y x ≤ tol) ∧
      ((∃ k, EarlyAt n A y tol (s.run K y minres tol).iterates k ∧ (∀ j < k, ¬ EarlyAt n A y tol (s.run K y minres tol).iterates j) ∧
          x = (s.run K y minres tol).iterates.getD (k - 1) [] ∧ ctr = k ∧ logged = false) ∨
        ((∀ k, ¬ EarlyAt n A y tol (s.run K y minres tol).iterates k) ∧ x = (s.run K y minres tol).x ∧
          ctr = (s.run K y minres tol).iterates.length ∧
          (logged = true ↔ tol < resNorm n A y x ∨ (s.run K y minres tol).info ≠ 0))) := by
  have hfit : (s.run K y minres tol).Fits n := by
    unfold Solvers.run
    have := hs K y (min 1e-10 tol) K.rows
    rw [hy] at this
    cases minres
    · exact this.2
    · exact this.1
  have hguard : ¬ (K.rows ≠ K.cols ∨ y.length ≠ K.rows) := by
    rw [hK.rows, hK.cols, hy]; simp
  unfold iterativeSolve
  simp only [if_neg hguard]
  change ∃ x ctr error logged, _
  set run := s.run K y minres tol with hrun
  have hrun' : (if minres = true then s.minres else s.cg) K y (min 1e-10 tol) K.rows = run := rfl
  simp only [hrun']
  rcases runCallbacks_spec hK y hy tol run.iterates 0 hfit.1 with ⟨k, k1, k2, k3⟩ | ⟨h1, h2⟩
  · simp only [zero_add] at k1 k2 k3
    have hxl : (run.iterates.getD (k - 1) []).length = n := by
      rw [List.getD_eq_getElem _ _ (by omega)]
      exact hfit.1 _ (List.getElem_mem _)
    simp only [k3]
    refine ⟨_, _, _, _, rfl, rfl, residual_eq hK y _ hy hxl, fun _ => k1.2.2.2.le, .inl ⟨k, k1, k2, rfl, rfl, ?_⟩⟩
    rw [residual_eq hK y _ hy hxl]
    simp only [ne_eq, not_true_eq_false, or_false, decide_eq_false_iff_not, gt_iff_lt, not_lt]
    exact k1.2.2.2.le
  · simp only [zero_add] at h1 h2
    simp only [h2]
    refine ⟨_, _, _, _, rfl, rfl, residual_eq hK y _ hy hfit.2, fun hl => ?_, .inr ⟨h1, rfl, rfl, ?_⟩⟩
    · rw [residual_eq hK y _ hy hfit.2] at hl
      simp only [decide_eq_false_iff_not, not_or, gt_iff_lt, not_lt] at hl
      exact hl.1
    · rw [residual_eq hK y _ hy hfit.2]
      simp only [decide_eq_true_eq, gt_iff_lt]

/-- C51: the message is logged whenever the result is bad -/
theorem C51_bad_is_logged (s : Solvers) (hs : s.Fit) (K : MatObj) (n : ℕ) (A : ℕ → ℕ → ℝ) (hK : SquareOp K n A) (y : List ℝ) (hy : y.length = n)
    (minres : Bool) (tol : ℝ) (x : List ℝ) (logged : Bool) (h : iterativeSolve s K y false minres tol = .ok (.plain x, logged))
    (hbad : tol < resNorm n A y x) : logged = true := by
  obtain ⟨x', c, e, lg, -, h2, -, h4, -⟩ := C51_solve s hs K n A hK y hy minres tol
  rw [h2] at h
  cases h
  by_contra hl
  have : logged = false := by cases logged <;> simp_all
  exact absurd (h4 this) (not_le.2 hbad)

/-- the hypotheses of C51 are met by a method that returns zeros after 250 useless iterations, on the identity matrix -/
example : ∃ (s : Solvers) (K : MatObj), s.Fit ∧ SquareOp K 2 (fun i j => if i = j then 1 else 0) ∧
    iterativeSolve s K [3, 4] true true 6 = .ok (.verbose [0, 0] 100 5, false) := by
  obtain ⟨K, hK⟩ : ∃ K, identityNew 2 = .ok K := ⟨_, rfl⟩
  have hsq : SquareOp K 2 (fun i j => if i = j then 1 else 0) := by
    have := identity_represents hK
    exact ⟨this.2.2, this.1, this.2.1⟩
  have hfit : ∀ b : List ℝ, (⟨List.replicate 250 (List.replicate b.length 0), List.replicate b.length 0, 0⟩ : KrylovRun).Fits b.length :=
    fun b => ⟨fun x hx => by rw [List.eq_of_mem_replicate hx]; simp, by simp⟩
  let s : Solvers := ⟨fun _ b _ _ => ⟨List.replicate 250 (List.replicate b.length 0), List.replicate b.length 0, 0⟩,
    fun _ b _ _ => ⟨List.replicate 250 (List.replicate b.length 0), List.replicate b.length 0, 0⟩⟩
  refine ⟨s, K, fun _ b _ _ => ⟨hfit b, hfit b⟩, hsq, ?_⟩
  obtain ⟨x, c, e, lg, h1, -, h3, -, h5⟩ := C51_solve s (fun _ b _ _ => ⟨hfit b, hfit b⟩) K 2 _ hsq [3, 4] rfl true 6
  have hres : resNorm 2 (fun i j => if i = j then 1 else 0) [3, 4] [0, 0] = 5 := by
    unfold resNorm toVec fnMatrix Matrix.mulVec dotProduct
    rw [Fin.sum_univ_two]
    simp only [Fin.sum_univ_two]
    norm_num
    rw [show (25 : ℝ) = 5 ^ 2 by norm_num, Real.sqrt_sq (by norm_num)]
  have hit : (s.run K [3, 4] true 6).iterates = List.replicate 250 [0, 0] := rfl
  have h100 : EarlyAt 2 (fun i j => if i = j then 1 else 0) [3, 4] 6 (s.run K [3, 4] true 6).iterates 100 := by
    refine ⟨by norm_num, by rw [hit, List.length_replicate]; norm_num, by norm_num, ?_⟩
    rw [hit, List.getD_eq_getElem _ _ (by rw [List.length_replicate]; norm_num), List.getElem_replicate, hres]
    norm_num
  rw [h1]
  rcases h5 with ⟨k, k1, k2, k3, rfl, rfl⟩ | ⟨h, -⟩
  · have hk : c = 100 := by
      have h1 : ¬ 100 < c := fun hlt => k2 100 hlt h100
      obtain ⟨p, hp⟩ := k1.2.2.1
      have := k1.1
      omega
    subst hk
    have hx : x = [0, 0] := by rw [k3, hit, List.getD_eq_getElem _ _ (by rw [List.length_replicate]; norm_num), List.getElem_replicate]
    rw [h3, hx, hres]
  · exact absurd h100 (h 100)

end Verif
