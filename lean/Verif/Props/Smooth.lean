import Verif.Props.Pointwise
import Verif.Proofs.Reordered

/-!
C93: predictions are smooth functions of the point asked for.
-/

namespace Verif
open Matrix

/-- C93: the predicted mean of each output is a continuously differentiable function of the coordinates of the point, everywhere: also where the point
crosses a grid point or leaves the grid, where the interpolation weights are computed with other neighbours. It is so for every solver, exact or not, and
every prediction mode. The predicted variance is continuous in the modes `exact` and `precompute`, and in the mode `on-the-fly` when the solver is exact. -/
theorem C93_smooth (sv : Solvers) (hs : sv.Fit) (m : LLGP) (P : ℕ) (h : m.OK P) (k : LLKernel) (hc : m.Current sv k) :
    ∃ μ σ : ℕ → (Fin P → ℝ) → ℝ, (∀ d, ContDiff ℝ 1 (μ d)) ∧
      ((m.prediction = .onTheFly → ExactSolves sv k.approx.K m.n (m.fk.skiFull m.axesOf m.fk.extraOf m.gp.Xs) 1e-4) → ∀ d, Continuous (σ d)) ∧
      ∀ (Qs : List (NDArr ℝ)) (e : Env) (r : Predicted), QueriesOK m.fk.D P Qs → (∀ Q ∈ Qs, Q.WF) → e.Works →
      m.gp.predict (m.rawPredict sv e) Qs = .ok r → ∀ d < m.fk.D, ∀ i < (queryLens Qs).getD d 0,
        (r.1.getD d []).getD i 0 = μ d (fun c => queryPoint P Qs d i c) ∧ (r.2.getD d []).getD i 0 = σ d (fun c => queryPoint P Qs d i c) := by
  obtain ⟨μ, σ, h1, h2, h3⟩ := pointwise_facts sv hs m P h k hc
  by_cases hi : ∀ q ∈ m.fk.kernels, q.noIdentity
  · exact ⟨μ, σ, h1, h2 hi, h3⟩
  · refine ⟨μ, fun _ _ => 0, h1, fun _ _ => continuous_const, fun Qs e r hQ hW he hr => ?_⟩
    exact absurd (predict_back (⟨hs, h, hc, hQ, hW⟩ : Asked sv m P k Qs) hr).1 hi

/-- C93 for programs: after any program that uses its models as documented, the means a model predicts are continuously differentiable functions of the
point, and the variances continuous ones (in the mode `on-the-fly` for an exact solver and kernels that name each dimension once). -/
theorem C93_program (sv : Solvers) (hs : sv.Fit) (ops : List Op) (hv : ValidFrom [] ops) (i : ℕ) (m : LLGP) (hm : modelsAfter sv ops i = some m) :
    ∃ P, ∃ μ σ : ℕ → (Fin P → ℝ) → ℝ, m.gp.inputDim = P ∧ (∀ d, ContDiff ℝ 1 (μ d)) ∧
      ((m.prediction = .onTheFly → sv.Exact ∧ ∀ ad ∈ m.fk.activeDims.map Prod.fst, ad.Nodup) → ∀ d, Continuous (σ d)) ∧
      ∀ (asks : List Op) (Qs : List (NDArr ℝ)) (e : Env) (r : Predicted),
      (∀ op ∈ asks, ¬ op.Changes ∧ op.Works) → QueriesOK m.gp.outputDim P Qs → (∀ Q ∈ Qs, Q.WF) → e.Works →
      results sv (ops ++ asks ++ [.ask i (.predict Qs) e]) = results sv (ops ++ asks) ++ [.ok (.predicted r)] →
      ∀ d < m.gp.outputDim, ∀ j < (queryLens Qs).getD d 0,
        (r.1.getD d []).getD j 0 = μ d (fun c => queryPoint P Qs d j c) ∧ (r.2.getD d []).getD j 0 = σ d (fun c => queryPoint P Qs d j c) := by
  obtain ⟨hc, hall⟩ := C69_valid_program sv hs ops hv
  obtain ⟨P, k, hok, hcur, hso⟩ := hall i m hm
  obtain ⟨μ, σ, h1, h2, h3⟩ := C93_smooth sv hs m P hok k hcur
  refine ⟨P, μ, σ, hok.inputDim, h1, fun hx => h2 fun hmode => exact_of_current hs (hx hmode).1 hok hcur hso (hx hmode).2 _, fun asks Qs e r ha hQ hW he hr d hd j hj => ?_⟩
  rw [hok.outputDim] at hQ hd
  exact h3 Qs e r hQ hW he (program_predicts hs hv hm ha he hr) d hd j hj

/-- queries for one point of the second of two outputs -/
def onePoint (x : Fin 2 → ℝ) : List (NDArr ℝ) := [⟨[0, 2], []⟩, ⟨[1, 2], [x 0, x 1]⟩]

/-- a model of two outputs, in any mode: asked for one point at a time it always answers, and as the point moves over the plane the mean is differentiable
and the variance continuous -/
example (mode : PredMode) (e : Env) (he : e.Works) : ∃ (m : LLGP) (r : (Fin 2 → ℝ) → Predicted), m.prediction = mode ∧
    (∀ x, m.gp.predict (m.rawPredict exactSolvers e) (onePoint x) = .ok (r x)) ∧ Differentiable ℝ (fun x => ((r x).1.getD 1 []).getD 0 0) ∧
    Continuous fun x => ((r x).2.getD 1 []).getD 0 0 := by
  obtain ⟨m, k, h1, h2, h3, hx, h5⟩ := exists_asked mode
  have hQ : ∀ x, Asked exactSolvers m 2 k (onePoint x) := by
    intro x
    refine ⟨h1.fit, h1.ok, h1.current, ⟨by rw [← h1.queries.1]; rfl, ?_⟩, ?_⟩
    · intro X hX
      simp only [onePoint, List.mem_cons, List.not_mem_nil, or_false] at hX
      rcases hX with rfl | rfl
      · exact ⟨0, .inr rfl⟩
      · exact ⟨1, .inr rfl⟩
    · intro X hX
      simp only [onePoint, List.mem_cons, List.not_mem_nil, or_false] at hX
      rcases hX with rfl | rfl <;> rfl
  have h6 : ∀ x, m.CanPredict 2 (onePoint x) := by
    intro x
    unfold LLGP.CanPredict at h5 ⊢
    rw [h2] at h5 ⊢
    cases mode with
    | onTheFly => simp [queryLens, onePoint]
    | precompute => exact h5
    | exact => exact h5
  have hr : ∀ x, ∃ r, m.gp.predict (m.rawPredict exactSolvers e) (onePoint x) = .ok r := fun x => (C43_returns _ m 2 k _ (hQ x) e he).2.2 ⟨h3.plain, h6 x⟩
  choose r hr using hr
  obtain ⟨μ, σ, c1, c2, c3⟩ := C93_smooth exactSolvers h1.fit m 2 h1.ok k h1.current
  have hD : (1 : ℕ) < m.fk.D := by rw [← h1.queries.1]; simp
  have hv : ∀ x, ((r x).1.getD 1 []).getD 0 0 = μ 1 x ∧ ((r x).2.getD 1 []).getD 0 0 = σ 1 x := by
    intro x
    have e1 : (fun c : Fin 2 => queryPoint 2 (onePoint x) 1 0 c) = x := by
      funext c
      fin_cases c <;> simp [queryPoint, onePoint]
    have := c3 _ e (r x) (hQ x).queries (hQ x).arrays he (hr x) 1 hD 0 (by simp [queryLens, onePoint])
    rwa [e1] at this
  refine ⟨m, r, h2, hr, ?_, ?_⟩
  · rw [funext fun x => (hv x).1]
    exact (c1 1).differentiable (by simp)
  · rw [funext fun x => (hv x).2]
    exact c2 (fun _ => hx _) 1

end Verif
