import Verif.Props.LLGPState
import Verif.Proofs.Smooth

/-! Predictions as functions of output and point. -/

namespace Verif
open Matrix

/-- a point given by its coordinates, extended by zeros -/
noncomputable def pad0 {P : ℕ} (x : Fin P → ℝ) : ℕ → ℝ := fun c => if h : c < P then x ⟨c, h⟩ else 0

theorem pad0_lt {P : ℕ} (x : ℕ → ℝ) {c : ℕ} (h : c < P) : pad0 (fun j : Fin P => x j) c = x c := by
  unfold pad0; rw [dif_pos h]

theorem coords_eq {m : LLGP} {P : ℕ} (h : m.OK P) {g : List ℕ × List ℕ} (hg : g ∈ m.fk.activeDims) {x x' : ℕ → ℝ} (hx : ∀ c < P, x c = x' c) (p : ℕ) :
    gridWeight (m.axesOf g.1) (coords g.1 x) p = gridWeight (m.axesOf g.1) (coords g.1 x') p := by
  obtain ⟨gg, -, -, d3, d4⟩ := h.mem_grids hg
  refine gridWeight_congr _ _ fun c hc => ?_
  rw [d4, d3.axes] at hc
  unfold coords
  refine hx _ (h.ready.bound g.1 (List.mem_map_of_mem hg) _ ?_)
  rw [List.getD_eq_getElem _ _ hc]
  exact List.getElem_mem hc

theorem skiCov_left_eq {m : LLGP} {P : ℕ} (h : m.OK P) {x x' : ℕ → ℝ} (hx : ∀ c < P, x c = x' c) (extra : List ℕ × List ℕ → ℝ) (a b : ℕ) (z : ℕ → ℝ) :
    m.fk.skiCov m.axesOf extra a b x z = m.fk.skiCov m.axesOf extra a b x' z := by
  unfold FK.skiCov
  congr 1
  refine List.map_congr_left fun g hg => ?_
  exact Finset.sum_congr rfl fun p _ => Finset.sum_congr rfl fun q _ => by rw [coords_eq h hg hx]

theorem contDiff_pad0 {P : ℕ} (c : ℕ) : ContDiff ℝ 1 fun x : Fin P → ℝ => pad0 x c := by
  unfold pad0
  split_ifs with h
  · exact contDiff_apply ℝ ℝ _
  · exact contDiff_const

theorem continuous_explained {X : Type*} [TopologicalSpace X] {n : ℕ} {v : X → Fin n → ℝ} (h : Continuous v) (A : Matrix (Fin n) (Fin n) ℝ) :
    Continuous fun x => v x ⬝ᵥ A *ᵥ v x := h.dotProduct (continuous_const.matrix_mulVec h)

/-- the predictions as functions of output and point, and how smooth they are -/
theorem pointwise_facts (sv : Solvers) (hs : sv.Fit) (m : LLGP) (P : ℕ) (h : m.OK P) (k : LLKernel) (hc : m.Current sv k) :
    ∃ μ σ : ℕ → (Fin P → ℝ) → ℝ, (∀ d, ContDiff ℝ 1 (μ d)) ∧ ((∀ q ∈ m.fk.kernels, q.noIdentity) →
        (m.prediction = .onTheFly → ExactSolves sv k.approx.K m.n (m.fk.skiFull m.axesOf m.fk.extraOf m.gp.Xs) 1e-4) → ∀ d, Continuous (σ d)) ∧
      ∀ (Qs : List (NDArr ℝ)) (e : Env) (r : Predicted), QueriesOK m.fk.D P Qs → (∀ Q ∈ Qs, Q.WF) → e.Works →
      m.gp.predict (m.rawPredict sv e) Qs = .ok r → ∀ d < m.fk.D, ∀ i < (queryLens Qs).getD d 0,
        (r.1.getD d []).getD i 0 = μ d (fun c => queryPoint P Qs d i c) ∧ (r.2.getD d []).getD i 0 = σ d (fun c => queryPoint P Qs d i c) := by
  obtain ⟨sol, hsol⟩ := exists_solvesTo hs (current_facts hs h hc).1 1e-4
  have hpad : ∀ x : ℕ → ℝ, ∀ c < P, x c = pad0 (fun j : Fin P => x j) c := fun x c hc => (pad0_lt x hc).symm
  have hcov : ∀ d b (x z : ℕ → ℝ), m.fk.cov d b x z = m.fk.cov d b (pad0 fun j : Fin P => x j) z := fun d b x z => cov_congr h.ready (hpad x) fun _ _ => rfl
  have hprior : ∀ d (x : ℕ → ℝ), m.fk.priorVar d x = m.fk.priorVar d (pad0 fun j : Fin P => x j) := fun d x => by
    unfold FK.priorVar
    rw [cov_congr h.ready (hpad x) (hpad x)]
  have hmean : ∀ d (x : ℕ → ℝ), m.meanWith k.approx.alpha d x = m.meanWith k.approx.alpha d (pad0 fun j : Fin P => x j) := fun d x => by
    unfold LLGP.meanWith
    exact Finset.sum_congr rfl fun s _ => by rw [skiCov_left_eq h (hpad x)]
  have hcross : (∀ q ∈ m.fk.kernels, q.noIdentity) → ∀ d, Continuous fun x : Fin P → ℝ => m.fk.crossCov m.gp.Xs d (pad0 x) := fun hi d =>
    continuous_pi fun s => continuous_cov hi _ _ _ _ (fun c => (contDiff_pad0 c).continuous) fun _ => continuous_const
  -- the explained variance as a function of output and point
  have hE : ∃ E : ℕ → (Fin P → ℝ) → ℝ, ((∀ q ∈ m.fk.kernels, q.noIdentity) →
      (m.prediction = .onTheFly → ExactSolves sv k.approx.K m.n (m.fk.skiFull m.axesOf m.fk.extraOf m.gp.Xs) 1e-4) → ∀ d, Continuous (E d)) ∧ ∀ (Qs : List (NDArr ℝ)) (e : Env) (ex : ℕ → ℝ), QueriesOK m.fk.D P Qs → (∀ Q ∈ Qs, Q.WF) → e.Works →
      m.explained sv e (padded P Qs) (m.queryWs (padded P Qs)) = .ok (vmk (queryLens Qs).sum ex) → ∀ d < m.fk.D, ∀ i < (queryLens Qs).getD d 0,
        ex (offset (queryLens Qs) d + i) = E d fun c => queryPoint P Qs d i c := by
    have take : ∀ {n r : ℕ} {f g : ℕ → ℝ}, r < n → (Except.ok (vmk n f) : Except PyErr (List ℝ)) = .ok (vmk n g) → g r = f r := by
      intro n r f g hr he
      have := congrArg (fun l : List ℝ => l.getD r 0) (Except.ok.inj he)
      simp only [vmk_getD_lt hr] at this
      exact this.symm
    cases hm : m.prediction with
    | exact =>
      refine ⟨fun d x => m.fk.crossCov m.gp.Xs d (pad0 x) ⬝ᵥ (m.fk.covMat m.gp.Xs)⁻¹ *ᵥ m.fk.crossCov m.gp.Xs d (pad0 x),
        fun hi _ d => continuous_explained (hcross hi d) _, ?_⟩
      intro Qs e ex hQ hW he hex d hd i hi
      obtain ⟨q1, q2, q3⟩ := query_row hQ hd hi
      have hin : InputsOK m.fk.D P (padded P Qs) := padded_inputs hQ hW
      have hpd : (m.fk.covMat m.gp.Xs).PosDef := by
        by_contra hp
        rw [(explained_exact h hm hin sv e _).2 hp] at hex
        cases hex
      rw [(explained_exact h hm hin sv e _).1 hpd, padded_lens] at hex
      rw [take q2 hex]
      rw [padded_lens] at q1
      rw [q1, q3]
      have : m.fk.crossCov m.gp.Xs d (queryPoint P Qs d i) = m.fk.crossCov m.gp.Xs d (pad0 fun c : Fin P => queryPoint P Qs d i c) := by
        funext s; exact hcov _ _ _ _
      rw [this]
    | onTheFly =>
      refine ⟨fun d x => ∑ s : Fin (m.gp.Xs.map Arr2.rows).sum, m.fk.crossCov m.gp.Xs d (pad0 x) s *
        (sol (vmk m.n fun s => m.fk.cov d (ownerOf (m.gp.Xs.map Arr2.rows) s) (pad0 x) (rowPoint m.gp.Xs s))).getD s 0, fun hi hx d => ?_, ?_⟩
      · refine (continuous_explained (hcross hi d) (m.fk.skiMat m.axesOf m.fk.extraOf m.gp.Xs)⁻¹).congr fun x => ?_
        unfold dotProduct
        refine Finset.sum_congr rfl fun s _ => ?_
        congr 1
        obtain ⟨sol', s1, s2⟩ := exactSol (hx rfl)
        have hlen : (vmk m.n fun s => m.fk.cov d (ownerOf (m.gp.Xs.map Arr2.rows) s) (pad0 x) (rowPoint m.gp.Xs s)).length = m.n := vmk_length _ _
        have e3 : sol (vmk m.n fun s => m.fk.cov d (ownerOf (m.gp.Xs.map Arr2.rows) s) (pad0 x) (rowPoint m.gp.Xs s)) =
            sol' (vmk m.n fun s => m.fk.cov d (ownerOf (m.gp.Xs.map Arr2.rows) s) (pad0 x) (rowPoint m.gp.Xs s)) := by
          obtain ⟨-, lg, b1⟩ := hsol _ hlen
          obtain ⟨-, lg', b2⟩ := s1 _ hlen
          rw [b1] at b2
          simp only [Except.ok.injEq, Prod.mk.injEq, SolveRet.plain.injEq] at b2
          exact b2.1
        rw [e3]
        have := s2 _ hlen
        rw [toVec_vmk] at this
        exact (congrFun this s).symm
      intro Qs e ex hQ hW he hex d hd i hi
      obtain ⟨q1, q2, q3⟩ := query_row hQ hd hi
      have hin : InputsOK m.fk.D P (padded P Qs) := padded_inputs hQ hW
      rw [explained_fly hs h hm hc hsol hin (he _) (by rw [padded_lens]; omega), padded_lens] at hex
      rw [take q2 hex]
      rw [padded_lens] at q1
      rw [q1, q3]
      have e1 : m.fk.crossCov m.gp.Xs d (queryPoint P Qs d i) = m.fk.crossCov m.gp.Xs d (pad0 fun c : Fin P => queryPoint P Qs d i c) := by
        funext s; exact hcov _ _ _ _
      have e2 : (fun s => m.fk.cov d (ownerOf (m.gp.Xs.map Arr2.rows) s) (queryPoint P Qs d i) (rowPoint m.gp.Xs s)) =
          fun s => m.fk.cov d (ownerOf (m.gp.Xs.map Arr2.rows) s) (pad0 fun c : Fin P => queryPoint P Qs d i c) (rowPoint m.gp.Xs s) := by
        funext s; exact hcov _ _ _ _
      rw [e1, e2]
    | precompute =>
      by_cases hg : ∃ g, m.fk.activeDims = [g] ∧ g.1 = List.range P
      · obtain ⟨g, hg, hg1⟩ := hg
        refine ⟨fun d x => ∑ j ∈ Finset.range (m.gridCols g), (if j / gridSize (m.axesOf g.1) = d then
          gridWeight (m.axesOf g.1) (coords g.1 (pad0 x)) (j % gridSize (m.axesOf g.1)) else 0) *
          ∑ l ∈ Finset.range (m.gridCols g), m.gridEntry g j l *
          ∑ s ∈ Finset.range m.n, interpOf g.1 (m.axesOf g.1) m.gp.Xs s l * (sol (vmk m.n fun s => m.gridCross g j s)).getD s 0, fun _ _ d => ?_, ?_⟩
        · refine continuous_finsetSum _ fun j _ => Continuous.mul ?_ continuous_const
          split_ifs
          · exact (contDiff_gridWeight _ (fun x => coords g.1 (pad0 x)) (fun c => contDiff_pad0 _) _).continuous
          · exact continuous_const
        intro Qs e ex hQ hW he hex d hd i hi
        obtain ⟨q1, q2, q3⟩ := query_row hQ hd hi
        rw [explained_pre hs h hm hc hsol (Xs := padded P Qs) hg hg1 (he _), padded_lens] at hex
        rw [take q2 hex]
        refine Finset.sum_congr rfl fun j _ => ?_
        congr 1
        unfold interpOf interpEntry
        beta_reduce
        rw [q1, q3, coords_eq h (by rw [hg]; simp) (hpad (queryPoint P Qs d i))]
        rfl
      · refine ⟨fun _ _ => 0, fun _ _ _ => continuous_const, ?_⟩
        intro Qs e ex hQ hW he hex d hd i hi
        exfalso
        obtain ⟨f1, f2⟩ := explained_pre_fails (sv := sv) h hm e (padded P Qs) (m.queryWs (padded P Qs))
        by_cases hl : m.fk.activeDims.length = 1
        · obtain ⟨g, hg'⟩ := List.length_eq_one_iff.1 hl
          rw [f2 g hg' fun h1 => hg ⟨g, hg', h1⟩] at hex
          cases hex
        · rw [f1 hl] at hex
          cases hex
  obtain ⟨E, hEc, hE⟩ := hE
  refine ⟨fun d x => m.meanWith k.approx.alpha d (pad0 x) * (normOf m.gp d).1 + (normOf m.gp d).2,
    fun d x => max 0 (m.fk.priorVar d (pad0 x) - E d x) * (normOf m.gp d).1 ^ 2, fun d => ?_, fun hi hx d => ?_, ?_⟩
  · refine ContDiff.add (ContDiff.mul ?_ contDiff_const) contDiff_const
    unfold LLGP.meanWith
    exact ContDiff.sum fun s _ => (contDiff_skiCov _ _ _ _ _ _ (fun c => contDiff_pad0 c) _).mul contDiff_const
  · refine Continuous.mul (continuous_const.max (Continuous.sub ?_ (hEc hi hx d))) continuous_const
    unfold FK.priorVar
    exact (continuous_cov hi _ _ _ _ (fun c => (contDiff_pad0 c).continuous) fun c => (contDiff_pad0 c).continuous).add continuous_const
  intro Qs e r hQ hW he hr d hd i hi
  obtain ⟨-, ex, h1, h2⟩ := predict_back (⟨hs, h, hc, hQ, hW⟩ : Asked sv m P k Qs) hr
  obtain ⟨a1, a2⟩ := h2.entry d hd i hi
  rw [a1, a2, hE Qs e ex hQ hW he h1 d hd i hi, hmean, hprior]
  exact ⟨rfl, rfl⟩

end Verif
