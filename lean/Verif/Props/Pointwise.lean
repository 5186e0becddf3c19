import Verif.Proofs.Pointwise

/-!
C80: a prediction for a point does not depend on the points it is asked with, on the order of the questions, or on the pool.
-/

namespace Verif
open Matrix

/-- C80: after an update, what `predict` returns for a point is a function of the output and the coordinates of the point alone. It does not depend on the
other points of the call, their number or order, the random numbers or the schedule of the pool. (For every solver, exact or not, and every prediction mode.) -/
theorem C80_pointwise (sv : Solvers) (hs : sv.Fit) (m : LLGP) (P : ℕ) (h : m.OK P) (k : LLKernel) (hc : m.Current sv k) :
    ∃ μ σ : ℕ → (Fin P → ℝ) → ℝ, ∀ (Qs : List (NDArr ℝ)) (e : Env) (r : Predicted), QueriesOK m.fk.D P Qs → (∀ Q ∈ Qs, Q.WF) → e.Works →
      m.gp.predict (m.rawPredict sv e) Qs = .ok r → ∀ d < m.fk.D, ∀ i < (queryLens Qs).getD d 0,
        (r.1.getD d []).getD i 0 = μ d (fun c => queryPoint P Qs d i c) ∧ (r.2.getD d []).getD i 0 = σ d (fun c => queryPoint P Qs d i c) := by
  obtain ⟨μ, σ, -, -, h'⟩ := pointwise_facts sv hs m P h k hc
  exact ⟨μ, σ, h'⟩

theorem validFrom_works : ∀ (ops : List Op) (fks : List FK), ValidFrom fks ops → ∀ op ∈ ops, op.Works
  | [], _, _, _, h => by simp at h
  | .new a e :: ops, fks, hv, op, ho => by
    obtain ⟨P, fk, fk', -, -, -, -, -, he, hv⟩ := hv
    rcases List.mem_cons.1 ho with rfl | ho
    · intro e' h'; cases h'; exact he.1
    · exact validFrom_works ops _ hv op ho
  | .set i f e :: ops, fks, hv, op, ho => by
    obtain ⟨fk, -, -, -, he, hv⟩ := hv
    rcases List.mem_cons.1 ho with rfl | ho
    · intro e' h'; cases h'; exact he.1
    · exact validFrom_works ops _ hv op ho
  | .optimize i :: ops, fks, hv, op, ho => by
    rcases List.mem_cons.1 ho with rfl | ho
    · intro e' h'; cases h'
    · exact validFrom_works ops _ hv op ho
  | .ask i q e :: ops, fks, hv, op, ho => by
    rcases List.mem_cons.1 ho with rfl | ho
    · intro e' h'; cases h'; exact hv.1
    · exact validFrom_works ops _ hv.2 op ho

/-- questions change no model -/
theorem heap_after_asks (sv : Solvers) : ∀ (asks : List Op) (w : World), (∀ op ∈ asks, ¬ op.Changes) → (∀ i m, w.heap i = some m → m.kernel ≠ none) →
    (history true sv asks w).2.heap = w.heap
  | [], _, _, _ => rfl
  | .new a e :: _, _, h, _ => absurd trivial (h (.new a e) List.mem_cons_self)
  | .set i fk e :: _, _, h, _ => absurd trivial (h (.set i fk e) List.mem_cons_self)
  | .optimize i :: _, _, h, _ => absurd trivial (h (.optimize i) List.mem_cons_self)
  | .ask i q e :: asks, w, h, hk => by
    have h1 : ∃ c, (execOp true sv (.ask i q e) w).2 = { w with caches := c } := OnlyCaches.ask true sv e i q w fun m hm => Option.ne_none_iff_exists'.1 (hk i m hm)
    obtain ⟨c, h1⟩ := h1
    show (history true sv asks (execOp true sv (.ask i q e) w).2).2.heap = w.heap
    rw [h1]
    exact heap_after_asks sv asks { w with caches := c } (fun op ho => h op (List.mem_cons_of_mem _ ho)) hk

/-- the answer to a question after a program and other questions is what `predict` returns on the model the program left -/
theorem program_predicts {sv : Solvers} (hs : sv.Fit) {ops : List Op} (hv : ValidFrom [] ops) {i : ℕ} {m : LLGP} (hm : modelsAfter sv ops i = some m) {asks : List Op}
    {Qs : List (NDArr ℝ)} {e : Env} {r : Predicted} (ha : ∀ op ∈ asks, ¬ op.Changes ∧ op.Works) (he : e.Works)
    (hr : results sv (ops ++ asks ++ [.ask i (.predict Qs) e]) = results sv (ops ++ asks) ++ [.ok (.predicted r)]) : m.gp.predict (m.rawPredict sv e) Qs = .ok r := by
  obtain ⟨hc, hall⟩ := C69_valid_program sv hs ops hv
  obtain ⟨P, k, hok, hcur, -⟩ := hall i m hm
  have hw : ∀ op ∈ ops, op.Works := validFrom_works ops [] hv
  have hmod : modelsAfter sv (ops ++ asks) = modelsAfter sv ops := by
    unfold modelsAfter
    rw [history_append]
    refine heap_after_asks sv asks _ (fun op ho => (ha op ho).1) fun j m' hm' => ?_
    obtain ⟨P', k', -, hcur', -⟩ := hall j m' hm'
    rw [hcur'.kernel]
    exact Option.some_ne_none _
  have hans := (C48_answers sv (ops ++ asks) (fun op ho => (List.mem_append.1 ho).elim (hw op) fun h => (ha op h).2) i m (by rw [hmod]; exact hm)
    (by rw [hcur.kernel]; exact Option.some_ne_none _) (.predict Qs) e he).1
  rw [hr] at hans
  have hp := List.append_cancel_left hans
  simp only [List.cons.injEq, and_true] at hp
  have hp : Except.ok (Answer.predicted r) = (m.gp.predict (m.rawPredict sv e) Qs).map .predicted := hp
  cases hx : m.gp.predict (m.rawPredict sv e) Qs with
  | error err => rw [hx] at hp; cases hp
  | ok r' => rw [hx] at hp; cases hp; rfl

/-- C80 for programs: after any program that uses its models as documented, the predictions of a model are a function of output and coordinates, whatever
other questions are asked before and together with it, to this or other models, and whatever the caches hold. -/
theorem C80_program (sv : Solvers) (hs : sv.Fit) (ops : List Op) (hv : ValidFrom [] ops) (i : ℕ) (m : LLGP) (hm : modelsAfter sv ops i = some m) :
    ∃ P, ∃ μ σ : ℕ → (Fin P → ℝ) → ℝ, m.gp.inputDim = P ∧ ∀ (asks : List Op) (Qs : List (NDArr ℝ)) (e : Env) (r : Predicted),
      (∀ op ∈ asks, ¬ op.Changes ∧ op.Works) → QueriesOK m.gp.outputDim P Qs → (∀ Q ∈ Qs, Q.WF) → e.Works →
      results sv (ops ++ asks ++ [.ask i (.predict Qs) e]) = results sv (ops ++ asks) ++ [.ok (.predicted r)] →
      ∀ d < m.gp.outputDim, ∀ j < (queryLens Qs).getD d 0,
        (r.1.getD d []).getD j 0 = μ d (fun c => queryPoint P Qs d j c) ∧ (r.2.getD d []).getD j 0 = σ d (fun c => queryPoint P Qs d j c) := by
  obtain ⟨hc, hall⟩ := C69_valid_program sv hs ops hv
  obtain ⟨P, k, hok, hcur, -⟩ := hall i m hm
  obtain ⟨μ, σ, hμ⟩ := C80_pointwise sv hs m P hok k hcur
  refine ⟨P, μ, σ, hok.inputDim, fun asks Qs e r ha hQ hW he hr d hd j hj => ?_⟩
  rw [hok.outputDim] at hQ hd
  exact hμ Qs e r hQ hW he (program_predicts hs hv hm ha he hr) d hd j hj

/-- asking for three points of two outputs together, or for one of them alone, gives the same mean and variance of that point, in every mode -/
example (mode : PredMode) (e e' : Env) (he : e.Works) (he' : e'.Works) : ∃ (m : LLGP) (r r' : Predicted), m.prediction = mode ∧
    m.gp.predict (m.rawPredict exactSolvers e) [⟨[1, 2], [0, 0]⟩, ⟨[2, 2], [0, 1, 1, 1]⟩] = .ok r ∧
    m.gp.predict (m.rawPredict exactSolvers e') [⟨[0, 2], []⟩, ⟨[1, 2], [1, 1]⟩] = .ok r' ∧
    (r.1.getD 1 []).getD 1 0 = (r'.1.getD 1 []).getD 0 0 ∧ (r.2.getD 1 []).getD 1 0 = (r'.2.getD 1 []).getD 0 0 := by
  obtain ⟨m, k, h1, h2, h3, -, h5⟩ := exists_asked mode
  have hQ : Asked exactSolvers m 2 k [⟨[0, 2], []⟩, ⟨[1, 2], [1, 1]⟩] := by
    refine ⟨h1.fit, h1.ok, h1.current, ⟨by rw [← h1.queries.1]; rfl, ?_⟩, ?_⟩
    · intro X hX
      simp only [List.mem_cons, List.not_mem_nil, or_false] at hX
      rcases hX with rfl | rfl
      · exact ⟨0, .inr rfl⟩
      · exact ⟨1, .inr rfl⟩
    · intro X hX
      simp only [List.mem_cons, List.not_mem_nil, or_false] at hX
      rcases hX with rfl | rfl <;> rfl
  have h6 : m.CanPredict 2 [⟨[0, 2], []⟩, ⟨[1, 2], [1, 1]⟩] := by
    unfold LLGP.CanPredict at h5 ⊢
    rw [h2] at h5 ⊢
    cases mode with
    | onTheFly => simp [queryLens]
    | precompute => exact h5
    | exact => exact h5
  obtain ⟨r, hr⟩ := (C43_returns _ m 2 k _ h1 e he).2.2 ⟨h3.plain, h5⟩
  obtain ⟨r', hr'⟩ := (C43_returns _ m 2 k _ hQ e' he').2.2 ⟨h3.plain, h6⟩
  obtain ⟨μ, σ, h7⟩ := C80_pointwise exactSolvers h1.fit m 2 h1.ok k h1.current
  have hD : (1 : ℕ) < m.fk.D := by rw [← h1.queries.1]; simp
  have a1 := h7 _ e r h1.queries h1.arrays he hr 1 hD 1 (by simp [queryLens])
  have a2 := h7 _ e' r' hQ.queries hQ.arrays he' hr' 1 hD 0 (by simp [queryLens])
  refine ⟨m, r, r', h2, hr, hr', ?_, ?_⟩
  · rw [a1.1, a2.1]
    congr 1
    funext c
    fin_cases c <;> simp [queryPoint]
  · rw [a1.2, a2.2]
    congr 1
    funext c
    fin_cases c <;> simp [queryPoint]

end Verif
