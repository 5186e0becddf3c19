import Verif.Spec.Search
import Verif.Props.Optimizer
import Verif.Props.Pointwise

/-! C129: `optimize` with any optimiser. -/

namespace Verif

/-- where a run stands: after the valid program `prog`, model `i` has parameters that differ from `fk₀` by what the optimiser set -/
structure Standing (sv : Solvers) (i : ℕ) (fk₀ : FK) (prog : List Op) : Prop where
  valid : ValidFrom [] prog
  self : ∃ m, modelsAfter sv prog i = some m ∧ fk₀.Like m.fk ∧ m.fk.Tunable

theorem standing_set {sv : Solvers} (hs : sv.Fit) {i : ℕ} {fk₀ : FK} {prog : List Op} (h : Standing sv i fk₀ prog) {e : Env} (he : e.Calm) {y : List ℝ}
    (hy : y.length = fk₀.slots.length) (hp : ∀ k ∈ (fk₀.setOptimizerArray y).kernels, k.PeriodOK) :
    ∃ m, Standing sv i fk₀ (prog ++ [.set i (fk₀.setOptimizerArray y) e]) ∧ modelsAfter sv (prog ++ [.set i (fk₀.setOptimizerArray y) e]) i = some m ∧
      m.fk = fk₀.setOptimizerArray y ∧ (∃ P k, m.OK P ∧ m.Current sv k ∧ m.fk.Sound) ∧
      ∃ m₀, (history true sv prog World.start).2.heap i = some m₀ ∧ m₀.fk.setOptimizerArray y = fk₀.setOptimizerArray y ∧
        parametersChanged true sv e i ((history true sv prog World.start).2.put i { m₀ with fk := fk₀.setOptimizerArray y }) =
          (.ok (), (history true sv (prog ++ [.set i (fk₀.setOptimizerArray y) e]) World.start).2) := by
  obtain ⟨m₀, hm₀, hl, ht⟩ := h.self
  obtain ⟨fks, hh, hext⟩ := valid_extend hs prog [] World.start (healthy_start sv) h.valid
  have hw : (history true sv (prog ++ [.set i (fk₀.setOptimizerArray y) e]) World.start).2 =
      (execOp true sv (.set i (fk₀.setOptimizerArray y) e) (history true sv prog World.start).2).2 := by rw [history_append]; rfl
  have hm₀ : (history true sv prog World.start).2.heap i = some m₀ := hm₀
  have hi := hh.listed hm₀
  obtain ⟨m₁, P, k, q1, q2, q3, q4, q5⟩ := hh.model i m₀.fk hi
  rw [hm₀] at q1
  cases q1
  have hso := hh.sound m₀.fk (List.mem_of_getElem? hi)
  have hset := hl.2 y hy
  obtain ⟨t1, t2, t3⟩ := tuned_valid q2.ready hso ht (by rw [hl.1]; exact hy) (by rw [hset]; exact hp)
  have ha := assign_set true sv e hm₀ y
  have hlike := fk₀.like_set hy
  clear hp h
  rw [hset] at t1 t2 t3 ha
  generalize fk₀.setOptimizerArray y = fk' at *
  have hpd : ((e.debug = true ∨ m₀.metrics ≠ none) → (fk'.covMat m₀.gp.Xs).PosDef) := fun _ => sound_posDef (q2.retuned t1) t2
  obtain ⟨m', k', c, h1, h2, h3, h4, h5, -⟩ := set_completes hs q2 t1 q4 he hpd true hm₀
  have hheap : (execOp true sv (.set i fk' e) (history true sv prog World.start).2).2.heap i = some m' := by rw [h1]; exact put_heap _ _ _
  have hone : (execOp true sv (.set i fk' e) (history true sv prog World.start).2).1 = .ok .unit := by rw [h1]
  have hm' : modelsAfter sv (prog ++ [.set i fk' e]) i = some m' := by
    unfold modelsAfter
    rw [hw]
    exact hheap
  have hv : ValidFrom [] (prog ++ [.set i fk' e]) := hext _ ⟨m₀.fk, hi, t1, t2, he, trivial⟩
  have hsd : m'.fk.Sound := h3.symm ▸ t2
  refine ⟨m', ⟨hv, m', hm', h3.symm ▸ hlike, h3.symm ▸ t3⟩, hm', h3, ⟨P, k', h2, h5, hsd⟩, m₀, hm₀, hset, ?_⟩
  rw [hw]
  refine Prod.ext ?_ ha.1.symm
  have h' := ha.2
  rw [hone] at h'
  clear ha hw h1 hheap hm'
  revert h'
  generalize (parametersChanged true sv e i ((history true sv prog World.start).2.put i { m₀ with fk := fk' })).1 = r
  cases r with
  | error _ => intro h; simp [Except.map] at h
  | ok v => intro _; rfl

theorem standing_eval {sv : Solvers} (hs : sv.Fit) {i : ℕ} {fk₀ : FK} {prog : List Op} (h : Standing sv i fk₀ prog) {e : Env} (he : e.Calm) {y : List ℝ}
    (hy : y.length = fk₀.slots.length) (hp : ∀ k ∈ (fk₀.setOptimizerArray y).kernels, k.PeriodOK) :
    ∃ m v, Standing sv i fk₀ (prog ++ [.set i (fk₀.setOptimizerArray y) e, .ask i .logLikelihood e]) ∧
      modelsAfter sv (prog ++ [.set i (fk₀.setOptimizerArray y) e]) i = some m ∧ m.fk = fk₀.setOptimizerArray y ∧
      Tells sv (prog ++ [.set i (fk₀.setOptimizerArray y) e]) i .logLikelihood e (.extended (some v)) ∧
      objGradsAt true sv e i y (history true sv prog World.start).2 =
        (.ok (-v, m.objectiveGrads), (history true sv (prog ++ [.set i (fk₀.setOptimizerArray y) e, .ask i .logLikelihood e]) World.start).2) := by
  obtain ⟨m, st, hm, hf, ⟨P, k, hok, hcur, hso⟩, m₀, hm₀, hset, hrun⟩ := standing_set hs h he hy hp
  have happ : prog ++ [.set i (fk₀.setOptimizerArray y) e, .ask i .logLikelihood e] = (prog ++ [.set i (fk₀.setOptimizerArray y) e]) ++ [.ask i .logLikelihood e] := by simp
  rw [happ]
  generalize prog ++ [.set i (fk₀.setOptimizerArray y) e] = prog' at *
  obtain ⟨l, hl, -⟩ := (C40_log_det m P hok).1 (sound_posDef hok hso)
  have hll := (C40_log_likelihood sv hs m P hok k hcur l hl).2
  generalize -(1 / 2 : ℝ) * (Real.log (m.fk.covMat m.gp.Xs).det + toVec m.n m.y ⬝ᵥ toVec m.n k.approx.alpha + m.n * Real.log (2 * Real.pi)) = v at hll
  have hans : m.answer sv e .logLikelihood = .ok (.extended (some v)) := by
    show (do let l ← m.dense; m.logLikelihoodOf l).map _ = _
    rw [hl]
    show (m.logLikelihoodOf l).map _ = _
    rw [hll]
    rfl
  have c48 := C48_answers sv prog' (validFrom_works prog' [] st.valid) i m hm (by rw [hcur.kernel]; simp) .logLikelihood e he.1
  have htell : Tells sv prog' i .logLikelihood e (.extended (some v)) := c48.1.trans (by rw [hans])
  obtain ⟨fks, hh, hext⟩ := valid_extend hs prog' [] World.start (healthy_start sv) st.valid
  have hask : execOp true sv (.ask i .logLikelihood e) (history true sv prog' World.start).2 =
      (.ok (.extended (some v)), (history true sv (prog' ++ [.ask i .logLikelihood e]) World.start).2) := by
    refine Prod.ext ?_ ?_
    · have := htell
      unfold Tells at this
      rw [results_one] at this
      exact (List.cons.inj (List.append_cancel_left this)).1
    · rw [history_append]
      rfl
  have hlik : logLikelihoodM true i (history true sv prog' World.start).2 = (.ok (some v), (history true sv (prog' ++ [.ask i .logLikelihood e]) World.start).2) := by
    have h' : (logLikelihoodM true i >>= fun l => (pure (Answer.extended l) : PyM Answer)) (history true sv prog' World.start).2 = _ := hask
    rw [py_bind] at h'
    revert h'
    generalize logLikelihoodM true i (history true sv prog' World.start).2 = r
    obtain ⟨r, w⟩ := r
    cases r with
    | error x => intro h'; cases (Prod.mk.inj h').1
    | ok l =>
      intro h'
      obtain ⟨h1, h2⟩ := Prod.mk.inj (show ((Except.ok (Answer.extended l), w) : Except PyErr Answer × World) = _ from h')
      cases h1
      exact Prod.ext rfl h2
  obtain ⟨m', hm', hl', ht'⟩ := st.self
  rw [hm] at hm'
  cases hm'
  have hm2 : modelsAfter sv (prog' ++ [.ask i .logLikelihood e]) i = some m := by rw [c48.2]; exact hm
  refine ⟨m, v, ⟨hext _ ⟨he.1, trivial⟩, m, hm2, hl', ht'⟩, hm, hf, htell, ?_⟩
  unfold objGradsAt
  rw [py_bind, modify_run hm₀]
  simp only
  rw [hset, py_bind, hrun]
  simp only
  rw [py_bind, hlik]
  simp only
  rw [py_bind, self_run hm2]
  simp only [Option.getD_some, add_zero]
  rfl

theorem search_loop {sv : Solvers} (hs : sv.Fit) {i : ℕ} {fk₀ : FK} {es : ℕ → Env} (hes : ∀ k, (es k).Calm) {c : Search} (hk : c.Keeps) {x : List ℝ} (hx : x.length = fk₀.slots.length)
    (hp : ∀ vs y, c.next x vs = some y → ∀ k ∈ (fk₀.setOptimizerArray y).kernels, k.PeriodOK) : ∀ (n : ℕ) (before : List (ℝ × List ℝ)) (prog : List Op), Standing sv i fk₀ prog →
    ∃ ys vs, searchLoop true sv es i c x n before (history true sv prog World.start).2 =
        (.ok (before ++ vs), (history true sv (prog ++ evaluations i fk₀ es before.length ys) World.start).2) ∧
      Standing sv i fk₀ (prog ++ evaluations i fk₀ es before.length ys) ∧ Told sv i fk₀ es c x prog before ys vs ∧ ys.length ≤ n ∧ (ys.length = n ∨ c.next x (before ++ vs) = none) := by
  intro n
  induction n with
  | zero =>
    intro before prog h
    refine ⟨[], [], ?_, by simpa [evaluations] using h, ⟨rfl, fun k hk => by simp at hk⟩, le_rfl, .inl rfl⟩
    simp only [evaluations, List.append_nil]
    rfl
  | succ n ih =>
    intro before prog h
    cases hn : c.next x before with
    | none =>
      refine ⟨[], [], ?_, by simpa [evaluations] using h, ⟨rfl, fun k hk => by simp at hk⟩, Nat.zero_le _, .inr (by simpa using hn)⟩
      simp only [evaluations, List.append_nil]
      unfold searchLoop
      rw [hn]
      rfl
    | some y =>
      obtain ⟨m, v, s1, s2, s3, s4, s5⟩ := standing_eval hs h (hes before.length) (((hk x before).1 y hn).trans hx) (hp _ _ hn)
      obtain ⟨ys, vs, r1, r2, ⟨r3, r4⟩, r5, r6⟩ := ih (before ++ [(-v, m.objectiveGrads)]) _ s1
      have hlen : (before ++ [(-v, m.objectiveGrads)]).length = before.length + 1 := by simp
      have hprog : ∀ zs, prog ++ [.set i (fk₀.setOptimizerArray y) (es before.length), .ask i .logLikelihood (es before.length)] ++ evaluations i fk₀ es (before.length + 1) zs =
          prog ++ evaluations i fk₀ es before.length (y :: zs) := by
        intro zs
        simp [evaluations]
      rw [hlen] at r1 r2 r4
      rw [hprog] at r1 r2
      refine ⟨y :: ys, (-v, m.objectiveGrads) :: vs, ?_, r2, ⟨by simp [r3], fun k hk => ?_⟩, by simpa using r5, ?_⟩
      · unfold searchLoop
        rw [hn]
        simp only
        rw [py_bind, s5]
        simp only
        rw [r1]
        simp
      · cases k with
        | zero =>
          refine ⟨by simpa using hn, m, v, ?_, s3, ?_, rfl⟩
          · simpa [evaluations] using s2
          · simpa [evaluations] using s4
        | succ k =>
          obtain ⟨a1, m', v', a2, a3, a4, a5⟩ := r4 k (by simpa using hk)
          rw [hprog, show before.length + 1 + k = before.length + (k + 1) by omega] at a2 a4
          refine ⟨?_, m', v', ?_, ?_, ?_, ?_⟩
          · simpa using a1
          · simpa using a2
          · simpa using a3
          · simpa using a4
          · simpa using a5
      · rcases r6 with r6 | r6
        · left
          simp [r6]
        · right
          simpa using r6

/-- C129: whatever optimiser is used, `optimize` on a model of a program that uses its models as documented returns, and does what the (valid) program does that evaluates the objective
at the points the optimiser asks for, and then assigns the one it returns. What the optimiser is told of a point is minus the answer of `log_likelihood()`, and the gradients, of the
model with the parameters of that point. It is asked for as many points as it likes, up to the bound on their number. -/
theorem C129_search (sv : Solvers) (hs : sv.Fit) (pre : List Op) (hv : ValidFrom [] pre) (i : ℕ) (m : LLGP) (hm : modelsAfter sv pre i = some m) (ht : m.fk.Tunable)
    (es : ℕ → Env) (hes : ∀ k, (es k).Calm) (c : Search) (hk : c.Keeps)
    (hp : ∀ vs y, c.next m.fk.optimizerArray vs = some y ∨ y = c.point m.fk.optimizerArray vs → ∀ k ∈ (m.fk.setOptimizerArray y).kernels, k.PeriodOK) (n : ℕ) :
    ∃ ys vs, let prog := pre ++ [.optimize i] ++ evaluations i m.fk es 0 ys ++ [.set i (m.fk.setOptimizerArray (c.point m.fk.optimizerArray vs)) (es ys.length)]
      searchM true sv es i c n (history true sv pre World.start).2 = (.ok (), (history true sv prog World.start).2) ∧
      ValidFrom [] prog ∧ Told sv i m.fk es c m.fk.optimizerArray (pre ++ [.optimize i]) [] ys vs ∧
      ys.length ≤ n ∧ (ys.length = n ∨ c.next m.fk.optimizerArray vs = none) ∧
      ∃ m', modelsAfter sv prog i = some m' ∧ m'.fk = m.fk.setOptimizerArray (c.point m.fk.optimizerArray vs) := by
  have hx : m.fk.optimizerArray.length = m.fk.slots.length := List.length_map _
  obtain ⟨fks, hh, hext⟩ := valid_extend hs pre [] World.start (healthy_start sv) hv
  have hm' : (history true sv pre World.start).2.heap i = some m := hm
  have hopt : (history true sv (pre ++ [.optimize i]) World.start).2 = (history true sv pre World.start).2.put i (m.withMetrics (m.metrics.map fun _ => Metrics.new)) := by
    rw [history_append]
    show (execOp true sv (.optimize i) _).2 = _
    unfold execOp
    simp only
    rw [py_bind, modify_run hm']
    rfl
  have hst : Standing sv i m.fk (pre ++ [.optimize i]) :=
    ⟨hext _ trivial, m.withMetrics (m.metrics.map fun _ => Metrics.new), by
      unfold modelsAfter
      rw [hopt]
      exact put_heap _ _ _, FK.Like.refl _, ht⟩
  obtain ⟨ys, vs, r1, r2, r3, r4, r5⟩ := search_loop hs hes hk hx (fun vs y h => hp vs y (.inl h)) n [] _ hst
  obtain ⟨m₁, s1, s2, s3, -, m₀, s4, s5, s6⟩ := standing_set hs r2 (hes ys.length) (((hk m.fk.optimizerArray vs).2).trans hx) (hp vs _ (.inr rfl))
  refine ⟨ys, vs, ?_, s1.valid, r3, r4, by simpa using r5, m₁, s2, s3⟩
  unfold searchM
  rw [py_bind, modify_run hm']
  simp only
  rw [← hopt, py_bind, self_run (m := m.withMetrics (m.metrics.map fun _ => Metrics.new)) (by rw [hopt]; exact put_heap _ _ _)]
  simp only
  show (searchLoop true sv es i c m.fk.optimizerArray n [] >>= _) _ = _
  rw [py_bind, r1]
  simp only [List.nil_append, List.length_nil]
  simp only [List.length_nil] at s4 s6
  rw [py_bind, modify_run s4]
  simp only
  rw [show (m.withMetrics (m.metrics.map fun _ => Metrics.new)).fk = m.fk from rfl, s5, r3.1]
  exact s6

/-- an optimiser that goes down along the gradient while the value improves -/
noncomputable def whileBetter : Search where
  next x vs := if vs.length < 2 ∨ (vs.getD (vs.length - 1) (0, [])).1 < (vs.getD (vs.length - 2) (0, [])).1 then
    some (vmk x.length fun j => x.getD j 0 - ((vs.map fun v => v.2.getD j 0).sum)) else none
  point x vs := vmk x.length fun j => x.getD j 0 - ((vs.map fun v => v.2.getD j 0).sum)

theorem whileBetter_keeps : whileBetter.Keeps := fun x vs => ⟨fun y h => by
  unfold whileBetter at h
  simp only at h
  split_ifs at h with h0
  obtain rfl := Option.some.inj h
  exact vmk_length _ _, vmk_length _ _⟩

/-- hypotheses of C129: such an optimiser, with at most a hundred evaluations, on a model of two correlated outputs; it is told at least one value -/
example (mode : PredMode) : ∃ (a : LLGPArgs) (m : LLGP) (ys : List (List ℝ)) (vs : List (ℝ × List ℝ)), exactSolvers.Fit ∧ ValidFrom [] [.new a quiet] ∧
    modelsAfter exactSolvers [.new a quiet] 0 = some m ∧ m.fk.D = 2 ∧ m.fk.Q = 2 ∧
    (searchM true exactSolvers (fun _ => quiet) 0 whileBetter 100 (history true exactSolvers [.new a quiet] World.start).2).1 = .ok () ∧
    Told exactSolvers 0 m.fk (fun _ => quiet) whileBetter m.fk.optimizerArray [.new a quiet, .optimize 0] [] ys vs ∧ 1 ≤ ys.length := by
  obtain ⟨a, m, hv, hm, ht, hap, hD, hQ, -⟩ := exists_tunable mode
  obtain ⟨ys, vs, h1, h2, h3, h4, h5, -⟩ := C129_search exactSolvers exactSolvers_fit _ hv 0 m hm ht (fun _ => quiet) (fun _ => quiet_calm) whileBetter whileBetter_keeps
    (fun _ y _ => periods_ok hap y) 100
  refine ⟨a, m, ys, vs, exactSolvers_fit, hv, hm, hD, hQ, by rw [h1], h3, ?_⟩
  by_contra h0
  have h0 : ys.length = 0 := by omega
  rcases h5 with h5 | h5
  · omega
  · have : vs.length = 0 := h3.1.trans h0
    simp [whileBetter, this] at h5

end Verif
