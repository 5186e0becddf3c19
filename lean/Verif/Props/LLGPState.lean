import Verif.Proofs.LLGPAnyState
import Verif.Proofs.LLGPMixed
import Verif.Proofs.SkiPsd
import Verif.Props.LLGPPredict

/-! C43 in every state, C48 to C50, C69 and C70: what programs with any number of models observe. -/

namespace Verif

open Matrix

/-- what the operations of a program return or raise, with the caches -/
noncomputable def results (sv : Solvers) (ops : List Op) : List (Except PyErr Answer) := (history true sv ops World.start).1

/-- the models after a program, by order of creation -/
noncomputable def modelsAfter (sv : Solvers) (ops : List Op) : ℕ → Option LLGP := (history true sv ops World.start).2.heap

theorem results_append (sv : Solvers) (ops ops' : List Op) : results sv (ops ++ ops') = results sv ops ++ (history true sv ops' (history true sv ops World.start).2).1 := by
  unfold results
  rw [history_append]

theorem results_one (sv : Solvers) (ops : List Op) (op : Op) :
    results sv (ops ++ [op]) = results sv ops ++ [(execOp true sv op (history true sv ops World.start).2).1] := results_append sv ops [op]

theorem caches_after {sv : Solvers} {ops : List Op} (hw : ∀ op ∈ ops, op.Works) : CachesOK sv (history true sv ops World.start).2 :=
  (history_agree sv true true ops hw World.start (cachesOK_empty rfl)).2

/-! ### C43 -/

/-- C43 in every state: whatever a program did before, successfully or not, to this or other models, if `predict` returns then it returns one mean
and one non-negative variance per query point. -/
theorem C43_any_state (sv : Solvers) (ops : List Op) (i : ℕ) (Qs : List (NDArr ℝ)) (e : Env) (a : Answer)
    (h : results sv (ops ++ [.ask i (.predict Qs) e]) = results sv ops ++ [.ok a]) : ∃ r, a = .predicted r ∧ PredictionFits r (queryLens Qs) := by
  rw [results_one] at h
  have h := List.append_cancel_left h
  simp only [List.cons.injEq, and_true] at h
  rcases hx : execOp true sv (.ask i (.predict Qs) e) (history true sv ops World.start).2 with ⟨r, w'⟩
  rw [hx] at h
  simp only at h
  subst h
  exact askPredict_fits (AllMade.history ops allMade_start) hx

/-! ### C48 -/

/-- C48: for every program the class-level caches make no difference to anything any operation returns or raises. -/
theorem C48_caches (sv : Solvers) (ops : List Op) (hw : ∀ op ∈ ops, op.Works) :
    (history true sv ops World.start).1 = (history false sv ops World.start).1 ∧ (history true sv ops World.start).2.heap = (history false sv ops World.start).2.heap := by
  rw [(history_agree sv true false ops hw World.start (cachesOK_empty rfl)).1]
  exact ⟨rfl, rfl⟩

/-- C48: a question (a prediction, quantiles, the covariance, the likelihood or a part of it) after any program, interrupted updates included, is
answered with the computation `LLGP.answer`, which reads nothing but the attributes of the model it is asked of; asking changes no model. (The
kernel is missing only if the update in the constructor raised: then the program has no reference to the object.) -/
theorem C48_answers (sv : Solvers) (ops : List Op) (hw : ∀ op ∈ ops, op.Works) (i : ℕ) (m : LLGP) (hm : modelsAfter sv ops i = some m) (hk : m.kernel ≠ none)
    (q : Query) (e : Env) (he : e.Works) :
    results sv (ops ++ [.ask i q e]) = results sv ops ++ [m.answer sv e q] ∧ modelsAfter sv (ops ++ [.ask i q e]) = modelsAfter sv ops := by
  obtain ⟨k, hk⟩ := Option.ne_none_iff_exists'.1 hk
  obtain ⟨c, hc⟩ := ask_answer (caches_after hw) he hm hk q
  have hx : execOp true sv (.ask i q e) (history true sv ops World.start).2 = (m.answer sv e q, { (history true sv ops World.start).2 with caches := c }) := hc
  constructor
  · rw [results_one, hx]
  · unfold modelsAfter
    rw [history_append]
    show (execOp true sv (.ask i q e) (history true sv ops World.start).2).2.heap = _
    rw [hx]

/-- C48: after a program whose updates completed, the parameters of a model are the last ones it was given, its other attributes are those its
constructor computed from its arguments, and its operators and linear solve are those for these parameters. -/
theorem C48_current (sv : Solvers) (ops : List Op) (hw : ∀ op ∈ ops, op.Works) (hc : Completed (trace sv ops)) (i : ℕ) (m : LLGP)
    (hm : modelsAfter sv ops i = some m) :
    ∃ a given m₀ k, setUp i none (trace sv ops) = some (a, given) ∧ llgpInit a = .ok m₀ ∧ m.fk = given.getD m₀.fk ∧
      m.gp = m₀.gp ∧ m.grids = m₀.grids ∧ m.prediction = m₀.prediction ∧ m.nIt = m₀.nIt ∧ m.tol = m₀.tol ∧ m.Current sv k := by
  have h := settled_history ops hw (settled_start sv i) hc
  obtain ⟨k, hk⟩ := h.current i m hm
  obtain ⟨a, o, m₀, h1, h2, h3, h4, -⟩ := h.present m hm
  refine ⟨a, o, m₀, k, h1, h2, h3, ?_⟩
  simp only [LLGP.core, LLGP.mk.injEq, and_true, true_and] at h4
  obtain ⟨p1, p2, p3, p4, p5⟩ := h4
  exact ⟨p1, p2, p3, p4, p5, hk⟩

/-- C48: two programs, whatever else they did in between and with other models, that made a model with the same arguments and last gave it the same
parameters get the same answers from it. The second can be the one that just makes the model and sets the parameters. -/
theorem C48_fresh (sv : Solvers) (ops ops' : List Op) (hw : ∀ op ∈ ops, op.Works) (hw' : ∀ op ∈ ops', op.Works) (hc : Completed (trace sv ops))
    (hc' : Completed (trace sv ops')) (i i' : ℕ) (a : LLGPArgs) (given : Option FK) (h : setUp i none (trace sv ops) = some (a, given))
    (h' : setUp i' none (trace sv ops') = some (a, given)) (q : Query) (e : Env) (he : e.Works) :
    ∃ x, results sv (ops ++ [.ask i q e]) = results sv ops ++ [x] ∧ results sv (ops' ++ [.ask i' q e]) = results sv ops' ++ [x] := by
  have get : ∀ {ops : List Op} {i : ℕ}, (∀ op ∈ ops, op.Works) → Completed (trace sv ops) → setUp i none (trace sv ops) = some (a, given) →
      ∃ m, modelsAfter sv ops i = some m := by
    intro ops i hw hc h
    cases hm : modelsAfter sv ops i with
    | none =>
      have := (settled_history ops hw (settled_start sv i) hc).absent hm
      change setUp i none (trace sv ops) = none at this
      rw [h] at this
      cases this
    | some m => exact ⟨m, rfl⟩
  obtain ⟨m, hm⟩ := get hw hc h
  obtain ⟨m', hm'⟩ := get hw' hc' h'
  obtain ⟨a₁, g₁, m₁, k₁, e1, e2, e3, f1, f2, f3, f4, f5, f6⟩ := C48_current sv ops hw hc i m hm
  obtain ⟨a₂, g₂, m₂, k₂, b1, b2, b3, c1, c2, c3, c4, c5, c6⟩ := C48_current sv ops' hw' hc' i' m' hm'
  rw [h] at e1
  cases e1
  rw [h'] at b1
  cases b1
  rw [e2] at b2
  cases b2
  refine ⟨m.answer sv e q, (C48_answers sv ops hw i m hm (by rw [f6.kernel]; simp) q e he).1, ?_⟩
  rw [(C48_answers sv ops' hw' i' m' hm' (by rw [c6.kernel]; simp) q e he).1]
  congr 2
  refine answer_congr c6 f6 ?_ e q
  simp only [LLGP.core, LLGP.mk.injEq, and_true]
  exact ⟨c1.trans f1.symm, b3.trans e3.symm, c2.trans f2.symm, c3.trans f3.symm, c4.trans f4.symm, c5.trans f5.symm⟩

/-! ### C50 -/

/-- C50: after a program whose updates completed, each of the five series of a model made with metrics has one entry per update since the last
`optimize` (or, if there was none, since it was made, which counts as one); a model made without metrics keeps none. -/
theorem C50_metrics (sv : Solvers) (ops : List Op) (hw : ∀ op ∈ ops, op.Works) (hc : Completed (trace sv ops)) (i : ℕ) (a : LLGPArgs) (given : Option FK)
    (hs : setUp i none (trace sv ops) = some (a, given)) :
    ∃ m, modelsAfter sv ops i = some m ∧ (a.metrics = false → m.metrics = none) ∧
      (a.metrics = true → ∃ x, m.metrics = some x ∧ x.AllHave (updatesSince i 0 (trace sv ops))) := by
  have h := settled_history ops hw (settled_start sv i) hc
  cases hm : modelsAfter sv ops i with
  | none =>
    have := h.absent hm
    change setUp i none (trace sv ops) = none at this
    rw [hs] at this
    cases this
  | some m =>
    obtain ⟨a', o, m₀, h1, -, -, -, h5⟩ := h.present m hm
    change setUp i none (trace sv ops) = _ at h1
    rw [hs] at h1
    cases h1
    refine ⟨m, rfl, fun ha => ?_, fun ha => ?_⟩
    · rw [ha] at h5
      exact Option.isSome_eq_false_iff.1 h5 |> Option.isNone_iff_eq_none.1
    · rw [ha] at h5
      obtain ⟨x, hx⟩ := Option.isSome_iff_exists.1 h5
      exact ⟨x, hx, h.count m x hm hx⟩

/-! ### C69 -/

/-- C69: constructing a model with documented arguments, when nothing interrupts it, does not raise. (If metrics or debug logging are on the exact
likelihood is computed too, so its covariance has to be positive definite; C36: it is for sound parameters.) -/
theorem C69_new (sv : Solvers) (hs : sv.Fit) (ops : List Op) (a : LLGPArgs) (P : ℕ) (fk fk' : FK) (hP : 0 < P) (hd : a.Documented P fk) (hn : 0 < a.traceIterations)
    (hf : fk.setInputDim P = .ok fk') (e : Env) (he : e.Calm) (hp : (e.debug = true ∨ a.metrics = true) → (fk'.covMat (padded P a.Xs)).PosDef) :
    ∃ i m k, results sv (ops ++ [.new a e]) = results sv ops ++ [.ok (.model i)] ∧ modelsAfter sv (ops ++ [.new a e]) i = some m ∧ m.OK P ∧ m.fk = fk' ∧
      m.Current sv k := by
  obtain ⟨m, k, c, h1, h2, h3, h4, h5⟩ := new_completes hs hP hd hn hf he hp true (history true sv ops World.start).2
  refine ⟨(history true sv ops World.start).2.next, m, k, by rw [results_one, h1], ?_, h2, h3, h5⟩
  unfold modelsAfter
  rw [history_append]
  show (execOp true sv (.new a e) (history true sv ops World.start).2).2.heap _ = _
  rw [h1]
  exact if_pos rfl

/-- C69: giving a model other valid parameter values, when nothing interrupts it, does not raise, in any state of the model. -/
theorem C69_set (sv : Solvers) (hs : sv.Fit) (ops : List Op) (i : ℕ) (m : LLGP) (hm : modelsAfter sv ops i = some m) (P : ℕ) (h : m.OK P) (hn : 0 < m.nIt) (fk' : FK)
    (hr : m.fk.Retuned fk') (e : Env) (he : e.Calm) (hp : (e.debug = true ∨ m.metrics ≠ none) → (fk'.covMat m.gp.Xs).PosDef) :
    ∃ m' k, results sv (ops ++ [.set i fk' e]) = results sv ops ++ [.ok .unit] ∧ modelsAfter sv (ops ++ [.set i fk' e]) i = some m' ∧ m'.OK P ∧ m'.fk = fk' ∧
      m'.Current sv k := by
  obtain ⟨m', k, c, h1, h2, h3, h4, h5, -⟩ := set_completes hs h hr hn he hp true hm
  refine ⟨m', k, by rw [results_one, h1], ?_, h2, h3, h5⟩
  unfold modelsAfter
  rw [history_append]
  show (execOp true sv (.set i fk' e) (history true sv ops World.start).2).2.heap _ = _
  rw [h1]
  exact if_pos rfl

/-- C69: in a whole program that uses its models as documented no constructor, parameter change or `optimize` raises, and afterwards every model is
up to date. -/
theorem C69_valid_program (sv : Solvers) (hs : sv.Fit) (ops : List Op) (hv : ValidFrom [] ops) :
    Completed (trace sv ops) ∧ ∀ i m, modelsAfter sv ops i = some m → ∃ P k, m.OK P ∧ m.Current sv k ∧ m.fk.Sound := by
  obtain ⟨h1, -, fks, h3⟩ := healthy_history hs ops [] World.start (healthy_start sv) hv
  refine ⟨h1, fun i m hm => ?_⟩
  obtain ⟨P, k, q1, -, q3, q4⟩ := h3.at hm
  exact ⟨P, k, q1, q3, q4⟩

/-! ### C70 -/

/-- C70: for sound parameters the covariance of the observations that the interpolated model solves with is symmetric positive definite (so the
solution is unique, and the conjugate gradient method applies). -/
theorem C70_interpolated_posDef (m : LLGP) (P : ℕ) (h : m.OK P) (hs : m.fk.Sound) (hn : ∀ ad ∈ m.fk.activeDims.map Prod.fst, ad.Nodup) :
    (m.fk.skiMat m.axesOf m.fk.extraOf m.gp.Xs).PosDef := h.ski_posDef hs hn

/-- C70: and this is the operator of the likelihood object of an up-to-date model. -/
theorem C70_operator (sv : Solvers) (hs : sv.Fit) (m : LLGP) (P : ℕ) (h : m.OK P) (k : LLKernel) (hk : m.Current sv k) :
    SquareOp k.approx.K m.n (m.fk.skiFull m.axesOf m.fk.extraOf m.gp.Xs) := (current_facts hs h hk).1

/-! ### C49 -/

/-- C49 does not hold: take any program that uses its models as documented, and a model in `'exact'` mode. If ctrl-C (or lack of memory) hits a change of
its parameters before the new kernel is in place and the program catches it, later predictions return the means of the old parameters with the
variances of the new ones, without an error. -/
theorem C49_mixes (sv : Solvers) (hs : sv.Fit) (ops : List Op) (hv : ValidFrom [] ops) (i : ℕ) (m : LLGP) (hm : modelsAfter sv ops i = some m)
    (hx : m.prediction = .exact) (fk' : FK) (hr : m.fk.Retuned fk') (hsd : fk'.Sound) (e : Env) (he : e.Works) (j : ℕ) (hj : j < 3) (hi : e.interrupt = some j)
    (e' : Env) (he' : e'.Calm) (Qs : List (NDArr ℝ)) (hQ : QueriesOK m.fk.D m.gp.inputDim Qs) (hW : ∀ Q ∈ Qs, Q.WF) (eq : Env) (heq : eq.Works) :
    ∃ old new : Predicted,
      results sv (ops ++ [.ask i (.predict Qs) eq]) = results sv ops ++ [.ok (.predicted old)] ∧
      results sv (ops ++ [.set i fk' e', .ask i (.predict Qs) eq]) = results sv ops ++ [.ok .unit, .ok (.predicted new)] ∧
      results sv (ops ++ [.set i fk' e, .ask i (.predict Qs) eq]) = results sv ops ++ [.error .keyboardInterrupt, .ok (.predicted (old.1, new.2))] := by
  obtain ⟨h1, hw, fks, h3⟩ := healthy_history hs ops [] World.start (healthy_start sv) hv
  obtain ⟨P, k, ok, hn, hk, hsound⟩ := h3.at hm
  have hP : m.gp.inputDim = P := ok.inputDim
  rw [hP] at hQ
  -- the old predictions
  obtain ⟨old, o1, -⟩ := C45_exact sv m P k Qs ⟨hs, ok, hk, hQ, hW⟩ eq hx hsound
  -- the new predictions
  obtain ⟨m', k', c, s1, s2, s3, s4, s5, s6, s7, s8⟩ := set_completes hs ok hr hn he' (fun _ => sound_posDef (ok.retuned hr) hsd) true hm
  have hx' : m'.prediction = .exact := s8.trans hx
  obtain ⟨new, n1, -⟩ := C45_exact sv m' P k' Qs ⟨hs, s2, s5, by rw [s3, hr.outputs]; exact hQ, hW⟩ eq hx' (by rw [s3]; exact hsd)
  -- the interrupted update
  obtain ⟨w3, m3, t1, t2, t3⟩ := interrupted_set hs he hj hi ok hr hm true
  have t3' := t3
  simp only [LLGP.core, LLGP.mk.injEq, and_true] at t3'
  obtain ⟨g1, g2, g3, g4, g5, g6, -, g7⟩ := t3'
  have works : ∀ (x : Env), x.Works → ∀ op ∈ ops ++ [Op.set i fk' x], op.Works := by
    intro x hx op ho
    rcases List.mem_append.1 ho with ho | ho
    · exact hw op ho
    · rw [List.mem_singleton.1 ho]
      intro e'' he''
      cases he''
      exact hx
  have after : ∀ (x : Env), modelsAfter sv (ops ++ [.set i fk' x]) = (execOp true sv (.set i fk' x) (history true sv ops World.start).2).2.heap := by
    intro x
    unfold modelsAfter
    rw [history_append]
    rfl
  refine ⟨old, new, ?_, ?_, ?_⟩
  · rw [(C48_answers sv ops hw i m hm (by rw [hk.kernel]; simp) _ eq heq).1]
    unfold LLGP.answer
    simp only
    rw [o1]
    rfl
  · have hm' : modelsAfter sv (ops ++ [.set i fk' e']) i = some m' := by
      rw [after, s1]
      exact if_pos rfl
    rw [show ops ++ [Op.set i fk' e', .ask i (.predict Qs) eq] = (ops ++ [.set i fk' e']) ++ [.ask i (.predict Qs) eq] by simp,
      (C48_answers sv _ (works e' he'.1) i m' hm' (by rw [s5.kernel]; simp) _ eq heq).1, results_one, s1]
    unfold LLGP.answer
    simp only
    rw [n1]
    simp [Except.map]
  · have hm3 : modelsAfter sv (ops ++ [.set i fk' e]) i = some m3 := by
      rw [after, t1]
      exact t2
    rw [show ops ++ [Op.set i fk' e, .ask i (.predict Qs) eq] = (ops ++ [.set i fk' e]) ++ [.ask i (.predict Qs) eq] by simp,
      (C48_answers sv _ (works e he) i m3 hm3 (by rw [g7, hk.kernel]; simp) _ eq heq).1, results_one, t1,
      answer_mix g3 s7 g1 s6 g7 (g2.trans s3.symm) (by rw [g2]; exact hr.groups) hx' (g4.trans hx) o1 n1]
    simp

/-- C49, what holds: if nothing from outside hits the change before the new kernel is in place, the model is up to date afterwards even if the change
raised later (for example because the exact covariance is not positive definite when metrics are on), so nothing is mixed.
Missing: interruptions before that, where C49 is false (`C49_mixes`). -/
theorem C49_refreshed_partial (sv : Solvers) (hs : sv.Fit) (ops : List Op) (i : ℕ) (m : LLGP) (hm : modelsAfter sv ops i = some m) (P : ℕ) (h : m.OK P) (fk' : FK)
    (hr : m.fk.Retuned fk') (e : Env) (he : e.Works) (hi : ∀ k < 3, e.interrupt ≠ some k) :
    ∃ m' k, modelsAfter sv (ops ++ [.set i fk' e]) i = some m' ∧ m'.fk = fk' ∧ m'.Current sv k := by
  obtain ⟨m', k, h1, h2, h3⟩ := set_refreshes hs he hi h hr hm true
  refine ⟨m', k, ?_, (core_parts (m := { m with fk := fk' }) h3).2.1, h2⟩
  unfold modelsAfter
  rw [history_append]
  exact h1

/-- C49, what holds: whatever happened before, after a parameter change that completed the model is up to date. -/
theorem C49_recovers_partial (sv : Solvers) (ops : List Op) (i : ℕ) (fk' : FK) (e : Env) (he : e.Works) (a : Answer)
    (h : results sv (ops ++ [.set i fk' e]) = results sv ops ++ [.ok a]) :
    ∃ m k, modelsAfter sv (ops ++ [.set i fk' e]) i = some m ∧ m.fk = fk' ∧ m.Current sv k := by
  rw [results_one] at h
  have h := List.append_cancel_left h
  simp only [List.cons.injEq, and_true] at h
  unfold modelsAfter
  rw [history_append]
  show ∃ m k, (execOp true sv (.set i fk' e) (history true sv ops World.start).2).2.heap i = some m ∧ _
  generalize (history true sv ops World.start).2 = w at h ⊢
  rcases hx : execOp true sv (.set i fk' e) w with ⟨r, w'⟩
  rw [hx] at h
  simp only at h
  subst h
  unfold execOp at hx
  simp only at hx
  rw [py_bind_ok] at hx
  obtain ⟨_, w1, x1, hx⟩ := hx
  rw [py_bind_ok] at hx
  obtain ⟨_, w2, x2, hx⟩ := hx
  obtain ⟨-, rfl⟩ := Prod.mk.inj hx
  cases hm : w.heap i with
  | none =>
    exfalso
    obtain ⟨-, rfl⟩ := Prod.mk.inj x1
    unfold parametersChanged at x2
    rw [py_bind_ok] at x2
    obtain ⟨_, w3, x3, x2⟩ := x2
    obtain ⟨-, rfl⟩ := Prod.mk.inj x3
    rw [py_bind_ok] at x2
    obtain ⟨_, w4, x4, x2⟩ := x2
    unfold replaceKernel at x4
    rw [py_bind_ok] at x4
    obtain ⟨_, w5, x5, -⟩ := x4
    unfold Verif.self at x5
    simp only [if_true, hm, Option.map_none] at x5
    cases (Prod.mk.inj x5).1
  | some m =>
    rw [modify_run hm] at x1
    obtain ⟨-, rfl⟩ := Prod.mk.inj x1
    obtain ⟨m', k, c, g1, g2, g3, -⟩ := update_complete he (put_heap _ _ _) x2
    refine ⟨m', k, ?_, (core_parts (m := { m with fk := fk' }) g3).2.1, g2⟩
    rw [g1]
    exact if_pos rfl

end Verif
