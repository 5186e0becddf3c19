import Verif.Proofs.Unseen
import Verif.Props.LLGPViolated
import Verif.Props.Pointwise

/-!
C100: random numbers, worker pools, logging and diagnostics do not influence answers.
-/

namespace Verif

/-- C100: take a program that uses its models as documented and run it again with other random numbers, another worker pool or none, debug logging switched on or off at any
point, metrics recorded or not and other numbers of trace iterations. Every operation of the second run returns or raises what it did in the first: every prediction, quantile,
covariance matrix and likelihood is the same. (For every solver, exact or not, and every prediction mode; wrong questions included. Only the gradients and the
metrics differ.) -/
theorem C100_rerun (sv : Solvers) (hs : sv.Fit) (ops ops' : List Op) (hv : ValidFrom [] ops) (h : List.Forall₂ Op.Rerun ops ops') : results sv ops' = results sv ops :=
  rerun_history hs h (healthy_start sv) (healthy_start sv) (cachesOK_empty rfl) (cachesOK_empty rfl) hv (rerun_valid h [] hv)
    ⟨rfl, fun _ _ => rfl, (fun _ _ h => by cases h)⟩

/-- C100 for one model: two programs, whatever else they did, that made a model with the same arguments except for the metrics and the number of trace iterations, and last gave
it the same parameters, get the same answer to every question, whatever the random numbers, pools and logging were. -/
theorem C100_model (sv : Solvers) (hs : sv.Fit) (ops ops' : List Op) (hv : ValidFrom [] ops) (hv' : ValidFrom [] ops') (i i' : ℕ) (a a' : LLGPArgs) (given : Option FK)
    (h : setUp i none (trace sv ops) = some (a, given)) (h' : setUp i' none (trace sv ops') = some (a', given)) (ha : a.SameModel a') (q : Query) (e e' : Env)
    (he : e.Works) (he' : e'.Works) :
    ∃ x, results sv (ops ++ [.ask i q e]) = results sv ops ++ [x] ∧ results sv (ops' ++ [.ask i' q e']) = results sv ops' ++ [x] := by
  have get : ∀ {ops : List Op} {i : ℕ} {s : LLGPArgs × Option FK}, ValidFrom [] ops → setUp i none (trace sv ops) = some s → ∃ m, modelsAfter sv ops i = some m := by
    intro ops i s hv h
    cases hm : modelsAfter sv ops i with
    | none =>
      have := (settled_history ops (validFrom_works ops [] hv) (settled_start sv i) (C69_valid_program sv hs ops hv).1).absent hm
      change setUp i none (trace sv ops) = none at this
      rw [h] at this
      cases this
    | some m => exact ⟨m, rfl⟩
  obtain ⟨m, hm⟩ := get hv h
  obtain ⟨m', hm'⟩ := get hv' h'
  obtain ⟨c1, c2⟩ := C69_valid_program sv hs ops hv
  obtain ⟨c1', c2'⟩ := C69_valid_program sv hs ops' hv'
  obtain ⟨P, -, ok, -, -⟩ := c2 i m hm
  obtain ⟨a₁, g₁, m₁, k₁, e1, e2, e3, f1, f2, f3, -, f5, f6⟩ := C48_current sv ops (validFrom_works ops [] hv) c1 i m hm
  obtain ⟨a₂, g₂, m₂, k₂, b1, b2, b3, d1, d2, d3, -, d5, d6⟩ := C48_current sv ops' (validFrom_works ops' [] hv') c1' i' m' hm'
  rw [h] at e1
  cases e1
  rw [h'] at b1
  cases b1
  obtain ⟨v1, v2, v3, v4, v5⟩ := init_same ha e2 b2
  refine ⟨m.answer sv e q, (C48_answers sv ops (validFrom_works ops [] hv) i m hm (by rw [f6.kernel]; simp) q e he).1, ?_⟩
  rw [(C48_answers sv ops' (validFrom_works ops' [] hv') i' m' hm' (by rw [d6.kernel]; simp) q e' he').1,
    answer_same hs ok f6 d6 (by rw [d1, f1, v1]) (by rw [b3, e3, v2]) (by rw [d2, f2, v3]) (by rw [d3, f3, v4]) (by rw [d5, f5, v5]) he he' q]

/-- C100, where documented use ends: giving a model other parameter values always succeeds without debug logging and metrics; with either of them on it succeeds exactly if the
exact covariance matrix is positive definite (they factor it). For parameters for which it is not, such as zero noise and repeated inputs, switching debug logging on makes the program
raise. -/
theorem C100_diagnostics (sv : Solvers) (hs : sv.Fit) (ops : List Op) (i : ℕ) (m : LLGP) (hm : modelsAfter sv ops i = some m) (P : ℕ) (h : m.OK P) (hn : 0 < m.nIt) (fk' : FK)
    (hr : m.fk.Retuned fk') (e : Env) (he : e.Calm) :
    (results sv (ops ++ [.set i fk' e]) = results sv ops ++ [.ok .unit]) ↔ ((e.debug = true ∨ m.metrics ≠ none) → (fk'.covMat m.gp.Xs).PosDef) := by
  rw [results_one, List.append_cancel_left_eq, List.cons.injEq]
  simp only [and_true]
  constructor
  · intro hx hd
    rcases hex : execOp true sv (.set i fk' e) (history true sv ops World.start).2 with ⟨r, w'⟩
    rw [hex] at hx
    simp only at hx
    subst hx
    unfold execOp at hex
    rw [py_bind_ok] at hex
    obtain ⟨_, w1, h1, hex⟩ := hex
    rw [modify_run hm] at h1
    obtain ⟨-, rfl⟩ := Prod.mk.inj h1
    rw [py_bind_ok] at hex
    obtain ⟨_, w3, h3, -⟩ := hex
    exact update_needs he.1 (h.retuned hr) (put_heap _ _ _) h3 hd
  · intro hp
    obtain ⟨m', k, c, h1, -⟩ := set_completes hs h hr hn he hp true hm
    rw [h1]

/-! ### examples -/

/-- a run with a pool of three workers that finish in reverse order, debug logging and other random bits -/
def noisy : Env := ⟨fun k i => (k + i) % 2 = 0, fun n => .pool 3 (List.range (nchunks n 3)).reverse, true, none⟩

theorem noisy_calm : noisy.Calm := ⟨fun n size schedule h => by
  change PoolArg.pool 3 _ = _ at h
  cases h
  exact ⟨by norm_num, List.reverse_perm _⟩, rfl⟩

/-- a program that is valid, and the other run of it -/
example : ∃ (fk : FK) (ops' : List Op), List.Forall₂ Op.Rerun [.new (tinyArgs fk) quiet, .ask 0 (.predict [⟨[2], [0, 3]⟩]) quiet, .optimize 0, .ask 7 .logDet quiet] ops' ∧
    ops' = [.new { tinyArgs fk with metrics := true, traceIterations := 3 } noisy, .ask 0 (.predict [⟨[2], [0, 3]⟩]) noisy, .optimize 0, .ask 7 .logDet noisy] ∧
    results exactSolvers ops' = results exactSolvers [.new (tinyArgs fk) quiet, .ask 0 (.predict [⟨[2], [0, 3]⟩]) quiet, .optimize 0, .ask 7 .logDet quiet] := by
  obtain ⟨fk, m, h1, h2, h3, h4⟩ := exists_tiny
  have hr : List.Forall₂ Op.Rerun [.new (tinyArgs fk) quiet, .ask 0 (.predict [⟨[2], [0, 3]⟩]) quiet, .optimize 0, .ask 7 .logDet quiet]
      [.new { tinyArgs fk with metrics := true, traceIterations := 3 } noisy, .ask 0 (.predict [⟨[2], [0, 3]⟩]) noisy, .optimize 0, .ask 7 .logDet noisy] :=
    .cons (.new ⟨rfl, rfl, rfl, rfl, rfl, rfl, rfl, rfl, rfl⟩ (by norm_num) noisy_calm) (.cons (.ask noisy_calm.1) (.cons .optimize (.cons (.ask noisy_calm.1) .nil)))
  exact ⟨fk, _, hr, rfl, C100_rerun _ exactSolvers_fit _ _
    ⟨1, fk, m.fk, by norm_num, h1, by show 0 < 15; norm_num, h2, h4.sound, quiet_calm, quiet_calm.1, quiet_calm.1, trivial⟩ hr⟩

/-- with a noise for which the prior variance of the first observation is zero an update raises exactly if debug logging is on -/
example : ∃ (a : LLGPArgs) (fk' : FK), results exactSolvers [.new a quiet, .set 0 fk' quiet] = [.ok (.model 0), .ok .unit] ∧
    results exactSolvers [.new a quiet, .set 0 fk' noisy] ≠ [.ok (.model 0), .ok .unit] := by
  obtain ⟨fk, m₀, h1, h2, h3, h4⟩ := exists_tiny
  have hv : ValidFrom [] [.new (tinyArgs fk) quiet] := ⟨1, fk, m₀.fk, by norm_num, h1, by show 0 < 15; norm_num, h2, h4.sound, quiet_calm, trivial⟩
  obtain ⟨m, k, c, e1, e2, e3, e4, e5⟩ := new_completes exactSolvers_fit (by norm_num) h1 (by show 0 < 15; norm_num) h2 quiet_calm
    (fun hd => by rcases hd with hd | hd <;> cases hd) true World.start
  obtain ⟨m₁, m₂, c', i1, -, i3, v1, v2, v3, v4, v5⟩ := new_model quiet_calm.1 e1
  have hm : modelsAfter exactSolvers [.new (tinyArgs fk) quiet] 0 = some m := by
    show (execOp true exactSolvers (.new (tinyArgs fk) quiet) World.start).2.heap 0 = _
    rw [e1]
    rfl
  have tm : Tiny m 1 0.1 := by
    obtain ⟨-, rfl⟩ : True ∧ m₁ = m₀ := ⟨trivial, Except.ok.inj (i1.symm.trans h3)⟩
    have : m₂ = m := by
      have := congrArg (fun w : World => w.heap 0) i3
      simp only [World.start] at this
      exact (Option.some.inj this).symm
    subst this
    exact h4.of_parts v1 v2 v3 v4
  set c := 0.1 - m.fk.fullCov m.gp.Xs 0 0 with hc
  have hr : m.fk.Retuned { m.fk with noise := [c] } := retuned_noise tm.ok.ready.wf tm.ok.ready.valid (by rw [tm.D]; rfl)
  have hres : results exactSolvers [.new (tinyArgs fk) quiet] = [.ok (.model 0)] := by
    show [(execOp true exactSolvers (.new (tinyArgs fk) quiet) World.start).1] = _
    rw [e1]
    rfl
  have hmet : m.metrics = none := by
    have htr : trace exactSolvers [.new (tinyArgs fk) quiet] = [(.new (tinyArgs fk) quiet, .ok (.model 0))] := by
      show [Op.new (tinyArgs fk) quiet].zip (results exactSolvers [.new (tinyArgs fk) quiet]) = _
      rw [hres]
      rfl
    obtain ⟨m', q1, q2, -⟩ := C50_metrics exactSolvers _ (validFrom_works _ [] hv) (C69_valid_program _ exactSolvers_fit _ hv).1 0 (tinyArgs fk) none (by rw [htr]; rfl)
    rw [hm] at q1
    cases q1
    exact q2 rfl
  have key : ∀ e : Env, e.Calm → (results exactSolvers [.new (tinyArgs fk) quiet, .set 0 { m.fk with noise := [c] } e] = [.ok (.model 0), .ok .unit] ↔
      ((e.debug = true ∨ m.metrics ≠ none) → (FK.covMat { m.fk with noise := [c] } m.gp.Xs).PosDef)) := fun e he => by
    rw [← C100_diagnostics exactSolvers exactSolvers_fit _ 0 m hm 1 tm.ok e4 _ hr e he, hres]
    rfl
  refine ⟨tinyArgs fk, { m.fk with noise := [c] }, (key quiet quiet_calm).2 fun hd => ?_, fun hx => ?_⟩
  · rcases hd with hd | hd
    · cases hd
    · exact absurd hmet hd
  · have hp := (key noisy noisy_calm).1 hx (.inl rfl)
    have hn : (m.gp.Xs.map Arr2.rows).sum = 2 := by rw [tm.xs]; rfl
    have := hp.diag_pos (i := ⟨0, by rw [hn]; norm_num⟩)
    have h0 : ownerOf (m.gp.Xs.map Arr2.rows) 0 = 0 := by rw [tm.xs]; simp [ownerOf]
    have e0 : FK.fullCov { m.fk with noise := [c] } m.gp.Xs 0 0 = m.fk.fullCov m.gp.Xs 0 0 - 0.1 + c := by
      unfold FK.fullCov
      simp only [h0, if_true, tm.noise]
      show FK.cov m.fk _ _ _ _ + c = _
      simp
    have e1 : FK.covMat { m.fk with noise := [c] } m.gp.Xs ⟨0, by rw [hn]; norm_num⟩ ⟨0, by rw [hn]; norm_num⟩ = FK.fullCov { m.fk with noise := [c] } m.gp.Xs 0 0 := rfl
    rw [e1, e0, hc] at this
    linarith

end Verif
