import Verif.Proofs.Units
import Verif.Proofs.Shift
import Verif.Props.LLGPViolated
import Verif.Props.SkiAccuracy

/-! C73 and C74: the units of the outputs and the origin of the inputs do not matter. -/

namespace Verif

/-- C73 `The units of the outputs do not matter`. Take any program that creates models with `normalize=True`, changes their parameters, optimises and asks
questions, under any solvers and with any interruptions. State all observations in other units (each output has its own factor and offset). Then every
operation has the same outcome, with predicted means, quantiles and variances in the new units; the log likelihood, the covariance and all exceptions are
unchanged. -/
theorem C73_units (sv : Solvers) (σ : Units) (hσ : σ.Positive) (ops : List Op) (h : ∀ op ∈ ops, op.Normalizes) :
    results sv (ops.map σ.op) = (results sv ops).map (Except.map σ.answer) := by
  refine results_units σ (history_sim (QR := Eq) (GR := UnitsRel σ) true sv ?_ start_rel)
  rw [List.forall₂_map_right_iff, List.forall₂_same]
  exact fun op hop => op_units σ hσ true sv op (h op hop)

/-- C74 `The origin of the inputs does not matter`. Take any program, under any solvers and with any interruptions. Move the training inputs of all models,
the bounds given for their grids and all query points by the same vector. Then every operation returns the same answer or raises the same exception. -/
theorem C74_origin (sv : Solvers) (t : ℕ → ℝ) (ops ops' : List Op) (h : List.Forall₂ (Op.Moved t) ops ops') : results sv ops' = results sv ops := by
  refine results_eq (history_sim (QR := MovedPoints t) (GR := MovedGP) true sv ?_ start_rel)
  exact h.imp fun op op' h => op_moved true sv h

/-- the program of the examples: a model of two outputs, whose parameters are changed, is asked for predictions, quantiles and its likelihood -/
theorem exists_symmetric (mode : PredMode) : ∃ (a : LLGPArgs) (fk : FK) (ops : List Op), a.prediction = mode.name ∧
    a.Xs = [⟨[2, 2], [0, 0, 1, 1]⟩, ⟨[2, 2], [0, 1, 1, 0]⟩] ∧ a.Ys = [⟨[2], [1, 3]⟩, ⟨[2], [5, 7]⟩] ∧ a.normalize = true ∧ a.lo = .none ∧ a.hi = .none ∧
    ops = [.new a quiet, .ask 0 (.predict exampleQueries) quiet, .set 0 fk quiet, .ask 0 (.quantiles exampleQueries [5, 95]) quiet, .ask 0 .logLikelihood quiet] ∧
    ValidFrom [] ops := by
  obtain ⟨fka, ⟨hk, hκ, hn, hD, hL, -⟩, hdoc⟩ := exists_documented_grid
  have hd := hdoc mode true none (by simp)
  obtain ⟨m, hi, hok, -, hsd, -⟩ := model_of_documented hd rfl rfl hk hκ hn hD rfl
  obtain ⟨m', fk', h1, h2, h3, h4, h5⟩ := llgpInit_documented hd (by norm_num)
  rw [hi] at h1
  cases h1
  obtain ⟨r1, r2⟩ := doubled_valid hok hsd
  rw [← h4] at h3
  exact ⟨_, doubled m.fk, _, rfl, rfl, rfl, rfl, rfl, rfl, rfl,
    2, fka, m.fk, by norm_num, hd, by norm_num, h3, hsd, quiet_calm, quiet_calm.1, m.fk, rfl, r1, r2, quiet_calm, quiet_calm.1, quiet_calm.1, trivial⟩

/-- C73 applies: from degrees Celsius to degrees Fahrenheit. The original program creates and changes its model successfully. -/
example (mode : PredMode) : ∃ ops : List Op, ops.length = 5 ∧ Completed (trace exactSolvers ops) ∧ (∀ op ∈ ops, op.Normalizes) ∧
    Units.Positive (fun _ => (9 / 5, 32)) ∧ ops.map (Units.op fun _ => (9 / 5, 32)) ≠ ops := by
  obtain ⟨a, fk, ops, -, -, hY, hn, -, -, rfl, hv⟩ := exists_symmetric mode
  refine ⟨_, rfl, (C69_valid_program exactSolvers exactSolvers_fit _ hv).1, ?_, fun _ => by norm_num, ?_⟩
  · intro op hop
    simp only [List.mem_cons, List.not_mem_nil, or_false] at hop
    rcases hop with rfl | rfl | rfl | rfl | rfl
    · refine ⟨hn, fun Y hY' => ?_⟩
      rw [hY] at hY'
      simp only [List.mem_cons, List.not_mem_nil, or_false] at hY'
      rcases hY' with rfl | rfl <;> simp
    all_goals trivial
  · intro h
    rw [List.map_cons, List.cons.injEq] at h
    have h := h.1
    simp only [Units.op, Op.new.injEq, and_true] at h
    have h : Units.data (fun _ => (9 / 5, 32)) a.Ys = a.Ys := congrArg LLGPArgs.Ys h
    rw [hY] at h
    norm_num [Units.data, Units.value] at h

/-- C74 applies to that program with everything moved by (5, -3). -/
example (mode : PredMode) : ∃ ops ops' : List Op, ops.length = 5 ∧ Completed (trace exactSolvers ops) ∧
    List.Forall₂ (Op.Moved fun c => if c = 0 then 5 else -3) ops ops' ∧ ops' ≠ ops := by
  obtain ⟨a, fk, ops, -, hX, -, -, hlo, hhi, rfl, hv⟩ := exists_symmetric mode
  have hq : ∀ Q ∈ exampleQueries, Q.WF := by
    intro Q hQ
    simp only [exampleQueries, List.mem_cons, List.not_mem_nil, or_false] at hQ
    rcases hQ with rfl | rfl <;> rfl
  refine ⟨_, [.new { a with Xs := a.Xs.map (NDArr.moved fun c => if c = 0 then 5 else -3) } quiet, .ask 0 (Query.moved (fun c => if c = 0 then 5 else -3) (.predict exampleQueries)) quiet, .set 0 fk quiet,
    .ask 0 (Query.moved (fun c => if c = 0 then 5 else -3) (.quantiles exampleQueries [5, 95])) quiet, .ask 0 .logLikelihood quiet], rfl, (C69_valid_program exactSolvers exactSolvers_fit _ hv).1, ?_, ?_⟩
  · refine .cons ⟨⟨?_, rfl, rfl, ?_, ?_⟩, rfl⟩ (.cons ⟨rfl, hq, rfl, rfl⟩ (.cons ⟨rfl, rfl, rfl⟩ (.cons ⟨rfl, hq, rfl, rfl⟩ (.cons ⟨rfl, trivial, rfl, rfl⟩ .nil))))
    · intro X hX'
      rw [hX] at hX'
      simp only [List.mem_cons, List.not_mem_nil, or_false] at hX'
      rcases hX' with rfl | rfl <;> rfl
    · show GridOpt.Moved _ a.lo a.lo
      rw [hlo]
      trivial
    · show GridOpt.Moved _ a.hi a.hi
      rw [hhi]
      trivial
  · intro h
    rw [List.cons.injEq] at h
    have h := h.1
    simp only [Op.new.injEq, and_true] at h
    have h : a.Xs.map (NDArr.moved fun c => if c = 0 then 5 else -3) = a.Xs := congrArg LLGPArgs.Xs h
    rw [hX] at h
    norm_num [NDArr.moved, Arr2.moved, Arr2.of, Arr2.get, vmk, List.range_succ] at h

end Verif
