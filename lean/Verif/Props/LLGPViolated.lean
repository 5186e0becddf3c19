import Verif.Proofs.LLGPTiny
import Verif.Props.LLGPState

/-! Concrete programs: C49 fails, and the hypotheses of C43, C48 to C50, C69 and C70 can be met. -/

namespace Verif

open Matrix

/-- an environment without a pool, logging or interruptions -/
def quiet : Env := ⟨fun _ _ => false, fun _ => .none, false, none⟩

theorem quiet_calm : quiet.Calm := ⟨(fun _ _ _ h => by cases h), rfl⟩

/-- the same, but an exception from outside hits at point `k` of an update -/
def hitAt (k : ℕ) : Env := { quiet with interrupt := some k }

theorem hitAt_works (k : ℕ) : (hitAt k).Works := fun _ _ _ h => by cases h

/-- other noise values are valid parameters -/
theorem retuned_noise {fk : FK} (hw : fk.WF) (hv : ∀ k ∈ fk.kernels, k.Valid) {ν : List ℝ} (hl : ν.length = fk.D) : fk.Retuned { fk with noise := ν } :=
  ⟨⟨hw.Dpos, hw.vecs, hw.diags, hl, hw.counts, hw.vec, hw.diag, hw.slfm, hw.slfmRank, hw.indep⟩, rfl, rfl, rfl, rfl, rfl, rfl, rfl, rfl, rfl, fun _ _ => rfl, hv⟩

theorem sound_noise {fk : FK} (hs : fk.Sound) {ν : List ℝ} (hn : ∀ a < fk.D, 0 < ν.getD a 0) : ({ fk with noise := ν } : FK).Sound :=
  ⟨hs.kernels, hs.plain, hs.kappa, hn⟩

theorem Tiny.setNoise {m : LLGP} {B a : ℝ} (h : Tiny m B a) {c : ℝ} (hc : 0 < c) : Tiny { m with fk := { m.fk with noise := [c] } } B c := by
  have hr : m.fk.Retuned { m.fk with noise := [c] } := retuned_noise h.ok.ready.wf h.ok.ready.valid (by rw [h.D]; rfl)
  exact ⟨h.ok.retuned hr, sound_noise h.sound fun a ha => by
    rw [h.D] at ha
    have : a = 0 := by omega
    subst this
    exact hc, h.mode, h.xs, h.ys, h.norm, h.D, h.group, h.axes, h.kernels, h.coreg, h.pos, rfl⟩

theorem Tiny.of_parts {m m₀ : LLGP} {B a : ℝ} (h : Tiny m₀ B a) (h1 : m.gp = m₀.gp) (h2 : m.fk = m₀.fk) (h3 : m.grids = m₀.grids) (h4 : m.prediction = m₀.prediction) : Tiny m B a := by
  obtain ⟨gp, fk, grids, pred, nIt, tol, me, ke, gr⟩ := m
  obtain ⟨gp', fk', grids', pred', nIt', tol', me', ke', gr'⟩ := m₀
  subst h1 h2 h3 h4
  exact ⟨⟨h.ok.gp, h.ok.inputDim, h.ok.outputDim, h.ok.ready, h.ok.groups, h.ok.data, h.ok.filled, h.ok.keys, h.ok.grid⟩, h.sound, h.mode, h.xs, h.ys, h.norm, h.D, h.group, h.axes, h.kernels, h.coreg, h.pos, h.noise⟩

theorem answer_predicted {sv : Solvers} {e : Env} {m : LLGP} {Qs : List (NDArr ℝ)} {r : Predicted} (h : m.answer sv e (.predict Qs) = .ok (.predicted r)) :
    m.gp.predict (m.rawPredict sv e) Qs = .ok r := by
  unfold LLGP.answer at h
  simp only at h
  cases hr : m.gp.predict (m.rawPredict sv e) Qs with
  | error x => rw [hr] at h; cases h
  | ok r' => rw [hr] at h; cases h; rfl

/-- C49 fails: after an update of the noise of this model (one output, two observations) that was hit by ctrl-C, it predicts with neither the old nor
the new parameters. -/
theorem C49_violated : ∃ (sv : Solvers) (ops : List Op) (fk' : FK) (Qs : List (NDArr ℝ)) (old new mixed : Predicted), sv.Fit ∧ ValidFrom [] (ops ++ [.set 0 fk' quiet]) ∧
    results sv (ops ++ [.ask 0 (.predict Qs) quiet]) = results sv ops ++ [.ok (.predicted old)] ∧
    results sv (ops ++ [.set 0 fk' quiet, .ask 0 (.predict Qs) quiet]) = results sv ops ++ [.ok .unit, .ok (.predicted new)] ∧
    results sv (ops ++ [.set 0 fk' (hitAt 0), .ask 0 (.predict Qs) quiet]) = results sv ops ++ [.error .keyboardInterrupt, .ok (.predicted mixed)] ∧
    mixed ≠ old ∧ mixed ≠ new := by
  obtain ⟨fk, m₀, hd, hf, hi, ht⟩ := exists_tiny
  have hv : ValidFrom [] [.new (tinyArgs fk) quiet] := ⟨1, fk, m₀.fk, by norm_num, hd, by norm_num [tinyArgs], hf, ht.sound, quiet_calm, trivial⟩
  have hfit := exactSolvers_fit
  obtain ⟨hc, hall⟩ := C69_valid_program exactSolvers hfit _ hv
  have hw : ∀ op ∈ [Op.new (tinyArgs fk) quiet], op.Works := fun op ho e he => by
    rw [List.mem_singleton.1 ho] at he
    cases he
    exact quiet_calm.1
  have hnew : ∀ (k : ℕ), results exactSolvers [.new (tinyArgs fk) quiet] = [.ok (.model 0)] := by
    obtain ⟨m, k, c, h1, -⟩ := new_completes hfit (by norm_num) hd (by norm_num [tinyArgs]) hf quiet_calm (fun h => by simp [quiet, tinyArgs] at h) true World.start
    intro _
    show [(execOp true exactSolvers (.new (tinyArgs fk) quiet) World.start).1] = _
    rw [h1]
    rfl
  obtain ⟨m, hm⟩ : ∃ m, modelsAfter exactSolvers [.new (tinyArgs fk) quiet] 0 = some m := by
    obtain ⟨m, k, c, h1, -⟩ := new_completes hfit (by norm_num) hd (by norm_num [tinyArgs]) hf quiet_calm (fun h => by simp [quiet, tinyArgs] at h) true World.start
    refine ⟨m, ?_⟩
    show (execOp true exactSolvers (.new (tinyArgs fk) quiet) World.start).2.heap 0 = _
    rw [h1]
    rfl
  have htr : trace exactSolvers [.new (tinyArgs fk) quiet] = [(.new (tinyArgs fk) quiet, .ok (.model 0))] := by
    show [Op.new (tinyArgs fk) quiet].zip (results exactSolvers [.new (tinyArgs fk) quiet]) = _
    rw [hnew 0]
    rfl
  obtain ⟨a, given, m₁, k, s1, s2, s3, s4, s5, s6, -, -, s9⟩ := C48_current exactSolvers _ hw hc 0 m hm
  rw [htr] at s1
  cases s1
  rw [hi] at s2
  cases s2
  have tm : Tiny m 1 0.1 := ht.of_parts s4 s3 s5 s6
  set Qs : List (NDArr ℝ) := [⟨[2], [0, 1]⟩] with hQs
  have hQ : QueriesOK 1 1 Qs := ⟨rfl, fun X hX => by rw [List.mem_singleton.1 hX]; exact ⟨2, .inl ⟨rfl, rfl⟩⟩⟩
  have hW : ∀ Q ∈ Qs, Q.WF := fun X hX => by rw [List.mem_singleton.1 hX]; rfl
  have ask : Asked exactSolvers m 1 k Qs := ⟨hfit, tm.ok, s9, by rw [tm.D]; exact hQ, hW⟩
  obtain ⟨r, r1, r2⟩ := C45_exact exactSolvers m 1 k Qs ask quiet tm.mode tm.sound
  have r2 := r2 0 (by rw [tm.D]; norm_num) 0 (by norm_num [hQs, queryLens])
  set v := m.fk.condVar m.gp.Xs 0 (queryPoint 1 Qs 0 0) with hv0
  have hvpos : 0 < v := lt_of_lt_of_le r2.2.2 r2.2.1
  set fk' : FK := { m.fk with noise := [1 + v] } with hfk'
  have hr : m.fk.Retuned fk' := retuned_noise tm.ok.ready.wf tm.ok.ready.valid (by rw [tm.D]; rfl)
  have hsd : fk'.Sound := sound_noise tm.sound fun a ha => by
    rw [tm.D] at ha
    have : a = 0 := by omega
    subst this
    show 0 < 1 + v
    linarith
  obtain ⟨old, new, o1, o2, o3⟩ := C49_mixes exactSolvers hfit _ hv 0 m hm tm.mode fk' hr hsd (hitAt 0) (hitAt_works 0) 0 (by norm_num) rfl quiet quiet_calm Qs
    (by rw [tm.D, tm.ok.inputDim]; exact hQ) hW quiet quiet_calm.1
  have hnIt : 0 < m.nIt := by
    obtain ⟨-, -, fks, h3⟩ := healthy_history hfit _ [] World.start (healthy_start exactSolvers) hv
    obtain ⟨P, k, -, h, -⟩ := h3.at hm
    exact h
  obtain ⟨m', k', t1, t2, t3, t4, t5⟩ := C69_set exactSolvers hfit _ 0 m hm 1 tm.ok hnIt fk' hr quiet quiet_calm fun _ => sound_posDef (tm.ok.retuned hr) hsd
  have hv' : ValidFrom [] ([.new (tinyArgs fk) quiet] ++ [.set 0 fk' quiet]) :=
    ⟨1, fk, m₀.fk, by norm_num, hd, by norm_num [tinyArgs], hf, ht.sound, quiet_calm, m₀.fk, rfl, by rw [show m₀.fk = m.fk from s3.symm]; exact hr, hsd, quiet_calm, trivial⟩
  obtain ⟨hc', -⟩ := C69_valid_program exactSolvers hfit _ hv'
  have hw' : ∀ op ∈ [Op.new (tinyArgs fk) quiet] ++ [.set 0 fk' quiet], op.Works := fun op ho e he => by
    rcases List.mem_append.1 ho with ho | ho <;> rw [List.mem_singleton.1 ho] at he <;> cases he <;> exact quiet_calm.1
  have htr' : trace exactSolvers ([.new (tinyArgs fk) quiet] ++ [.set 0 fk' quiet]) = [(.new (tinyArgs fk) quiet, .ok (.model 0)), (.set 0 fk' quiet, .ok .unit)] := by
    show ([Op.new (tinyArgs fk) quiet] ++ [Op.set 0 fk' quiet]).zip (results exactSolvers ([Op.new (tinyArgs fk) quiet] ++ [Op.set 0 fk' quiet])) = _
    rw [t1, hnew 0]
    rfl
  obtain ⟨a, given, m₂, k₂, u1, u2, u3, u4, u5, u6, -, -, -⟩ := C48_current exactSolvers _ hw' hc' 0 m' t2
  rw [htr'] at u1
  cases u1
  rw [hi] at u2
  cases u2
  have tm' : Tiny m' 1 (1 + v) := (tm.setNoise (c := 1 + v) (by linarith)).of_parts (u4.trans s4.symm) t4 (u5.trans s5.symm) (u6.trans s6.symm)
  have ask' : Asked exactSolvers m' 1 k' Qs := ⟨hfit, tm'.ok, t5, by rw [tm'.D]; exact hQ, hW⟩
  have p1 : m.gp.predict (m.rawPredict exactSolvers quiet) Qs = .ok old := by
    rw [(C48_answers exactSolvers _ hw 0 m hm (by rw [s9.kernel]; simp) _ quiet quiet_calm.1).1] at o1
    have := List.append_cancel_left o1
    simp only [List.cons.injEq, and_true] at this
    exact answer_predicted this
  have p2 : m'.gp.predict (m'.rawPredict exactSolvers quiet) Qs = .ok new := by
    rw [show [Op.new (tinyArgs fk) quiet] ++ [.set 0 fk' quiet, .ask 0 (.predict Qs) quiet] = ([Op.new (tinyArgs fk) quiet] ++ [Op.set 0 fk' quiet]) ++ [Op.ask 0 (.predict Qs) quiet] by simp,
      (C48_answers exactSolvers _ hw' 0 m' t2 (by rw [t5.kernel]; simp) _ quiet quiet_calm.1).1, t1, List.append_assoc] at o2
    have := List.append_cancel_left o2
    simp only [List.cons_append, List.nil_append, List.cons.injEq, and_true, true_and] at this
    exact answer_predicted this
  have n1 : normOf m.gp 0 = (1, 0) := by unfold normOf; rw [tm.norm]
  have n2 : normOf m'.gp 0 = (1, 0) := by unfold normOf; rw [tm'.norm]
  have hlen : (queryLens Qs).getD 0 0 = 2 := rfl
  refine ⟨exactSolvers, _, fk', Qs, old, new, (old.1, new.2), hfit, hv', o1, o2, o3, ?_, ?_⟩
  · -- the variances of the old parameters are smaller
    intro he
    have e2 : new.2 = old.2 := by rw [← he]
    rw [r1] at p1
    cases p1
    obtain ⟨r', q1, q2⟩ := C45_exact exactSolvers m' 1 k' Qs ask' quiet tm'.mode tm'.sound
    rw [p2] at q1
    cases q1
    obtain ⟨v1, v2, -⟩ := q2 0 (by rw [tm'.D]; norm_num) 0 (by rw [hlen]; norm_num)
    have v3 := r2.1
    rw [e2] at v1
    rw [v1, n1, n2] at v3
    rw [tm'.noise] at v2
    have v2 : 1 + v ≤ m'.fk.condVar m'.gp.Xs 0 (queryPoint 1 Qs 0 0) := v2
    norm_num at v3
    linarith
  · -- and the means are different
    intro he
    have e1 : old.1 = new.1 := by rw [← he]
    have hcov : ∀ x z, m'.fk.skiCov m'.axesOf m'.fk.extraOf 0 0 x z = m.fk.skiCov m.axesOf m.fk.extraOf 0 0 x z := by
      intro x z
      have ha : m'.axesOf = m.axesOf := by
        funext ad
        unfold LLGP.axesOf
        rw [u5, s5]
      rw [ha, t4]
      rfl
    obtain ⟨i, hi2, hne⟩ := tiny_means tm tm' (by norm_num; linarith) hcov
    apply hne
    have c1 := C44_exact_solve exactSolvers m 1 k Qs ask quiet old (exactSolvers_exact (current_facts hfit tm.ok s9).1 _) p1 0 (by rw [tm.D]; norm_num) i (by rw [hlen]; exact hi2)
    have c2 := C44_exact_solve exactSolvers m' 1 k' Qs ask' quiet new (exactSolvers_exact (current_facts hfit tm'.ok t5).1 _) p2 0 (by rw [tm'.D]; norm_num) i (by rw [hlen]; exact hi2)
    rw [n1] at c1
    rw [n2] at c2
    simp only [mul_one, add_zero] at c1 c2
    rw [← c1, ← c2, e1]

/-! ### a program with two models -/

/-- the noise of both outputs doubled -/
noncomputable def doubled (fk : FK) : FK := { fk with noise := fk.noise.map (2 * ·) }

theorem doubled_valid {m : LLGP} {P : ℕ} (h : m.OK P) (hs : m.fk.Sound) : m.fk.Retuned (doubled m.fk) ∧ (doubled m.fk).Sound := by
  have hw := h.ready.wf
  refine ⟨retuned_noise hw h.ready.valid (by rw [List.length_map]; exact hw.noise), sound_noise hs fun a ha => ?_⟩
  rw [map_getD_lt (by rw [hw.noise]; exact ha) _ 0 0]
  have := hs.noise a ha
  linarith

/-- A program with two models (a metric-keeping one of two outputs in any prediction mode and the small one of C49): parameters of the first are changed, it
is optimised (its metrics restart), the second is asked between changes of the first. It is valid, so by C69 it completes; C48 and C50 then apply. -/
theorem exists_program (mode : PredMode) : ∃ (a b : LLGPArgs) (fk : FK) (ops : List Op), a.metrics = true ∧ a.prediction = mode.name ∧
    ops = [.new a quiet, .new b quiet, .ask 0 .logLikelihood quiet, .set 0 fk quiet, .ask 1 (.predict [⟨[2], [0, 1]⟩]) quiet, .optimize 0, .set 0 fk quiet,
      .ask 0 (.predict [⟨[1, 2], [0, 0]⟩, ⟨[0, 2], []⟩]) quiet] ∧ ValidFrom [] ops := by
  obtain ⟨a, fka, m, hd, hi, hok, -, hsd, hD, ⟨-, hmode, hmet, htr⟩, -⟩ := exists_model mode true
  obtain ⟨fkb, mb, hdb, hfb, hib, htb⟩ := exists_tiny
  obtain ⟨m', fk', h1, h2, h3, h4, h5⟩ := llgpInit_documented hd (by norm_num)
  rw [hi] at h1
  cases h1
  obtain ⟨r1, r2⟩ := doubled_valid hok hsd
  rw [← h4] at h3
  have r3 : (doubled m.fk).Retuned (doubled m.fk) := ⟨r1.wf, rfl, rfl, rfl, rfl, rfl, rfl, rfl, rfl, rfl, fun _ _ => rfl, r1.valid⟩
  exact ⟨a, tinyArgs fkb, doubled m.fk, _, hmet, hmode, rfl,
    2, fka, m.fk, by norm_num, hd, htr, h3, hsd, quiet_calm, 1, fkb, mb.fk, by norm_num, hdb, by norm_num [tinyArgs], hfb, htb.sound, quiet_calm, quiet_calm.1,
    m.fk, rfl, r1, r2, quiet_calm, quiet_calm.1, doubled m.fk, rfl, r3, r2, quiet_calm, quiet_calm.1, trivial⟩

/-- C69, C48 and C50 apply to that program: all operations complete, the first model's metrics have one entry (one update since `optimize`), and a
question afterwards is answered from its current parameters. -/
example (mode : PredMode) : ∃ (ops : List Op) (m : LLGP) (x : Metrics), ops.length = 8 ∧ Completed (trace exactSolvers ops) ∧ modelsAfter exactSolvers ops 0 = some m ∧
    m.metrics = some x ∧ x.AllHave 1 ∧
    results exactSolvers (ops ++ [.ask 0 .covariance quiet]) = results exactSolvers ops ++ [m.answer exactSolvers quiet .covariance] := by
  obtain ⟨a, b, fk, ops, hmet, -, hops, hv⟩ := exists_program mode
  have hc := (C69_valid_program exactSolvers exactSolvers_fit ops hv).1
  have hw : ∀ op ∈ ops, op.Works := by
    subst hops
    intro op hop
    simp only [List.mem_cons, List.not_mem_nil, or_false] at hop
    rcases hop with rfl | rfl | rfl | rfl | rfl | rfl | rfl | rfl <;> intro e he <;> first | (cases he; exact quiet_calm.1) | cases he
  have ht : ∃ r2 r3 r4 r5 r6 r7, trace exactSolvers ops = [(.new a quiet, .ok (.model 0)), (.new b quiet, .ok (.model 1)), (.ask 0 .logLikelihood quiet, r2),
      (.set 0 fk quiet, r3), (.ask 1 (.predict [⟨[2], [0, 1]⟩]) quiet, r4), (.optimize 0, r5), (.set 0 fk quiet, r6),
      (.ask 0 (.predict [⟨[1, 2], [0, 0]⟩, ⟨[0, 2], []⟩]) quiet, r7)] := by
    subst hops
    rcases e0 : execOp true exactSolvers (.new a quiet) World.start with ⟨r0, w0⟩
    rcases e1 : execOp true exactSolvers (.new b quiet) w0 with ⟨r1, w1⟩
    unfold trace at hc ⊢
    unfold Completed at hc
    simp only [history, List.zip_cons_cons, List.zip_nil_right, e0, e1] at hc ⊢
    obtain ⟨a0, rfl⟩ := hc _ (List.mem_cons_self ..) trivial
    obtain ⟨a1, rfl⟩ := hc _ (List.mem_cons_of_mem _ (List.mem_cons_self ..)) trivial
    obtain ⟨rfl, h0⟩ := new_number quiet_calm.1 e0
    obtain ⟨rfl, h1⟩ := new_number quiet_calm.1 e1
    rw [h0]
    exact ⟨_, _, _, _, _, _, rfl⟩
  obtain ⟨r2, r3, r4, r5, r6, r7, ht⟩ := ht
  have hs : setUp 0 none (trace exactSolvers ops) = some (a, some fk) := by rw [ht]; rfl
  have hu : updatesSince 0 0 (trace exactSolvers ops) = 1 := by rw [ht]; rfl
  obtain ⟨m, hm, -, hx⟩ := C50_metrics exactSolvers ops hw hc 0 a _ hs
  obtain ⟨x, hx1, hx2⟩ := hx hmet
  obtain ⟨_, _, _, k, -, -, -, -, -, -, -, -, hk⟩ := C48_current exactSolvers ops hw hc 0 m hm
  rw [hu] at hx2
  exact ⟨ops, m, x, by rw [hops]; rfl, hc, hm, hx1, hx2,
    (C48_answers exactSolvers ops hw 0 m hm (by rw [hk.kernel]; simp) .covariance quiet quiet_calm.1).1⟩

/-- C70 applies in every prediction mode to an up-to-date model with two kernels on the plane. -/
example (mode : PredMode) : ∃ (m : LLGP) (k : LLKernel), m.OK 2 ∧ m.Current exactSolvers k ∧ m.prediction = mode ∧
    (m.fk.skiMat m.axesOf m.fk.extraOf m.gp.Xs).PosDef := by
  obtain ⟨a, fk, m, -, -, h1, h2, h3, -, -, g, h4, h5⟩ := exists_model mode false
  obtain ⟨k, hc, hok⟩ := exists_current exactSolvers_fit h1
  refine ⟨{ m with kernel := some k }, k, hok, hc, h2, C70_interpolated_posDef _ 2 hok h3 ?_⟩
  intro ad had
  rw [show LLGP.fk { m with kernel := some k } = m.fk from rfl, h4] at had
  simp only [List.map_cons, List.map_nil, List.mem_singleton] at had
  rw [had, h5]
  exact List.nodup_range

end Verif
