import Verif.Proofs.Shared
import Verif.Props.LLGPViolated
import Verif.Proofs.SettersStale

/-! C99: models that share one functional kernel. -/

namespace Verif

/-! ### C99: models that share a functional kernel -/

theorem tended_core {sv : Solvers} {s : Shelf} {k i : ℕ} {a : LLGPArgs} {f : FK} {m m₀ : LLGP} (h1 : m₀.fk = f)
    (h2 : m.gp = m₀.gp ∧ m.grids = m₀.grids ∧ m.prediction = m₀.prediction ∧ m.nIt = m₀.nIt ∧ m.tol = m₀.tol) :
    ({ ({ m with fk := f } : LLGP) with kernel := none } : LLGP).core = ({ m₀ with kernel := none } : LLGP).core := by
  obtain ⟨a1, a2, a3, a4, a5⟩ := h2
  simp only [LLGP.core, a1, a2, a3, a4, a5, h1]

/-- a new model with these arguments, and what it answers -/
theorem fresh_answer {sv : Solvers} (hs : sv.Fit) {b : LLGPArgs} {m₀ : LLGP} {P : ℕ} (hi : llgpInit b = .ok m₀) (ok : m₀.OK P) (hn : 0 < m₀.nIt) (hsd : m₀.fk.Sound) {e₀ : Env}
    (he₀ : e₀.Calm) {e : Env} (he : e.Works) (q : Query) :
    ∃ (m : LLGP) (k : LLKernel), m.Current sv k ∧ ({ m with kernel := none } : LLGP).core = ({ m₀ with kernel := none } : LLGP).core ∧ results sv [.new b e₀, .ask 0 q e] = [.ok (.model 0), m.answer sv e q] := by
  obtain ⟨m, k, c, h1, -, h3, h4⟩ := new_from hs hi ok hn hsd he₀ World.start
  refine ⟨m, k, h4, h3, ?_⟩
  unfold results
  rw [history_two]
  have hc := cachesOK_op (sv := sv) (op := .new b e₀) (fun e' he' => by cases he'; exact he₀.1) (w := World.start) (cachesOK_empty rfl)
  have hh : (execOp true sv (.new b e₀) World.start).2.heap 0 = some m := by rw [h1]; rfl
  obtain ⟨c', h5⟩ := ask_answer hc he hh h4.kernel q
  have h6 : (execOp true sv (.ask 0 q e) (execOp true sv (.new b e₀) World.start).2).1 = m.answer sv e q := congrArg Prod.fst h5
  rw [h6, h1]
  rfl

/-- the answer of a model after a valid program -/
theorem tended_answer {sv : Solvers} {ops : List ShOp} {fks : List FK} (h : Thriving sv (shHistory sv ops Shelf.start).2 fks) {k i : ℕ} {a : LLGPArgs} {f : FK} {m : LLGP}
    (t : Tended sv (shHistory sv ops Shelf.start).2 k i a f m) {e : Env} (he : e.Works) (q : Query) :
    shResults sv (ops ++ [.ask i q e]) = shResults sv ops ++ [m.answer sv e q] := by
  obtain ⟨kk, hk⟩ := t.current
  obtain ⟨c, h1⟩ := ask_answer h.caches he t.heap hk q
  unfold shResults
  rw [shHistory_append]
  have h2 : (shExec sv (.ask i q e) (shHistory sv ops Shelf.start).2).1 = m.answer sv e q := congrArg Prod.fst h1
  show _ ++ [(shExec sv (.ask i q e) (shHistory sv ops Shelf.start).2).1] = _
  rw [h2]

/-- a model that is up to date answers like a new one -/
theorem tended_fresh {sv : Solvers} (hs : sv.Fit) {s : Shelf} {k i : ℕ} {a : LLGPArgs} {f : FK} {m : LLGP} (t : Tended sv s k i a f m) {e₀ : Env} (he₀ : e₀.Calm) {e : Env} (he : e.Works)
    (q : Query) : results sv [.new (a.withKernel f) e₀, .ask 0 q e] = [.ok (.model 0), ({ m with fk := f } : LLGP).answer sv e q] := by
  obtain ⟨m₀, n1, n2, n3⟩ := t.init
  obtain ⟨P, -, o⟩ := t.ok
  obtain ⟨kk, cur⟩ := t.was
  have hcore := tended_core (sv := sv) (s := s) (k := k) (i := i) (a := a) n2 n3
  obtain ⟨m', k', c1, c2, c3⟩ := fresh_answer hs n1 (o.of_core hcore.symm) (by rw [← n3.2.2.2.1]; exact t.its) (by rw [n2]; exact t.sound.2) he₀ he q
  rw [c3, answer_congr c1 cur (c2.trans hcore.symm)]

/-- C99 (partial: not for models whose kernel object was given new values after another model was made with it, see `C99_violated`). Kernel object `k` is used
to make a model; no other model is made with it until its values are final (`mid` makes none, `post` assigns none). Then the model answers every question as a new
model with these arguments and the final values of the kernel object does - whatever models were made with the object before and afterwards, and whatever else the
program did. -/
theorem C99_current_partial (sv : Solvers) (hs : sv.Fit) (pre mid post : List ShOp) (k : ℕ) (a : LLGPArgs) (e : Env) (hv : ShValid [] (pre ++ .model k a e :: (mid ++ post)))
    (hm : ∀ op ∈ mid, ¬ op.Makes k) (hp : ∀ op ∈ post, ¬ op.Assigns k) (fk : FK) (hk : kernelsAfter sv (pre ++ .model k a e :: (mid ++ post)) k = some fk)
    (q : Query) (e' : Env) (he' : e'.Works) (e₀ : Env) (he₀ : e₀.Calm) :
    ∃ x, shResults sv (pre ++ .model k a e :: (mid ++ post) ++ [.ask (modelsMade pre) q e']) = shResults sv (pre ++ .model k a e :: (mid ++ post)) ++ [x] ∧
      results sv [.new (a.withKernel fk) e₀, .ask 0 q e'] = [.ok (.model 0), x] := by
  obtain ⟨fks₁, v1, t1, n1⟩ := sh_program hs pre _ [] Shelf.start (thriving_start sv) hv
  obtain ⟨fks₂, v2, t2, eff, -⟩ := sh_step hs _ _ fks₁ _ t1 v1
  obtain ⟨l2, b2⟩ := eff.made k a e rfl
  obtain ⟨fks₃, v3, t3, n3⟩ := sh_program hs mid post fks₂ _ t2 v2
  obtain ⟨l3, m3, b3⟩ := sh_linked hs mid post fks₂ _ t2 v2 hm l2 b2
  have v3' : ShValid fks₃ (post ++ []) := by rw [List.append_nil]; exact v3
  obtain ⟨fks₄, v4, t4, n4⟩ := sh_program hs post [] fks₃ _ t3 v3'
  obtain ⟨m4, b4, e4⟩ := sh_untouched hs post [] fks₃ _ t3 v3' hp m3 b3
  have hst : (shHistory sv (pre ++ .model k a e :: (mid ++ post)) Shelf.start).2 =
      (shHistory sv post (shHistory sv mid (shExec sv (.model k a e) (shHistory sv pre Shelf.start).2).2).2).2 := by
    rw [shHistory_append]
    show (shHistory sv (mid ++ post) _).2 = _
    rw [shHistory_append]
  rw [n1, show Shelf.start.world.next = 0 from rfl, Nat.zero_add] at b4
  rw [← hst] at t4 b4
  have hfk : m4.fk = fk := by
    have := b4.kernel
    unfold kernelsAfter at hk
    rw [hk] at this
    exact (Option.some.inj this).symm
  rw [← e4, hfk] at b4
  refine ⟨_, tended_answer t4 b4 he' q, ?_⟩
  rw [tended_fresh hs b4 he₀ he' q]
  congr 3
  rw [← hfk]

/-- What happens instead. After a second model was made with the kernel object, assignments to it no longer reach the first one: in `'exact'` mode it then predicts
the means of a new model with the values the object had when the second model was made, and the variances of a new model with the values it has now. -/
theorem C99_mixes (sv : Solvers) (hs : sv.Fit) (pre mid post : List ShOp) (k : ℕ) (a b : LLGPArgs) (e e₂ : Env)
    (hv : ShValid [] (pre ++ .model k a e :: (mid ++ .model k b e₂ :: post))) (hm : ∀ op ∈ mid, ¬ op.Makes k) (hmode : a.prediction = "exact") (fk₁ fk₂ : FK)
    (hk₁ : kernelsAfter sv (pre ++ .model k a e :: mid) k = some fk₁) (hk₂ : kernelsAfter sv (pre ++ .model k a e :: (mid ++ .model k b e₂ :: post)) k = some fk₂)
    (Qs : List (NDArr ℝ)) (e' : Env) (he' : e'.Works) (e₀ : Env) (he₀ : e₀.Calm) (old new : Predicted)
    (h₁ : results sv [.new (a.withKernel fk₁) e₀, .ask 0 (.predict Qs) e'] = [.ok (.model 0), .ok (.predicted old)])
    (h₂ : results sv [.new (a.withKernel fk₂) e₀, .ask 0 (.predict Qs) e'] = [.ok (.model 0), .ok (.predicted new)]) :
    shResults sv (pre ++ .model k a e :: (mid ++ .model k b e₂ :: post) ++ [.ask (modelsMade pre) (.predict Qs) e']) =
      shResults sv (pre ++ .model k a e :: (mid ++ .model k b e₂ :: post)) ++ [.ok (.predicted (old.1, new.2))] := by
  obtain ⟨fks₁, v1, t1, n1⟩ := sh_program hs pre _ [] Shelf.start (thriving_start sv) hv
  obtain ⟨fks₂, v2, t2, eff, -⟩ := sh_step hs _ _ fks₁ _ t1 v1
  obtain ⟨l2, b2⟩ := eff.made k a e rfl
  obtain ⟨fks₃, v3, t3, n3⟩ := sh_program hs mid _ fks₂ _ t2 v2
  obtain ⟨l3, m3, b3⟩ := sh_linked hs mid _ fks₂ _ t2 v2 hm l2 b2
  have hi3 : (shHistory sv pre Shelf.start).2.world.next < (shHistory sv mid (shExec sv (.model k a e) (shHistory sv pre Shelf.start).2).2).2.world.next := by
    rw [n3, eff.next]
    show _ < _ + 1 + _
    omega
  have hst1 : (shHistory sv (pre ++ .model k a e :: mid) Shelf.start).2 = (shHistory sv mid (shExec sv (.model k a e) (shHistory sv pre Shelf.start).2).2).2 := by
    rw [shHistory_append]
    rfl
  have hst2 : (shHistory sv (pre ++ .model k a e :: (mid ++ .model k b e₂ :: post)) Shelf.start).2 =
      (shHistory sv post (shExec sv (.model k b e₂) (shHistory sv mid (shExec sv (.model k a e) (shHistory sv pre Shelf.start).2).2).2).2).2 := by
    rw [shHistory_append]
    show (shHistory sv (mid ++ _) _).2 = _
    rw [shHistory_append]
    rfl
  have hf1 : m3.fk = fk₁ := by
    have := b3.kernel
    unfold kernelsAfter at hk₁
    rw [hst1, this] at hk₁
    exact Option.some.inj hk₁
  rw [hf1] at b3
  obtain ⟨fks₄, v4, t4, eff4, -⟩ := sh_step hs _ _ fks₃ _ t3 v3
  obtain ⟨f4, m4, b4, -, -, q4⟩ := eff4.tended _ _ _ _ _ b3
  rw [q4 fun hh => hh.1.elim] at b4
  have l4 := (eff4.made k b e₂ rfl).1
  have v4' : ShValid fks₄ (post ++ []) := by rw [List.append_nil]; exact v4
  obtain ⟨fks₅, v5, t5, n5⟩ := sh_program hs post [] fks₄ _ t4 v4'
  obtain ⟨m5, b5⟩ := sh_elsewhere hs post [] fks₄ _ t4 v4' (by rw [l4]; intro hh; have := Option.some.inj hh; omega) (by rw [eff4.next]; omega) ⟨m4, b4⟩
  rw [← hst2] at t5 b5
  rw [n1, show Shelf.start.world.next = 0 from rfl, Nat.zero_add] at b5
  have hf2 : m5.fk = fk₂ := by
    have := b5.kernel
    unfold kernelsAfter at hk₂
    rw [this] at hk₂
    exact Option.some.inj hk₂
  rw [tended_answer t5 b5 he' _]
  have g1 := tended_fresh hs b5 he₀ he' (.predict Qs)
  rw [h₁] at g1
  simp only [List.cons.injEq, and_true, true_and] at g1
  -- a new model with the values of now
  obtain ⟨m₀, i1, i2, i3, i4, i5, i6, i7⟩ := b5.init
  obtain ⟨P, o5, -⟩ := b5.ok
  have hfresh := init_other i1 (fk := m5.fk) (by rw [o5.ready.input, ← i3, o5.inputDim]) (by rw [i2]; exact b5.retuned.groups)
  have hcore : ({ m5 with kernel := none } : LLGP).core = ({ ({ m₀ with fk := m5.fk } : LLGP) with kernel := none } : LLGP).core := by
    simp only [LLGP.core, i3, i4, i5, i6, i7]
  obtain ⟨m', k', c1, c2, c3⟩ := fresh_answer hs hfresh (o5.of_core hcore.symm) (by show 0 < m₀.nIt; rw [← i6]; exact b5.its) b5.sound.1 he₀ he' (.predict Qs)
  rw [hf2, h₂] at c3
  simp only [List.cons.injEq, and_true, true_and] at c3
  obtain ⟨p1, p2, p3, p4, -⟩ := core_parts (c2.trans hcore.symm)
  have hex : m5.prediction = .exact := by
    have := (init_fields i1).1
    rw [i5]
    change predMode a.prediction = _ at this
    rw [hmode] at this
    exact (Option.some.inj this).symm
  have := answer_mix (sv := sv) (e := e') (m₁ := { m5 with fk := fk₁ }) (m₂ := m') (m₃ := m5) rfl p3 rfl p1 rfl p2.symm b5.retuned.groups (p4.trans hex) hex (answer_predicted g1.symm)
    (answer_predicted c3.symm)
  rw [this]

/-- A kernel object that a model was made with cannot be used with inputs of another dimension: this raises ValueError and has no effect. -/
theorem C99_dimension (sv : Solvers) (ops rest : List ShOp) (k : ℕ) (a : LLGPArgs) (e : Env) (fk fk₀ : FK) (P P' : ℕ) (hk : kernelsAfter sv ops k = some fk) (hP : fk.P = some P)
    (hne : P' ≠ P) (hP' : 0 < P') (hd : (a.withKernel fk₀).Documented P' fk₀) :
    ∃ ys, shResults sv (ops ++ rest) = shResults sv ops ++ ys ∧ shResults sv (ops ++ .model k a e :: rest) = shResults sv ops ++ .error .valueError :: ys := by
  obtain ⟨m, fk', h1, h2, -⟩ := llgpInit_documented hd hP'
  obtain ⟨i1, -, -, -, -, i6⟩ := init_fields h1
  change predMode a.prediction = _ at i1
  change multiGPNew a.Xs a.Ys a.normalize = _ at i6
  have hset : fk.setInputDim m.gp.inputDim = .error .valueError := by
    unfold FK.setInputDim
    rw [h2.inputDim, hP, if_neg (fun hh => hne (Option.some.inj hh).symm), if_pos (by simp)]
  have hl : linkedKernel a fk = none := by
    unfold linkedKernel
    rw [i6, i1]
    simp only
    rw [hset]
    rfl
  have hi : llgpInit (a.withKernel fk) = .error .valueError := by
    unfold llgpInit LLGPArgs.withKernel
    simp only
    rw [i6]
    simp only [ok_bind]
    rw [i1]
    simp only
    rw [hset]
    rfl
  have hn : ∀ w, execOp true sv (.new (a.withKernel fk) e) w = (.error .valueError, w) := by
    intro w
    unfold execOp
    simp only
    rw [py_bind, lift_run, hi]
  have hx : shExec sv (.model k a e) (shHistory sv ops Shelf.start).2 = (.error .valueError, (shHistory sv ops Shelf.start).2) := by
    unfold kernelsAfter at hk
    unfold shExec
    simp only
    rw [hk]
    simp only
    rw [hl]
    simp only
    rw [hn]
  refine ⟨(shHistory sv rest (shHistory sv ops Shelf.start).2).1, ?_, ?_⟩
  · unfold shResults
    rw [shHistory_append]
  · unfold shResults
    rw [shHistory_append]
    show _ ++ (shExec sv (.model k a e) (shHistory sv ops Shelf.start).2).1 :: (shHistory sv rest (shExec sv (.model k a e) (shHistory sv ops Shelf.start).2).2).1 = _
    rw [hx]

/-- A constructor that refuses the data or the prediction mode has no effect on the kernel object or on other models. -/
theorem C99_refused (sv : Solvers) (ops rest : List ShOp) (k : ℕ) (a : LLGPArgs) (e : Env) (fk : FK) (hk : kernelsAfter sv ops k = some fk)
    (hr : (a.prediction ≠ "on-the-fly" ∧ a.prediction ≠ "precompute" ∧ a.prediction ≠ "exact") ∨ ∃ x, multiGPNew a.Xs a.Ys a.normalize = .error x) :
    ∃ x ys, shResults sv (ops ++ rest) = shResults sv ops ++ ys ∧ shResults sv (ops ++ .model k a e :: rest) = shResults sv ops ++ .error x :: ys := by
  have hpm : (a.prediction ≠ "on-the-fly" ∧ a.prediction ≠ "precompute" ∧ a.prediction ≠ "exact") → predMode a.prediction = none := by
    rintro ⟨h1, h2, h3⟩
    unfold predMode
    rw [if_neg h1, if_neg h2, if_neg h3]
  have hl : linkedKernel a fk = none := by
    unfold linkedKernel
    rcases hr with h | ⟨x, h⟩
    · rw [hpm h]
      cases multiGPNew a.Xs a.Ys a.normalize <;> rfl
    · rw [h]
  obtain ⟨x, hi⟩ : ∃ x, llgpInit (a.withKernel fk) = .error x := by
    unfold llgpInit LLGPArgs.withKernel
    simp only
    rcases hr with h | ⟨x, h⟩
    · cases hg : multiGPNew a.Xs a.Ys a.normalize with
      | error x => exact ⟨x, rfl⟩
      | ok gp =>
        refine ⟨.valueError, ?_⟩
        simp only [ok_bind]
        rw [hpm h]
    · rw [h]
      exact ⟨x, rfl⟩
  have hn : ∀ w, execOp true sv (.new (a.withKernel fk) e) w = (.error x, w) := by
    intro w
    unfold execOp
    simp only
    rw [py_bind, lift_run, hi]
  have hx : shExec sv (.model k a e) (shHistory sv ops Shelf.start).2 = (.error x, (shHistory sv ops Shelf.start).2) := by
    unfold kernelsAfter at hk
    unfold shExec
    simp only
    rw [hk]
    simp only
    rw [hl]
    simp only
    rw [hn]
  refine ⟨x, (shHistory sv rest (shHistory sv ops Shelf.start).2).1, ?_, ?_⟩
  · unfold shResults
    rw [shHistory_append]
  · unfold shResults
    rw [shHistory_append]
    show _ ++ (shExec sv (.model k a e) (shHistory sv ops Shelf.start).2).1 :: (shHistory sv rest (shExec sv (.model k a e) (shHistory sv ops Shelf.start).2).2).1 = _
    rw [hx]

/-- the hypotheses of `C99_refused` can be met: a documented mode that does not exist -/
example : ∃ (fk : FK) (a : LLGPArgs), kernelsAfter exactSolvers [.kernel fk] 0 = some fk ∧ a.functionalKernel = some fk ∧
    a.prediction ≠ "on-the-fly" ∧ a.prediction ≠ "precompute" ∧ a.prediction ≠ "exact" := by
  obtain ⟨fk, -⟩ := exists_tiny
  exact ⟨fk, { tinyArgs fk with prediction := "matrix-free" }, rfl, rfl, show "matrix-free" ≠ "on-the-fly" by decide, show "matrix-free" ≠ "precompute" by decide,
    show "matrix-free" ≠ "exact" by decide⟩

/-! ### the property fails -/

/-- two small models with noise 0.1 and more: other means, other variances -/
theorem tiny_differ {m m' : LLGP} {k k' : LLKernel} {Qs : List (NDArr ℝ)} (hQs : Qs = [⟨[2], [0, 1]⟩]) (tm : Tiny m 1 0.1)
    (tm' : Tiny m' 1 (1 + m.fk.condVar m.gp.Xs 0 (queryPoint 1 Qs 0 0))) (s9 : m.Current exactSolvers k) (t5 : m'.Current exactSolvers k')
    (hfk : m'.fk = { m.fk with noise := [1 + m.fk.condVar m.gp.Xs 0 (queryPoint 1 Qs 0 0)] }) (hg : m'.grids = m.grids) {old new : Predicted}
    (p1 : m.gp.predict (m.rawPredict exactSolvers quiet) Qs = .ok old) (p2 : m'.gp.predict (m'.rawPredict exactSolvers quiet) Qs = .ok new) : old.1 ≠ new.1 ∧ old.2 ≠ new.2 := by
  have hfit := exactSolvers_fit
  have hQ : QueriesOK 1 1 Qs := by
    rw [hQs]
    exact ⟨rfl, fun X hX => by rw [List.mem_singleton.1 hX]; exact ⟨2, .inl ⟨rfl, rfl⟩⟩⟩
  have hW : ∀ Q ∈ Qs, Q.WF := by
    rw [hQs]
    exact fun X hX => by rw [List.mem_singleton.1 hX]; rfl
  have ask : Asked exactSolvers m 1 k Qs := ⟨hfit, tm.ok, s9, by rw [tm.D]; exact hQ, hW⟩
  have ask' : Asked exactSolvers m' 1 k' Qs := ⟨hfit, tm'.ok, t5, by rw [tm'.D]; exact hQ, hW⟩
  obtain ⟨r, r1, r2⟩ := C45_exact exactSolvers m 1 k Qs ask quiet tm.mode tm.sound
  have hlen : (queryLens Qs).getD 0 0 = 2 := by rw [hQs]; rfl
  have r2 := r2 0 (by rw [tm.D]; norm_num) 0 (by rw [hlen]; norm_num)
  set v := m.fk.condVar m.gp.Xs 0 (queryPoint 1 Qs 0 0) with hv0
  have hvpos : 0 < v := lt_of_lt_of_le r2.2.2 r2.2.1
  have n1 : normOf m.gp 0 = (1, 0) := by unfold normOf; rw [tm.norm]
  have n2 : normOf m'.gp 0 = (1, 0) := by unfold normOf; rw [tm'.norm]
  constructor
  · intro e1
    have hcov : ∀ x z, m'.fk.skiCov m'.axesOf m'.fk.extraOf 0 0 x z = m.fk.skiCov m.axesOf m.fk.extraOf 0 0 x z := by
      intro x z
      have ha : m'.axesOf = m.axesOf := by
        funext ad
        unfold LLGP.axesOf
        rw [hg]
      rw [ha, hfk]
      rfl
    obtain ⟨i, hi2, hne⟩ := tiny_means tm tm' (by norm_num; linarith) hcov
    apply hne
    have c1 := C44_exact_solve exactSolvers m 1 k Qs ask quiet old (exactSolvers_exact (current_facts hfit tm.ok s9).1 _) p1 0 (by rw [tm.D]; norm_num) i (by rw [hlen]; exact hi2)
    have c2 := C44_exact_solve exactSolvers m' 1 k' Qs ask' quiet new (exactSolvers_exact (current_facts hfit tm'.ok t5).1 _) p2 0 (by rw [tm'.D]; norm_num) i (by rw [hlen]; exact hi2)
    rw [n1] at c1
    rw [n2] at c2
    simp only [mul_one, add_zero] at c1 c2
    rw [hQs] at c1 c2
    rw [← c1, ← c2, e1]
  · intro e2
    rw [r1] at p1
    cases p1
    obtain ⟨r', q1, q2⟩ := C45_exact exactSolvers m' 1 k' Qs ask' quiet tm'.mode tm'.sound
    rw [p2] at q1
    cases q1
    obtain ⟨v1, v2, -⟩ := q2 0 (by rw [tm'.D]; norm_num) 0 (by rw [hlen]; norm_num)
    have v3 := r2.1
    rw [← e2] at v1
    rw [v1, n1, n2] at v3
    rw [tm'.noise] at v2
    have v2 : 1 + v ≤ m'.fk.condVar m'.gp.Xs 0 (queryPoint 1 Qs 0 0) := v2
    norm_num at v3
    linarith

/-- C99 fails: two models are made with the same kernel object (the same data even), then its noise is changed. The first model now predicts neither like a new
model with the values of now nor like one with the values of before; the second is up to date. -/
theorem C99_violated : ∃ (sv : Solvers) (fk fk₁ fk₂ : FK) (a : LLGPArgs) (Qs : List (NDArr ℝ)) (old new mixed : Predicted), sv.Fit ∧
    ShValid [] [.kernel fk, .model 0 a quiet, .model 0 a quiet, .assign 0 fk₂ quiet] ∧
    kernelsAfter sv [.kernel fk, .model 0 a quiet, .model 0 a quiet] 0 = some fk₁ ∧
    kernelsAfter sv [.kernel fk, .model 0 a quiet, .model 0 a quiet, .assign 0 fk₂ quiet] 0 = some fk₂ ∧
    results sv [.new (a.withKernel fk₁) quiet, .ask 0 (.predict Qs) quiet] = [.ok (.model 0), .ok (.predicted old)] ∧
    results sv [.new (a.withKernel fk₂) quiet, .ask 0 (.predict Qs) quiet] = [.ok (.model 0), .ok (.predicted new)] ∧
    shResults sv [.kernel fk, .model 0 a quiet, .model 0 a quiet, .assign 0 fk₂ quiet, .ask 0 (.predict Qs) quiet, .ask 1 (.predict Qs) quiet] =
      [.ok .unit, .ok (.model 0), .ok (.model 1), .ok .unit, .ok (.predicted mixed), .ok (.predicted new)] ∧
    mixed ≠ old ∧ mixed ≠ new := by
  obtain ⟨fk, m₀, hd, hf, hi, ht⟩ := exists_tiny
  have hfit := exactSolvers_fit
  set Qs : List (NDArr ℝ) := [⟨[2], [0, 1]⟩] with hQs
  set v := m₀.fk.condVar m₀.gp.Xs 0 (queryPoint 1 Qs 0 0) with hv
  set fk₂ : FK := { m₀.fk with noise := [1 + v] } with hfk₂
  have hv0 : 0 ≤ v := by
    obtain ⟨m₁, k₁, c1, c2, c3⟩ := fresh_answer hfit hi ht.ok (by rw [(init_fields hi).2.2.2.1]; norm_num [tinyArgs]) ht.sound quiet_calm quiet_calm.1 (.predict Qs)
    obtain ⟨p1, p2, p3, p4, -⟩ := core_parts c2
    have tm : Tiny m₁ 1 0.1 := ht.of_parts p1 p2 p3 p4
    have ask : Asked exactSolvers m₁ 1 k₁ Qs := ⟨hfit, tm.ok, c1, by
      rw [tm.D]
      exact ⟨rfl, fun X hX => by rw [List.mem_singleton.1 hX]; exact ⟨2, .inl ⟨rfl, rfl⟩⟩⟩, fun X hX => by rw [List.mem_singleton.1 hX]; rfl⟩
    obtain ⟨r, r1, r2⟩ := C45_exact exactSolvers m₁ 1 k₁ Qs ask quiet tm.mode tm.sound
    have r2 := r2 0 (by rw [tm.D]; norm_num) 0 (by rw [hQs]; norm_num [queryLens])
    rw [p1, p2] at r2
    exact (lt_of_lt_of_le r2.2.2 r2.2.1).le
  have hr : m₀.fk.Retuned fk₂ := retuned_noise ht.ok.ready.wf ht.ok.ready.valid (by rw [ht.D]; rfl)
  have ht₂ : Tiny { m₀ with fk := fk₂ } 1 (1 + v) := ht.setNoise (by linarith)
  have hn : 0 < (tinyArgs fk).traceIterations := by norm_num [tinyArgs]
  have hnm : 0 < m₀.nIt := by rw [(init_fields hi).2.2.2.1]; exact hn
  have hw : (tinyArgs fk).withKernel fk = tinyArgs fk := rfl
  have hi₁ : llgpInit ((tinyArgs fk).withKernel m₀.fk) = .ok m₀ := init_other (a := tinyArgs fk) (f := fk) hi (fk := m₀.fk) (by rw [ht.ok.inputDim]; exact ht.ok.ready.input) rfl
  have hi₂ : llgpInit ((tinyArgs fk).withKernel fk₂) = .ok { m₀ with fk := fk₂ } :=
    init_other (a := tinyArgs fk) (f := fk) hi (by rw [ht.ok.inputDim]; exact ht.ok.ready.input) rfl
  -- the two new models
  obtain ⟨m₁, k₁, c1, c2, c3⟩ := fresh_answer hfit hi₁ ht.ok hnm ht.sound quiet_calm quiet_calm.1 (.predict Qs)
  obtain ⟨m₂, k₂, d1, d2, d3⟩ := fresh_answer hfit hi₂ ht₂.ok hnm ht₂.sound quiet_calm quiet_calm.1 (.predict Qs)
  obtain ⟨p1, p2, p3, p4, -⟩ := core_parts c2
  obtain ⟨q1, q2, q3, q4, -⟩ := core_parts d2
  have t1 : Tiny m₁ 1 0.1 := ht.of_parts p1 p2 p3 p4
  have t2 : Tiny m₂ 1 (1 + v) := ht₂.of_parts q1 q2 q3 q4
  have hQ : QueriesOK 1 1 Qs := ⟨rfl, fun X hX => by rw [List.mem_singleton.1 hX]; exact ⟨2, .inl ⟨rfl, rfl⟩⟩⟩
  have hW : ∀ Q ∈ Qs, Q.WF := fun X hX => by rw [List.mem_singleton.1 hX]; rfl
  obtain ⟨old, o1, -⟩ := C45_exact exactSolvers m₁ 1 k₁ Qs ⟨hfit, t1.ok, c1, by rw [t1.D]; exact hQ, hW⟩ quiet t1.mode t1.sound
  obtain ⟨new, w1, -⟩ := C45_exact exactSolvers m₂ 1 k₂ Qs ⟨hfit, t2.ok, d1, by rw [t2.D]; exact hQ, hW⟩ quiet t2.mode t2.sound
  have ho : m₁.answer exactSolvers quiet (.predict Qs) = .ok (.predicted old) := by
    unfold LLGP.answer
    simp only
    rw [o1]
    rfl
  have hnw : m₂.answer exactSolvers quiet (.predict Qs) = .ok (.predicted new) := by
    unfold LLGP.answer
    simp only
    rw [w1]
    rfl
  rw [ho] at c3
  rw [hnw] at d3
  have hdiff := tiny_differ (m := m₁) (m' := m₂) hQs t1 (by rw [p1, p2]; exact t2) c1 d1 (by rw [p1, p2]; exact q2) (q3.trans p3.symm) o1 w1
  -- the program
  obtain s1 := (step_kernel (sv := exactSolvers) fk (thriving_start exactSolvers))
  obtain ⟨r2, s2, e2⟩ := step_model hfit (k := 0) (a := tinyArgs fk) (e := quiet) (fk := fk) (fk' := m₀.fk) s1.1 rfl (by norm_num) hd hn hf (.inl ⟨rfl, rfl⟩) ht.sound quiet_calm
  obtain ⟨r3, s3, e3⟩ := step_model hfit (k := 0) (a := tinyArgs fk) (e := quiet) (fk := m₀.fk) (fk' := m₀.fk) s2 rfl (by norm_num) hd hn hf (.inr ⟨retuned_self ht.ok, rfl⟩) ht.sound quiet_calm
  obtain ⟨r4, s4, e4⟩ := step_assign hfit (k := 0) (fk := m₀.fk) (fk' := fk₂) (e := quiet) s3 rfl hr ht₂.sound quiet_calm
  have hvalid : ∀ rest, (∀ fks, ShValid fks rest) → ShValid [] ([.kernel fk, .model 0 (tinyArgs fk) quiet, .model 0 (tinyArgs fk) quiet, .assign 0 fk₂ quiet] ++ rest) := fun rest hrest =>
    ⟨1, fk, m₀.fk, fk, m₀.fk, rfl, by norm_num, hd, hn, hf, .inl ⟨rfl, rfl⟩, ht.sound, quiet_calm, 1, fk, m₀.fk, m₀.fk, m₀.fk, rfl, by norm_num, hd, hn, hf,
      .inr ⟨retuned_self ht.ok, rfl⟩, ht.sound, quiet_calm, m₀.fk, rfl, hr, ht₂.sound, quiet_calm, hrest _⟩
  have hv4 := hvalid [] fun _ => trivial
  have k2 : kernelsAfter exactSolvers [.kernel fk, .model 0 (tinyArgs fk) quiet] 0 = some m₀.fk := s2.kernels 0
  have k3 : kernelsAfter exactSolvers [.kernel fk, .model 0 (tinyArgs fk) quiet, .model 0 (tinyArgs fk) quiet] 0 = some m₀.fk := s3.kernels 0
  have k4 : kernelsAfter exactSolvers [.kernel fk, .model 0 (tinyArgs fk) quiet, .model 0 (tinyArgs fk) quiet, .assign 0 fk₂ quiet] 0 = some fk₂ := s4.kernels 0
  have hres : shResults exactSolvers [.kernel fk, .model 0 (tinyArgs fk) quiet, .model 0 (tinyArgs fk) quiet, .assign 0 fk₂ quiet] = [.ok .unit, .ok (.model 0), .ok (.model 1), .ok .unit] := by
    have n1 := e2.next
    show [_, _, _, _] = _
    rw [r2, r3, r4, n1]
    rfl
  have hmix := C99_mixes exactSolvers hfit [.kernel fk] [] [.assign 0 fk₂ quiet] 0 (tinyArgs fk) (tinyArgs fk) quiet quiet hv4 (fun _ h => by cases h) rfl m₀.fk fk₂ k2 k4 Qs quiet quiet_calm.1 quiet
    quiet_calm old new c3 d3
  have k5 : kernelsAfter exactSolvers ([.kernel fk, .model 0 (tinyArgs fk) quiet, .model 0 (tinyArgs fk) quiet, .assign 0 fk₂ quiet] ++ [.ask 0 (.predict Qs) quiet]) 0 = some fk₂ := s4.kernels 0
  have hcur := C99_current_partial exactSolvers hfit [.kernel fk, .model 0 (tinyArgs fk) quiet] [.assign 0 fk₂ quiet, .ask 0 (.predict Qs) quiet] [] 0 (tinyArgs fk) quiet
    (hvalid [.ask 0 (.predict Qs) quiet] fun _ => ⟨quiet_calm.1, trivial⟩) (fun op h => by
      simp only [List.mem_cons, List.not_mem_nil, or_false] at h
      rcases h with rfl | rfl <;> exact id) (fun _ h => by cases h) fk₂ k5 (.predict Qs) quiet quiet_calm.1 quiet quiet_calm
  obtain ⟨x, x1, x2⟩ := hcur
  rw [d3] at x2
  simp only [List.cons.injEq, and_true, true_and] at x2
  refine ⟨exactSolvers, fk, m₀.fk, fk₂, tinyArgs fk, Qs, old, new, (old.1, new.2), hfit, hv4, k3, k4, c3, d3, ?_, fun h => hdiff.2 ?_, fun h => hdiff.1 ?_⟩
  · have a1 : shResults exactSolvers [.kernel fk, .model 0 (tinyArgs fk) quiet, .model 0 (tinyArgs fk) quiet, .assign 0 fk₂ quiet, .ask 0 (.predict Qs) quiet] = _ := hmix
    have a2 : shResults exactSolvers [.kernel fk, .model 0 (tinyArgs fk) quiet, .model 0 (tinyArgs fk) quiet, .assign 0 fk₂ quiet, .ask 0 (.predict Qs) quiet, .ask 1 (.predict Qs) quiet] = _ := x1
    rw [a2]
    show shResults exactSolvers [.kernel fk, .model 0 (tinyArgs fk) quiet, .model 0 (tinyArgs fk) quiet, .assign 0 fk₂ quiet, .ask 0 (.predict Qs) quiet] ++ [x] = _
    rw [a1, ← x2]
    show (shResults exactSolvers [.kernel fk, .model 0 (tinyArgs fk) quiet, .model 0 (tinyArgs fk) quiet, .assign 0 fk₂ quiet] ++ _) ++ _ = _
    rw [hres]
    rfl
  · rw [← h]
  · rw [← h]

/-- Another way to lose the connection: a constructor that fails after it took the kernel object (here: while it makes the grids) leaves it with no model at all.
Assignments then succeed, but a model that used the object before keeps its old covariance. -/
theorem C99_orphaned (sv : Solvers) (hs : sv.Fit) (ops : List ShOp) (hv : ShValid [] ops) (k : ℕ) (a : LLGPArgs) (e : Env) (fk fk₀ fk' : FK) (hk : kernelsAfter sv ops k = some fk)
    (hl : linkedKernel a fk = some fk₀) (x : PyErr) (hx : llgpInit (a.withKernel fk) = .error x) (i : ℕ) (hi : i < modelsMade ops) (e' : Env) (he' : e'.Works) :
    ∃ K, shResults sv (ops ++ [.ask i .covariance e', .model k a e, .assign k fk' e', .ask i .covariance e']) = shResults sv ops ++ [.ok K, .error x, .ok .unit, .ok K] := by
  obtain ⟨fks, -, t, n⟩ := sh_program hs ops [] [] Shelf.start (thriving_start sv) (by rw [List.append_nil]; exact hv)
  rw [show Shelf.start.world.next = 0 from rfl, Nat.zero_add] at n
  obtain ⟨k', a', f, m, tm⟩ := t.models i (by rw [n]; exact hi)
  unfold kernelsAfter at hk
  unfold shResults
  rw [shHistory_append]
  set s := (shHistory sv ops Shelf.start).2 with hsdef
  obtain ⟨P, ok, -⟩ := tm.ok
  obtain ⟨l, hd⟩ : ∃ l, m.dense = .ok l := by
    obtain ⟨l, h1, -⟩ := dense_ok ok (sound_posDef ok tm.sound.1)
    exact ⟨l, h1⟩
  obtain ⟨w₁, d1, d2, d3, d4⟩ : ∃ w₁ : World, denseM true i s.world = (.ok l, w₁) ∧ w₁.heap = s.world.heap ∧ w₁.next = s.world.next ∧ w₁.caches.dense = some (i, l) := by
    unfold denseM cachedCall
    rw [tm.heap]
    simp only
    cases hc : s.world.caches.dense with
    | none =>
      simp only
      rw [hd]
      exact ⟨_, rfl, rfl, rfl, rfl⟩
    | some jv =>
      obtain ⟨j, v⟩ := jv
      simp only
      by_cases hj : j = i
      · subst hj
        obtain ⟨m', h1, h2⟩ := t.caches.dense j v hc
        rw [tm.heap] at h1
        cases h1
        rw [hd] at h2
        cases h2
        rw [if_pos ⟨trivial, rfl⟩]
        exact ⟨_, rfl, rfl, rfl, hc⟩
      · rw [if_neg fun hh => hj hh.2, hd]
        exact ⟨_, rfl, rfl, rfl, rfl⟩
  have x1 : shExec sv (.ask i .covariance e') s = (.ok (.matrix l.K), { s with world := w₁ }) := by
    have : execOp true sv (.ask i .covariance e') s.world = (.ok (.matrix l.K), w₁) := by
      show askM true sv e' i .covariance s.world = _
      unfold askM
      simp only
      rw [py_bind, d1]
      rfl
    unfold shExec
    simp only
    rw [this]
  have hn : execOp true sv (.new (a.withKernel fk) e) w₁ = (.error x, w₁) := by
    unfold execOp
    simp only
    rw [py_bind, lift_run, hx]
  have x2 : shExec sv (.model k a e) { s with world := w₁ } = (.error x, { s with world := showKernel s.uses k fk₀ w₁, kernels := setAt s.kernels k (some fk₀), linked := setAt s.linked k none }) := by
    unfold shExec
    simp only
    rw [hk]
    simp only
    rw [hl]
    simp only
    rw [hn]
    simp only [d3, ne_eq, not_true_eq_false, if_false]
  have x3 : shExec sv (.assign k fk' e') { s with world := showKernel s.uses k fk₀ w₁, kernels := setAt s.kernels k (some fk₀), linked := setAt s.linked k none } =
      (.ok .unit, { s with world := showKernel s.uses k fk' (showKernel s.uses k fk₀ w₁), kernels := setAt (setAt s.kernels k (some fk₀)) k (some fk'), linked := setAt s.linked k none }) := by
    unfold shExec
    simp only
    rw [setAt_self]
    simp only
    rw [setAt_self]
  have hheap : ∀ (f : FK) (w : World), (∃ mm, w.heap i = some mm) → ∃ mm, (showKernel s.uses k f w).heap i = some mm := by
    rintro f w ⟨mm, h⟩
    unfold showKernel
    simp only
    by_cases hu : s.uses i = some k
    · rw [if_pos hu, h]
      exact ⟨_, rfl⟩
    · rw [if_neg hu]
      exact ⟨_, h⟩
  obtain ⟨mm, hmm⟩ := hheap fk' _ (hheap fk₀ w₁ ⟨m, by rw [d2]; exact tm.heap⟩)
  have x4 : (shExec sv (.ask i .covariance e') { s with world := showKernel s.uses k fk' (showKernel s.uses k fk₀ w₁), kernels := setAt (setAt s.kernels k (some fk₀)) k (some fk'), linked := setAt s.linked k none }).1 =
      .ok (.matrix l.K) := covariance_cached (sv := sv) (e := e') hmm d4
  refine ⟨.matrix l.K, ?_⟩
  simp only [shHistory]
  rw [x1]
  simp only
  rw [x2]
  simp only
  rw [x3]
  simp only
  rw [x4]

/-- the hypotheses of `C99_dimension` can be met: a kernel object that was used with inputs of one dimension, and documented arguments with inputs of two -/
example : ∃ (fk fk₁ fk₀ : FK) (a b : LLGPArgs), ShValid [] [.kernel fk, .model 0 a quiet] ∧ kernelsAfter exactSolvers [.kernel fk, .model 0 a quiet] 0 = some fk₁ ∧
    fk₁.P = some 1 ∧ (b.withKernel fk₀).Documented 2 fk₀ := by
  obtain ⟨fk, m₀, hd, hf, hi, ht⟩ := exists_tiny
  obtain ⟨b, fk₀, m, hb, -⟩ := exists_model .exact false
  have hn : 0 < (tinyArgs fk).traceIterations := by norm_num [tinyArgs]
  obtain ⟨-, s2, -⟩ := step_model exactSolvers_fit (k := 0) (a := tinyArgs fk) (e := quiet) (fk := fk) (fk' := m₀.fk) (step_kernel (sv := exactSolvers) fk (thriving_start exactSolvers)).1 rfl
    (by norm_num) hd hn hf (.inl ⟨rfl, rfl⟩) ht.sound quiet_calm
  refine ⟨fk, m₀.fk, fk₀, tinyArgs fk, b, ⟨1, fk, m₀.fk, fk, m₀.fk, rfl, by norm_num, hd, hn, hf, .inl ⟨rfl, rfl⟩, ht.sound, quiet_calm, trivial⟩, s2.kernels 0, ht.ok.ready.input, ?_⟩
  have : b.withKernel fk₀ = b := by
    unfold LLGPArgs.withKernel
    rw [← hb.kernel]
  rw [this]
  exact hb

/-- the hypotheses of `C99_orphaned` can be met: `m` is a vector with too few entries -/
example : ∃ (fk fk₁ : FK) (a b : LLGPArgs), ShValid [] [.kernel fk, .model 0 a quiet] ∧ kernelsAfter exactSolvers [.kernel fk, .model 0 a quiet] 0 = some fk₁ ∧
    linkedKernel b fk₁ = some fk₁ ∧ llgpInit (b.withKernel fk₁) = .error .indexError := by
  obtain ⟨fk, m₀, hd, hf, hi, ht⟩ := exists_tiny
  have hn : 0 < (tinyArgs fk).traceIterations := by norm_num [tinyArgs]
  obtain ⟨-, s2, -⟩ := step_model exactSolvers_fit (k := 0) (a := tinyArgs fk) (e := quiet) (fk := fk) (fk' := m₀.fk) (step_kernel (sv := exactSolvers) fk (thriving_start exactSolvers)).1 rfl
    (by norm_num) hd hn hf (.inl ⟨rfl, rfl⟩) ht.sound quiet_calm
  obtain ⟨i1, -, -, -, -, i6⟩ := init_fields hi
  have hset : m₀.fk.setInputDim m₀.gp.inputDim = .ok m₀.fk := by
    unfold FK.setInputDim
    rw [if_pos (by rw [ht.ok.inputDim]; exact ht.ok.ready.input)]
  refine ⟨fk, m₀.fk, tinyArgs fk, { tinyArgs fk with m := .vec [] }, ⟨1, fk, m₀.fk, fk, m₀.fk, rfl, by norm_num, hd, hn, hf, .inl ⟨rfl, rfl⟩, ht.sound, quiet_calm, trivial⟩, s2.kernels 0, ?_, ?_⟩
  · unfold linkedKernel
    simp only
    rw [i6, i1]
    simp only
    rw [hset]
    rfl
  · unfold llgpInit LLGPArgs.withKernel
    simp only
    rw [i6]
    simp only [ok_bind]
    rw [i1]
    simp only
    rw [hset]
    simp only [ok_bind]
    unfold generateGrids
    rw [ht.group]
    simp [mapExcept, generateGrid, wrapOpt, tinyArgs]
    rfl

end Verif
