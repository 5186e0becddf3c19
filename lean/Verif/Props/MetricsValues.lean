import Verif.Spec.MetricsValues
import Verif.Proofs.LLGPComplete
import Verif.Props.LLGPViolated
import Verif.Proofs.BenchOpt
import Verif.Spec.BenchRun

/-! C127: what the metrics record. -/

namespace Verif

theorem infNorm_largest : ∀ v : List ℝ, LargestAbs (infNorm v) v
  | [] => ⟨by simp, by simp, fun _ => rfl⟩
  | [a] => by
    have e : infNorm [a] = |a| := max_eq_left (abs_nonneg a)
    exact ⟨by simp [e], fun _ => ⟨a, by simp, e.symm⟩, by simp⟩
  | a :: b :: v => by
    have ih := infNorm_largest (b :: v)
    have e : infNorm (a :: b :: v) = max |a| (infNorm (b :: v)) := rfl
    refine ⟨fun x hx => ?_, fun _ => ?_, by simp⟩
    · rw [e]
      rcases List.mem_cons.1 hx with rfl | hx
      · exact le_max_left _ _
      · exact (ih.bound x hx).trans (le_max_right _ _)
    · rw [e]
      rcases max_choice |a| (infNorm (b :: v)) with h | h
      · exact ⟨a, by simp, h.symm⟩
      · obtain ⟨x, hx, h1⟩ := ih.attained (by simp)
        exact ⟨x, List.mem_cons_of_mem _ hx, by rw [h1, h]⟩

theorem updateGradient_mem : ∀ (k : Kern) (grad out : List ℝ), k.updateGradient grad = .ok out → ∀ v ∈ out, v ∈ grad
  | .rbf _ _, grad, out, h, v, hv => by
    unfold Kern.updateGradient at h
    cases h0 : grad[0]? with
    | none => rw [h0] at h; cases h
    | some a =>
      rw [h0] at h
      cases h
      rw [List.mem_singleton] at hv
      rw [hv]
      exact List.mem_of_getElem? h0
  | .matern32 _ _, grad, out, h, v, hv => by
    unfold Kern.updateGradient at h
    cases h0 : grad[0]? with
    | none => rw [h0] at h; cases h
    | some a =>
      rw [h0] at h
      cases h
      rw [List.mem_singleton] at hv
      rw [hv]
      exact List.mem_of_getElem? h0
  | .stdPeriodic _ _ _, grad, out, h, v, hv => by
    unfold Kern.updateGradient at h
    cases h0 : grad[0]? with
    | none => rw [h0] at h; cases h
    | some a =>
      rw [h0] at h
      cases h1 : grad[1]? with
      | none => rw [h1] at h; cases h
      | some b =>
        rw [h1] at h
        cases h
        simp only [List.mem_cons, List.not_mem_nil, or_false] at hv
        rcases hv with rfl | rfl
        · exact List.mem_of_getElem? h0
        · exact List.mem_of_getElem? h1
  | .identity _, grad, out, h, v, hv => by
    unfold Kern.updateGradient at h
    cases h
    cases hv
  | .scaled k _ _, grad, out, h, v, hv => by
    unfold Kern.updateGradient at h
    rw [bind_ok] at h
    obtain ⟨inner, h1, h2⟩ := h
    cases h0 : grad.getLast? with
    | none => rw [h0] at h2; cases h2
    | some a =>
      rw [h0] at h2
      cases h2
      rcases List.mem_append.1 hv with hv | hv
      · exact List.mem_of_mem_dropLast (updateGradient_mem k _ _ h1 v hv)
      · rw [List.mem_singleton] at hv
        rw [hv]
        exact List.mem_of_getLast? h0

theorem mapExcept_zip_mem : ∀ (ks : List Kern) (gs outs : List (List ℝ)), mapExcept (fun kd : Kern × List ℝ => kd.1.updateGradient kd.2) (ks.zip gs) = .ok outs →
    ∀ v ∈ outs.flatten, v ∈ gs.flatten
  | [], _, outs, h, v, hv => by
    simp only [List.zip_nil_left, mapExcept] at h
    cases h
    cases hv
  | _ :: _, [], outs, h, v, hv => by
    simp only [List.zip_nil_right, mapExcept] at h
    cases h
    cases hv
  | k :: ks, g :: gs, outs, h, v, hv => by
    simp only [List.zip_cons_cons, mapExcept, bind_ok, pure_ok] at h
    obtain ⟨o, h1, os, h2, rfl⟩ := h
    rw [List.flatten_cons, List.mem_append] at hv ⊢
    rcases hv with hv | hv
    · exact .inl (updateGradient_mem k g o h1 v hv)
    · exact .inr (mapExcept_zip_mem ks gs os h2 v hv)

/-- the stored gradients are among those of the likelihood -/
theorem stored_among {δ : Type} {fk : FK} {ops : LikOps δ} {g : FKGrad} {ga : List ℝ} (h1 : fk.updateGradient ops = .ok g) (h2 : flatGradient fk ops = .ok ga) :
    ∀ v ∈ g.numbers, v ∈ ga := by
  unfold FK.updateGradient at h1
  unfold flatGradient at h2
  simp only [bind_ok, pure_ok] at h1 h2
  obtain ⟨-, -, a, a1, b, b1, c, c1, c', c2, d, d1, rfl⟩ := h1
  obtain ⟨a', a2, b', b2, c'', c3, d', d2, rfl⟩ := h2
  rw [a1] at a2
  rw [b1] at b2
  rw [c1] at c3
  rw [d1] at d2
  cases a2
  cases b2
  cases c3
  cases d2
  intro v hv
  unfold FKGrad.numbers at hv
  simp only [List.mem_append] at hv ⊢
  rcases hv with ((hv | hv) | hv) | hv
  · exact .inl (.inl (.inl hv))
  · exact .inl (.inl (.inr hv))
  · exact .inl (.inr (mapExcept_zip_mem _ _ _ c2 v hv))
  · exact .inr hv

theorem mapExcept_verbose : ∀ (outs : List SolveRet) (vs : List (List ℝ × ℕ × ℝ)), mapExcept verboseOf outs = .ok vs → outs = vs.map fun v => .verbose v.1 v.2.1 v.2.2
  | [], vs, h => by
    simp only [mapExcept] at h
    cases h
    rfl
  | o :: os, vs, h => by
    simp only [mapExcept, bind_ok, pure_ok] at h
    obtain ⟨v, h1, vs', h2, rfl⟩ := h
    rw [List.map_cons, ← mapExcept_verbose os vs' h2]
    cases o with
    | plain x => cases h1
    | verbose x c r => cases h1; rfl

theorem solved_values {sv : Solvers} {e : Env} (he : e.Works) {m : LLGP} {K : MatObj} {x : Metrics} (hx : m.metrics = some x) {kd : List MatObj × StochDeriv × Option Metrics}
    (h : approxFirst sv e m K = .ok kd) : ∃ (c : List ℝ → ℕ) (r : List ℝ → ℝ),
      (∀ b ∈ m.y :: signRows m.nIt K.rows e.z, ∃ v lg, iterativeSolve sv K b true true m.tol = .ok (.verbose v (c b) (r b), lg)) ∧
      kd.2.2 = some { x with iterations := x.iterations ++ [averageOver (fun b => (c b : ℝ)) (m.y :: signRows m.nIt K.rows e.z)],
                             solvError := x.solvError ++ [averageOver r (m.y :: signRows m.nIt K.rows e.z)] } := by
  unfold approxFirst at h
  split_ifs at h
  simp only [bind_ok, pure_ok] at h
  obtain ⟨vals, -, ks, -, d, h1, rfl⟩ := h
  unfold DerivService.generate at h1
  simp only [bind_ok, pure_ok] at h1
  obtain ⟨outs, h2, p, h3, rfl⟩ := h1
  haveI : Nonempty SolveRet := ⟨.plain []⟩
  have hwk : (m.service e).pool.Works ((m.service e).nIt + 1) := he _
  obtain ⟨g, g1, rfl⟩ := starmap_inv (by simpa [signRows] using hwk) h2
  rw [hx] at h3 g1
  unfold recordSolved at h3
  simp only [bind_ok, pure_ok] at h3
  obtain ⟨vs, h4, rfl⟩ := h3
  have h5 := mapExcept_verbose _ _ h4
  set bs := m.y :: signRows m.nIt K.rows e.z with hbs
  have hbs' : m.y :: signRows (m.service e).nIt K.rows e.z = bs := rfl
  rw [hbs'] at h5 g1
  refine ⟨fun b => match g b with | .verbose _ c _ => c | .plain _ => 0, fun b => match g b with | .verbose _ _ r => r | .plain _ => 0, fun b hb => ?_, ?_⟩
  · have hb1 := g1 b hb
    rw [except_map_bind, bind_ok] at hb1
    obtain ⟨r, hr, hr2⟩ := hb1
    obtain ⟨v, c, err, lg, rfl, -⟩ := solve_verbose hr
    simp only [Except.ok.injEq] at hr2
    refine ⟨v, lg, ?_⟩
    simp only [← hr2]
    exact hr
  · have hl : vs.length = bs.length := by
      have := congrArg List.length h5
      rw [List.length_map, List.length_map] at this
      exact this.symm
    have hc : (vs.map fun v => (v.2.1 : ℝ)) = bs.map fun b => (((match g b with | .verbose _ c _ => c | .plain _ => 0 : ℕ)) : ℝ) := by
      have := congrArg (List.map fun o => (((match o with | .verbose _ c _ => c | .plain _ => 0 : ℕ)) : ℝ)) h5
      rw [List.map_map, List.map_map] at this
      exact this.symm
    have hr : (vs.map fun v => v.2.2) = bs.map fun b => (match g b with | .verbose _ _ r => r | .plain _ => (0 : ℝ)) := by
      have := congrArg (List.map fun o => (match o with | .verbose _ _ r => r | .plain _ => (0 : ℝ))) h5
      rw [List.map_map, List.map_map] at this
      exact this.symm
    show some _ = some _
    unfold npMean averageOver
    rw [hc, hr, List.length_map, List.length_map]

theorem Reads.inv {α : Type} {i : ℕ} {m : LLGP} {x : PyM α} {r : Except PyErr α} (h : Reads i m x r) {w w' : World} (hw : w.heap i = some m) {a : α} (hx : x w = (.ok a, w')) :
    r = .ok a ∧ w'.heap i = some m := by
  obtain ⟨c, hc⟩ := h w hw
  rw [hc] at hx
  obtain ⟨h1, h2⟩ := Prod.mk.inj hx
  exact ⟨h1, h2 ▸ hw⟩

theorem checkpoint_inv {e : Env} {k : ℕ} {w w' : World} {a : Unit} (h : checkpoint e k w = (.ok a, w')) : w' = w := by
  rw [checkpoint_run] at h
  exact (Prod.mk.inj h).2.symm

theorem debug_reads {i : ℕ} {m : LLGP} {e : Env} : ∃ r, Reads i m (debugMessages false e i) r := by
  unfold debugMessages
  by_cases hd : e.debug = true
  · rw [if_pos hd]
    have h2 : Reads i m (normalQuadraticM i) m.normalQuadratic := Reads.selfBind (Reads.lift _)
    have h3 : Reads i m (logDetM false i) (do let l ← m.dense; .ok (logDetOf l)) := (Reads.cached _ _ _ i m).bind fun _ => Reads.pure _
    exact ⟨_, reads_logLik.bind fun _ => h2.bind fun _ => h3.bind fun _ => Reads.pure _⟩
  · rw [if_neg hd]
    exact ⟨_, Reads.pure _⟩

/-- what a completed update leaves -/
theorem update_metrics (sv : Solvers) (e : Env) (he : e.Works) (useCache : Bool) (i : ℕ) (w w' : World) (m : LLGP) (x : Metrics) (hw : w.heap i = some m) (hx : m.metrics = some x)
    (h : parametersChanged useCache sv e i w = (.ok (), w')) :
    ∃ (m' : LLGP) (x' : Metrics) (k : LLKernel) (l : ExactLMC) (g : FKGrad) (ga ge : List ℝ) (K : MatObj) (gks : List (List ℕ × GridKernelObj)) (c : List ℝ → ℕ) (err : List ℝ → ℝ)
      (r d s : ℝ) (v : Option ℝ),
      w'.heap i = some m' ∧ m'.metrics = some x' ∧ m'.fk = m.fk ∧
      genGridKernel m.fk m.dists m.interp m.lens = .ok (K, gks) ∧
      (∀ b ∈ m.y :: signRows m.nIt K.rows e.z, ∃ z lg, iterativeSolve sv K b true true m.tol = .ok (.verbose z (c b) (err b), lg)) ∧
      m'.kernel = some k ∧ flatGradient m.fk k.approx.ops = .ok ga ∧ LargestAbs r ga ∧
      m'.dense = .ok l ∧ flatGradient m.fk l.ops = .ok ge ∧ LargestAbs s ge ∧ ga.length = ge.length ∧ LargestAbs d (vsub ga ge) ∧
      m'.grad = some g ∧ (∀ y ∈ g.numbers, y ∈ ga) ∧
      m'.gp = m.gp ∧ m.fk.updateGradient k.approx.ops = .ok g ∧ (∃ kd gr, approxFirst sv e m K = .ok kd ∧ m.fk.evalKernelGradients (m.dists.map fun kd => (kd.1, .arr kd.2)) = .ok gr ∧
        k.approx = ⟨m.fk, m.y, m.lens, kd.1, K, kd.2.1, gr, m.interp⟩) ∧
      (logLikelihoodM useCache i w').1 = .ok v ∧
      x.Appends x' (averageOver (fun b => (c b : ℝ)) (m.y :: signRows m.nIt K.rows e.z)) (averageOver err (m.y :: signRows m.nIt K.rows e.z)) r (d / s) (v.getD 0) := by
  have hA := Agree.parametersChanged sv useCache false e i w trivial
  have hok : CachesOK sv w' := hA.2.1 _ _ h
  rw [hA.1] at h
  unfold parametersChanged at h
  obtain ⟨_, w0, h0, h⟩ := py_bind_ok.1 h
  have hw0 : w0.heap i = some m := by
    cases h0
    exact hw
  obtain ⟨_, w1, h1, h⟩ := py_bind_ok.1 h
  rcases replace_outcome sv e hw0 with ⟨Kg, kd, gr, k1, k2, k3, -, k5⟩ | ⟨y, w'', hbad, -⟩
  swap
  · rw [hbad] at h1
    cases h1
  rw [k5] at h1
  obtain ⟨-, rfl⟩ := Prod.mk.inj h1
  obtain ⟨c, err, s1, s2⟩ := solved_values he hx k2
  set m1 := m.replaced Kg kd gr with hm1
  obtain ⟨_, w2, h2, h⟩ := py_bind_ok.1 h
  obtain rfl := checkpoint_inv h2
  obtain ⟨_, w3, h3, h⟩ := py_bind_ok.1 h
  obtain ⟨rd, hrd⟩ := debug_reads (i := i) (m := m1) (e := e)
  have hw3 := (hrd.inv (put_heap _ _ _) h3).2
  obtain ⟨_, w4, h4, h⟩ := py_bind_ok.1 h
  unfold storeGradient at h4
  obtain ⟨m1', w5, h5, h4⟩ := py_bind_ok.1 h4
  rw [self_run hw3] at h5
  cases h5
  obtain ⟨k, w6, h6, h4⟩ := py_bind_ok.1 h4
  rw [lift_run] at h6
  obtain ⟨h6e, rfl⟩ := Prod.mk.inj h6
  obtain ⟨g, w7, h7, h4⟩ := py_bind_ok.1 h4
  rw [lift_run] at h7
  obtain ⟨h7e, rfl⟩ := Prod.mk.inj h7
  rw [modify_run hw3] at h4
  obtain ⟨-, rfl⟩ := Prod.mk.inj h4
  obtain ⟨_, w8, h8, h⟩ := py_bind_ok.1 h
  obtain rfl := checkpoint_inv h8
  set m2 : LLGP := { m1 with grad := some g } with hm2
  have hmet : m2.metrics = some { x with iterations := x.iterations ++ [averageOver (fun b => (c b : ℝ)) (m.y :: signRows m.nIt (Prod.fst Kg).rows e.z)], solvError := x.solvError ++ [averageOver err (m.y :: signRows m.nIt (Prod.fst Kg).rows e.z)] } := s2
  unfold recordMetrics at h
  obtain ⟨m2', w9, h9, h⟩ := py_bind_ok.1 h
  rw [self_run (put_heap _ _ _)] at h9
  obtain ⟨h9e, rfl⟩ := Prod.mk.inj h9
  obtain rfl := Except.ok.inj h9e
  rw [hmet] at h
  simp only at h
  obtain ⟨k', w10, h10, h⟩ := py_bind_ok.1 h
  rw [lift_run] at h10
  obtain ⟨h10e, rfl⟩ := Prod.mk.inj h10
  obtain ⟨l, w11, h11, h⟩ := py_bind_ok.1 h
  have r11 : Reads i m2 (denseM false i) m2.dense := Reads.cached _ _ _ i m2
  obtain ⟨hl, hw11⟩ := r11.inv (put_heap _ _ _) h11
  obtain ⟨ga, w12, h12, h⟩ := py_bind_ok.1 h
  rw [lift_run] at h12
  obtain ⟨h12e, rfl⟩ := Prod.mk.inj h12
  obtain ⟨ge, w13, h13, h⟩ := py_bind_ok.1 h
  rw [lift_run] at h13
  obtain ⟨h13e, rfl⟩ := Prod.mk.inj h13
  obtain ⟨ne, w14, h14, h⟩ := py_bind_ok.1 h
  rw [lift_run] at h14
  obtain ⟨h14e, rfl⟩ := Prod.mk.inj h14
  unfold gradNorms at h14e
  split_ifs at h14e with hlen
  obtain rfl := Except.ok.inj h14e
  obtain ⟨_, w15, h15, h⟩ := py_bind_ok.1 h
  rw [modify_run hw11] at h15
  obtain ⟨-, rfl⟩ := Prod.mk.inj h15
  obtain ⟨_, w16, h16, h⟩ := py_bind_ok.1 h
  obtain rfl := checkpoint_inv h16
  obtain ⟨v, w17, h17, h⟩ := py_bind_ok.1 h
  obtain ⟨hv, hw17⟩ := reads_logLik.inv (put_heap _ _ _) h17
  rw [modify_run hw17] at h
  obtain ⟨-, rfl⟩ := Prod.mk.inj h
  have hkk : k' = k := Except.ok.inj (h10e.symm.trans h6e)
  subst hkk
  have hker : m1.kernel = some k' := by
    unfold LLGP.theKernel at h6e
    cases hk : m1.kernel with
    | none => rw [hk] at h6e; cases h6e
    | some k0 => rw [hk] at h6e; rw [Except.ok.inj h6e]
  refine ⟨_, ⟨x.iterations ++ [averageOver (fun b => (c b : ℝ)) (m.y :: signRows m.nIt (Prod.fst Kg).rows e.z)], x.gradNorms ++ [infNorm ga],
    x.gradError ++ [infNorm (vsub ga ge) / infNorm ge], x.solvError ++ [averageOver err (m.y :: signRows m.nIt (Prod.fst Kg).rows e.z)], x.logLikely ++ [v.getD 0]⟩, k', l, g, ga, ge, Kg.1, Kg.2, c, err, infNorm ga, infNorm (vsub ga ge), infNorm ge, v, put_heap _ _ _, ?_, rfl, k1, s1, hker, h12e, infNorm_largest _, hl, h13e, infNorm_largest _, hlen,
    infNorm_largest _, rfl, stored_among h7e h12e, rfl, h7e, ⟨kd, gr, k2, k3, ?_⟩, ?_, ?_⟩
  rotate_left
  · obtain rfl := Option.some.inj hker
    rfl
  · rw [(Agree.logLikelihood sv useCache false i _ hok).1]
    obtain ⟨c', hc'⟩ := reads_logLik (i := i) _ (put_heap w17 i _)
    rw [hc']
    exact hv
  rotate_left
  · show Option.map _ (Option.map _ m2.metrics) = _
    rw [hmet]
    rfl
  · exact ⟨rfl, rfl, rfl, rfl, rfl⟩

/-- C127: an update of a model with metrics, if it completes, appends one entry to each series: the averages, over the linear systems it solved, of the iterations and of the residuals the
solver reports; the largest absolute value of the gradient; the largest absolute value of the error of the gradient, relative to that of the exact gradient; and the log likelihood. Older
entries stay. The gradients the parameters are given are among those the norm is taken of, and the log likelihood is what the model answers when asked afterwards. -/
theorem C127_values (sv : Solvers) (e : Env) (he : e.Works) (useCache : Bool) (i : ℕ) (w w' : World) (m : LLGP) (x : Metrics) (hw : w.heap i = some m) (hx : m.metrics = some x)
    (h : parametersChanged useCache sv e i w = (.ok (), w')) :
    ∃ (m' : LLGP) (x' : Metrics) (k : LLKernel) (l : ExactLMC) (g : FKGrad) (ga ge : List ℝ) (K : MatObj) (gks : List (List ℕ × GridKernelObj)) (c : List ℝ → ℕ) (err : List ℝ → ℝ)
      (r d s : ℝ) (v : Option ℝ),
      w'.heap i = some m' ∧ m'.metrics = some x' ∧ m'.fk = m.fk ∧
      genGridKernel m.fk m.dists m.interp m.lens = .ok (K, gks) ∧
      (∀ b ∈ m.y :: signRows m.nIt K.rows e.z, ∃ z lg, iterativeSolve sv K b true true m.tol = .ok (.verbose z (c b) (err b), lg)) ∧
      m'.kernel = some k ∧ flatGradient m.fk k.approx.ops = .ok ga ∧ LargestAbs r ga ∧
      m'.dense = .ok l ∧ flatGradient m.fk l.ops = .ok ge ∧ LargestAbs s ge ∧ ga.length = ge.length ∧ LargestAbs d (vsub ga ge) ∧
      m'.grad = some g ∧ (∀ y ∈ g.numbers, y ∈ ga) ∧
      (logLikelihoodM useCache i w').1 = .ok v ∧
      x.Appends x' (averageOver (fun b => (c b : ℝ)) (m.y :: signRows m.nIt K.rows e.z)) (averageOver err (m.y :: signRows m.nIt K.rows e.z)) r (d / s) (v.getD 0) := by
  obtain ⟨m', x', k, l, g, ga, ge, K, gks, c, err, r, d, s, v, q1, q2, q3, q4, q5, q6, q7, q8, q9, q10, q11, q12, q13, q14, q15, -, -, -, q16, q17⟩ :=
    update_metrics sv e he useCache i w w' m x hw hx h
  exact ⟨m', x', k, l, g, ga, ge, K, gks, c, err, r, d, s, v, q1, q2, q3, q4, q5, q6, q7, q8, q9, q10, q11, q12, q13, q14, q15, q16, q17⟩

theorem OpsFor.flat_numbers {δ : Type} {fk : FK} {P : ℕ} (h : fk.Ready P) {ops : LikOps δ} {own : ℕ → ℕ} {kv : ℕ → (ℝ → ℝ) → ℕ → ℕ → ℝ} {fs : ℕ → List (ℝ → ℝ)}
    {Dv : (ℕ → ℕ → ℝ) → ℝ} (ho : OpsFor ops fk own kv fs Dv) : flatGradient fk ops = .ok (gradOf fk own kv fs Dv).numbers := by
  unfold flatGradient
  rw [ho.vecs h, ho.diags, ho.kerns h, ho.noises]
  rfl

/-- C127, for models with valid parameters: the norm is that of exactly the gradients stored in the parameters, and the error is relative to the partial derivatives of the exact log
likelihood. -/
theorem C127_exact (sv : Solvers) (hs : sv.Fit) (e : Env) (he : e.Works) (useCache : Bool) (i : ℕ) (w w' : World) (m : LLGP) (P : ℕ) (hm : m.OK P) (hn : 0 < m.nIt) (hso : m.fk.Sound) (x : Metrics)
    (hw : w.heap i = some m) (hx : m.metrics = some x) (h : parametersChanged useCache sv e i w = (.ok (), w')) :
    ∃ (m' : LLGP) (x' : Metrics) (g E : FKGrad) (r d s : ℝ), w'.heap i = some m' ∧ m'.metrics = some x' ∧ m'.grad = some g ∧ TrueGradient m.fk m.gp.Xs m.gp.Ys E ∧
      g.numbers.length = E.numbers.length ∧ LargestAbs r g.numbers ∧ LargestAbs s E.numbers ∧ LargestAbs d (vsub g.numbers E.numbers) ∧
      x'.gradNorms = x.gradNorms ++ [r] ∧ x'.gradError = x.gradError ++ [d / s] := by
  obtain ⟨m', x', k, l, g, ga, ge, K, gks, c, err, r, d, s, v, q1, q2, q3, q4, -, -, q7, q8, q9, q10, q11, q12, q13, q14, -, q15, q16, ⟨kd, gr, t1, t2, t3⟩, -, q17⟩ :=
    update_metrics sv e he useCache i w w' m x hw hx h
  obtain ⟨l0, l1, l2⟩ := dense_ok hm (sound_posDef hm hso)
  have hl : m.dense = .ok l := by
    rw [← q9]
    unfold LLGP.dense
    rw [q3, q15]
  rw [hl] at l1
  cases l1
  obtain ⟨fs', Dv', ho'⟩ := exact_opsFor hm.ready hm.data.inputs l2
  have hge := ho'.flat_numbers hm.ready
  rw [q10] at hge
  cases hge
  obtain ⟨K', gks', g1, g2, g3, g4, -⟩ := genGridKernel_model hm
  rw [q4] at g1
  cases g1
  obtain ⟨ks, d0, x0, a1, a2, a3, a4, a5, a6⟩ := approxFirst_ok hs he hm ⟨g4, g2, g3⟩
  rw [t1] at a1
  cases a1
  obtain ⟨fs, hfs⟩ := exists_gradFns hm
  have a7 := evalKernelGradients_model hm hfs
  obtain ⟨Dv, hDv⟩ := derivative_value a3 (by rw [a4]; exact hn) a5 a6
  have hla : ApproxOf m fs k.approx := by
    rw [t3]
    exact ⟨rfl, rfl, rfl, a2, t2.symm.trans a7 ▸ a7⟩
  have ho := approx_opsFor hm hfs hla (by rw [t3]; exact hDv)
  have hga := ho.flat_numbers hm.ready
  rw [q7] at hga
  cases hga
  rw [ho.updateGradient hm.ready] at q16
  cases q16
  exact ⟨m', x', _, _, r, d, s, q1, q2, q14, exact_true hm.ready hm.data hl ho', q12, q8, q11, q13, q17.gradNorms, q17.gradError⟩

/-- hypotheses of C127: a model that keeps metrics, in any prediction mode, just after it was made; the next update completes -/
example (mode : PredMode) : ∃ (a : LLGPArgs) (m : LLGP) (x : Metrics), a.prediction = mode.name ∧ modelsAfter exactSolvers [.new a quiet] 0 = some m ∧ m.metrics = some x ∧ x.AllHave 1 ∧
    quiet.Works ∧ ∃ w', parametersChanged true exactSolvers quiet 0 (history true exactSolvers [.new a quiet] World.start).2 = (.ok (), w') := by
  obtain ⟨a, b, fk, ops, hmet, hmode, rfl, hv⟩ := exists_program mode
  have hv1 : ValidFrom [] [.new a quiet] := by
    obtain ⟨P, fk1, fk2, q1, q2, q3, q4, q5, q6, -⟩ := hv
    exact ⟨P, fk1, fk2, q1, q2, q3, q4, q5, q6, trivial⟩
  have hc := (C69_valid_program exactSolvers exactSolvers_fit _ hv1).1
  have hw : ∀ op ∈ [Op.new a quiet], op.Works := by
    intro op hop
    rw [List.mem_singleton] at hop
    subst hop
    intro e he
    cases he
    exact quiet_calm.1
  have ht : trace exactSolvers [.new a quiet] = [(.new a quiet, .ok (.model 0))] := by
    rcases e0 : execOp true exactSolvers (.new a quiet) World.start with ⟨r0, w0⟩
    unfold trace at hc ⊢
    unfold Completed at hc
    simp only [history, List.zip_cons_cons, List.zip_nil_right, e0] at hc ⊢
    obtain ⟨a0, rfl⟩ := hc _ (List.mem_cons_self ..) trivial
    obtain ⟨rfl, -⟩ := new_number quiet_calm.1 e0
    rfl
  have hs : setUp 0 none (trace exactSolvers [.new a quiet]) = some (a, none) := by rw [ht]; rfl
  have hu : updatesSince 0 0 (trace exactSolvers [.new a quiet]) = 1 := by rw [ht]; rfl
  obtain ⟨m, hm, -, hx⟩ := C50_metrics exactSolvers _ hw hc 0 a _ hs
  obtain ⟨x, hx1, hx2⟩ := hx hmet
  rw [hu] at hx2
  obtain ⟨fks, hh, -⟩ := valid_extend exactSolvers_fit [.new a quiet] [] World.start (healthy_start _) hv1
  have hP : ∃ P k, m.OK P ∧ 0 < m.nIt ∧ m.Current exactSolvers k ∧ m.fk.Sound := hh.at hm
  obtain ⟨P, k, q1, q2, -, q4⟩ := hP
  exact ⟨a, m, x, hmode, hm, hx1, hx2, quiet_calm.1, update_completes exactSolvers_fit quiet_calm.1 quiet_calm.2 q1 q2 (fun _ => sound_posDef q1 q4) hm true⟩

end Verif
