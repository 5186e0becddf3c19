import Verif.Proofs.Stretched
import Verif.Proofs.MadeFrom

/-! C87: the units in which the inputs are measured do not matter. -/

namespace Verif

theorem stretched_points {s : ℕ → ℝ} {X : NDArr ℝ} {n P : ℕ} (h : PointsShape X n P) : PointsShape (X.stretched s) n P ∧ (X.stretched s).WF := by
  rcases h with ⟨h, rfl⟩ | h
  · unfold NDArr.stretched
    rw [h]
    exact ⟨.inl ⟨rfl, rfl⟩, by show (vmk _ _).length = _; rw [vmk_length]; simp⟩
  · unfold NDArr.stretched
    rw [h]
    refine ⟨.inr rfl, ?_⟩
    show (Arr2.stretched s ⟨n, P, X.data⟩).data.length = [n, P].prod
    simp [Arr2.stretched, Arr2.of]

theorem stretched_queries {s : ℕ → ℝ} {D P : ℕ} {Qs : List (NDArr ℝ)} (h : QueriesOK D P Qs) :
    QueriesOK D P (Qs.map (NDArr.stretched s)) ∧ (∀ Q ∈ Qs.map (NDArr.stretched s), Q.WF) ∧ SameQueries P D id (Corr P fun c x => x * s c) Qs (Qs.map (NDArr.stretched s)) := by
  refine ⟨⟨by rw [List.length_map]; exact h.1, fun X hX => ?_⟩, fun X hX => ?_, ?_⟩
  · obtain ⟨Q, hQ, rfl⟩ := List.mem_map.1 hX
    obtain ⟨n, hn⟩ := h.2 Q hQ
    exact ⟨n, (stretched_points hn).1⟩
  · obtain ⟨Q, hQ, rfl⟩ := List.mem_map.1 hX
    obtain ⟨n, hn⟩ := h.2 Q hQ
    exact (stretched_points hn).2
  · refine ⟨fun d _ => by rw [stretched_lens]; rfl, by rw [stretched_lens], fun d hd i hi => ?_⟩
    exact stretched_point h.2 (by rw [h.1]; exact hd) hi

/-- up-to-date models that differ in the units of the inputs -/
theorem stretched_answer {sv : Solvers} (hf : sv.Fit) (hx : sv.Exact) {s : ℕ → ℝ} (hs : ∀ c, 0 < s c) {P : ℕ} {a a' : LLGPArgs} (hst : a.Stretched s a') {m m' : LLGP} (hok : m.OK P)
    (hok' : m'.OK P) {k k' : LLKernel} (hc : m.Current sv k) (hc' : m'.Current sv k') (hmode : m'.prediction = m.prediction) (hfk : m.fk.Stretched s m'.fk) (hso : m.fk.Sound)
    (hn : ∀ ad ∈ m.fk.activeDims.map Prod.fst, ad.Nodup) (ha : m.MadeFrom P a) (ha' : m'.MadeFrom P a') {e e' : Env} (he : e.Works) (he' : e'.Works) {q : Query}
    (hq : q.Fits m.fk.D P) : m'.answer sv e' (q.stretched s) = m.answer sv e q := by
  obtain ⟨R, hl, hcov⟩ := stretched_isomorphic hs hst hok hok' hmode hfk ha ha'
  have hso' := stretched_sound hs hfk hso
  obtain ⟨l, l', d1, d2, d3, d4, d5⟩ := R.numbers hf hx hc hc' hso hso' hn
  have hgp : m'.gp.inputDim = m.gp.inputDim ∧ m'.gp.outputDim = m.gp.outputDim ∧ m'.gp.normalizer = m.gp.normalizer := by
    obtain ⟨fk, m0, q1, q2, q3, -⟩ := ha
    obtain ⟨fk', m0', q1', q2', q3', -⟩ := ha'
    obtain ⟨i1, i2, i3, -⟩ := documented_fields q1 q2
    obtain ⟨j1, j2, j3, -⟩ := documented_fields q1' q2'
    rw [q3, q3', i1, i2, i3, j1, j2, j3, hst.Xs, List.length_map, show a'.normalize = a.normalize by rw [hst.same], show a'.Ys = a.Ys by rw [hst.same]]
    exact ⟨rfl, rfl, rfl⟩
  have hraw : ∀ Qs, QueriesOK m.fk.D P Qs → (∀ Q ∈ Qs, Q.WF) → m'.gp.predict (m'.rawPredict sv e') (Qs.map (NDArr.stretched s)) = m.gp.predict (m.rawPredict sv e) Qs ∧
      ∀ qs, m'.gp.predictQuantiles (m'.rawPredict sv e') (Qs.map (NDArr.stretched s)) qs = m.gp.predictQuantiles (m.rawPredict sv e) Qs qs := fun Qs h1 h2 => by
    obtain ⟨q1, q2, q3⟩ := stretched_queries (s := s) h1
    refine predict_of_other h1 q1 hok.inputDim hgp.1 hgp.2.1 hgp.2.2 ?_
    rcases R.raw hx ⟨hf, hok, hc, h1, h2⟩ ⟨hf, hok', hc', by rw [R.D]; exact q1, q2⟩ q3 hso hso' hn he he' with ⟨x, r1, r2⟩ | ⟨r, r', r1, r2, r3, r4, r5, r6, r7⟩
    · rw [r1, r2]
    · rw [r1, r2]
      refine congrArg _ (Prod.ext (list_ext_getD [] (r5.trans r3.symm) fun d hd => ?_) (list_ext_getD [] (r6.trans r4.symm) fun d hd => ?_))
      · exact (r7 d (by rw [← r5]; exact hd)).1
      · exact (r7 d (by rw [← r6]; exact hd)).2
  cases q with
  | predict Qs =>
    show (m'.gp.predict (m'.rawPredict sv e') _).map _ = (m.gp.predict (m.rawPredict sv e) Qs).map _
    rw [(hraw Qs hq.1 hq.2).1]
  | quantiles Qs qs =>
    show (m'.gp.predictQuantiles (m'.rawPredict sv e') _ qs).map _ = (m.gp.predictQuantiles (m.rawPredict sv e) Qs qs).map _
    rw [(hraw Qs hq.1 hq.2).2]
  | covariance =>
    show m'.dense.map _ = m.dense.map _
    have hpd := covMat_posDef hok.ready.wf hok.data.inputs.len hso.kernels hso.kappa hso.noise
    have hpd' := covMat_posDef hok'.ready.wf hok'.data.inputs.len hso'.kernels hso'.kappa hso'.noise
    obtain ⟨l₁, hl₁, c₁⟩ := (exactLMC_contents hok.ready hok.data).1 hpd
    obtain ⟨l₂, hl₂, c₂⟩ := (exactLMC_contents hok'.ready hok'.data).1 hpd'
    rw [show m.dense = .ok l₁ from hl₁, show m'.dense = .ok l₂ from hl₂]
    show Except.ok (Answer.matrix l₂.K) = Except.ok (Answer.matrix l₁.K)
    rw [c₁.K, c₂.K, hl]
    refine congrArg (fun A => Except.ok (Answer.matrix A)) ?_
    exact Arr2.of_congr fun r hr t ht => hcov r hr t ht
  | logDet =>
    show m'.dense.map _ = m.dense.map _
    rw [d1, d2]
    exact congrArg (fun x => Except.ok (Answer.extended x)) d3
  | normalQuadratic =>
    show m'.normalQuadratic.map _ = m.normalQuadratic.map _
    rw [d4]
  | logLikelihood =>
    show (do let l ← m'.dense; m'.logLikelihoodOf l).map _ = (do let l ← m.dense; m.logLikelihoodOf l).map _
    rw [d1, d2, ok_bind, ok_bind, d5]

/-- C87: two programs use their models as documented and made two models with the same arguments, except that in the second the inputs (and the bounds of the grid, where
given) are in other units, dimension `c` multiplied by `s c`, and the current length scales and periods of its kernels are in the new units too. Then every question gets
the same answer in both programs when the query points are also given in the new units, or the same exception, in every prediction mode. (Each kernel reads dimensions with
a common factor and none twice; the linear solves are exact. Anything else may differ between the programs.) -/
theorem C87_units (sv : Solvers) (hs : sv.Fit) (hx : sv.Exact) (ops ops' : List Op) (hv : ValidFrom [] ops) (hv' : ValidFrom [] ops') (i i' P : ℕ) (a a' : LLGPArgs)
    (given given' : Option FK) (h : setUp i none (trace sv ops) = some (a, given)) (h' : setUp i' none (trace sv ops') = some (a', given')) (fk fk' : FK) (hd : a.Documented P fk)
    (hd' : a'.Documented P fk') (s : ℕ → ℝ) (hp : ∀ c, 0 < s c) (hst : a.Stretched s a') (m m' : LLGP) (hm : modelsAfter sv ops i = some m) (hm' : modelsAfter sv ops' i' = some m')
    (hfk : m.fk.Stretched s m'.fk) (hn : ∀ ad ∈ m.fk.activeDims.map Prod.fst, ad.Nodup) (q : Query) (hq : q.Fits a.Xs.length P) (e e' : Env) (he : e.Works) (he' : e'.Works) :
    ∃ x, results sv (ops ++ [.ask i q e]) = results sv ops ++ [x] ∧ results sv (ops' ++ [.ask i' (q.stretched s) e']) = results sv ops' ++ [x] := by
  obtain ⟨P1, k, ha, hok, hc, hso, hmode⟩ := valid_made hs hv h hm
  obtain ⟨P2, k', ha', hok', hc', -, hmode'⟩ := valid_made hs hv' h' hm'
  have hin : ∀ {m : LLGP} {P₁ : ℕ} {a : LLGPArgs} {fk : FK}, m.MadeFrom P₁ a → m.OK P₁ → a.Documented P fk → P₁ = P ∧ m.fk.D = a.Xs.length := fun {m P₁ a fk} ha hok hd => by
    obtain ⟨fk₁, m0, q1, q2, q3, -⟩ := ha
    refine ⟨?_, ?_⟩
    · rw [← hok.inputDim, q3, (documented_fields hd q2).1]
    · rw [← hok.outputDim, q3, (documented_fields hd q2).2.1]
  obtain ⟨p1, hD⟩ := hin ha hok hd
  obtain ⟨p2, -⟩ := hin ha' hok' hd'
  subst p1
  subst p2
  rw [show a'.prediction = a.prediction by rw [hst.same], hmode] at hmode'
  refine ⟨m.answer sv e q, (C48_answers sv ops (validFrom_works ops [] hv) i m hm (by rw [hc.kernel]; simp) q e he).1, ?_⟩
  rw [(C48_answers sv ops' (validFrom_works ops' [] hv') i' m' hm' (by rw [hc'.kernel]; simp) _ e' he').1,
    stretched_answer hs hx hp hst hok hok' hc hc' (Option.some.inj hmode').symm hfk hso hn ha ha' he he' (by rw [hD]; exact hq)]

theorem Kern.stretched_valid {c : ℝ} (hc : 1 ≤ c) : ∀ k : Kern, k.Valid → (k.stretched c).Valid
  | .rbf g a, h => by
    have h : 0 < g := h
    show 0 < g / c ^ 2
    positivity
  | .matern32 g a, h => by
    have h : 0 < g := h
    show 0 < g / c
    positivity
  | .stdPeriodic g T a, h => by
    refine ⟨h.1, h.2.trans_le ?_⟩
    exact le_mul_of_one_le_right ((Real.exp_pos _).trans h.2).le hc
  | .identity a, _ => trivial
  | .scaled k v a, h => ⟨Kern.stretched_valid hc k h.1, h.2⟩

/-- parameters for inputs in twice as large numbers -/
theorem doubled_units {m : LLGP} {P : ℕ} (h : m.OK P) (hs : m.fk.Sound) : m.fk.Stretched (fun _ => 2) { m.fk with kernels := m.fk.kernels.map (Kern.stretched 2) } ∧
    m.fk.Retuned { m.fk with kernels := m.fk.kernels.map (Kern.stretched 2) } ∧ FK.Sound { m.fk with kernels := m.fk.kernels.map (Kern.stretched 2) } := by
  have h1 : m.fk.Stretched (fun _ => 2) { m.fk with kernels := m.fk.kernels.map (Kern.stretched 2) } :=
    ⟨rfl, List.length_map _, fun q hq => ⟨2, by norm_num, fun _ _ => rfl, map_getD_lt hq _ _ _⟩⟩
  have w := h.ready.wf
  refine ⟨h1, ⟨⟨w.Dpos, by rw [w.vecs]; exact (List.length_map _).symm, by rw [w.diags]; exact (List.length_map _).symm, w.noise, by rw [List.length_map]; exact w.counts,
    fun q hq => w.vec q (by rw [List.length_map] at hq; exact hq), fun q hq => w.diag q (by rw [List.length_map] at hq; exact hq), w.slfm, w.slfmRank, w.indep⟩, rfl, rfl, rfl, rfl, rfl,
    rfl, rfl, rfl, List.length_map _, fun q hq => ?_, fun k hk => ?_⟩, stretched_sound (fun _ => by norm_num) h1 hs⟩
  · show ((m.fk.kernels.map (Kern.stretched 2)).getD q _).activeDims = _
    rw [map_getD_lt hq _ _ (.identity none), Kern.stretched_activeDims]
  · obtain ⟨k', hk', rfl⟩ := List.mem_map.1 hk
    exact Kern.stretched_valid (by norm_num) k' (h.ready.valid k' hk')

/-- a program that makes one model and changes its parameters -/
theorem set_program {sv : Solvers} (hs : sv.Fit) {a : LLGPArgs} {fk fk' fk'' : FK} {P : ℕ} (hP : 0 < P) (hd : a.Documented P fk) (ht : 0 < a.traceIterations)
    (hf : fk.setInputDim P = .ok fk') (hso : fk'.Sound) (hr : fk'.Retuned fk'') (hso' : fk''.Sound) : ValidFrom [] [.new a quiet, .set 0 fk'' quiet] ∧
      setUp 0 none (trace sv [.new a quiet, .set 0 fk'' quiet]) = some (a, some fk'') ∧ ∃ m, modelsAfter sv [.new a quiet, .set 0 fk'' quiet] 0 = some m ∧ m.fk = fk'' := by
  have hv : ValidFrom [] [.new a quiet, .set 0 fk'' quiet] := ⟨P, fk, fk', hP, hd, ht, hf, hso, quiet_calm, fk', rfl, hr, hso', quiet_calm, trivial⟩
  have hpd : (fk'.covMat (padded P a.Xs)).PosDef := by
    obtain ⟨m, fk₁, g1, g2, g3, g4, g5⟩ := llgpInit_documented hd hP
    rw [hf] at g3
    cases g3
    have := sound_posDef g2 (g4 ▸ hso)
    rw [g4, g5] at this
    exact this
  obtain ⟨m, k, c, h1, h2, h3, h4, h5⟩ := new_completes hs hP hd ht hf quiet_calm (fun _ => hpd) true World.start
  have hr' : m.fk.Retuned fk'' := by rw [h3]; exact hr
  obtain ⟨m', k', c', g1, g2, g3, -⟩ := set_completes hs h2 hr' h4 quiet_calm (fun _ => sound_posDef (h2.retuned hr') hso') true
    (w := { World.start with heap := fun j => if j = World.start.next then some m else World.start.heap j, next := World.start.next + 1, caches := c }) (i := 0) rfl
  have hh : history true sv [.new a quiet, .set 0 fk'' quiet] World.start = ([.ok (.model 0), .ok .unit], (execOp true sv (.set 0 fk'' quiet) (execOp true sv (.new a quiet) World.start).2).2) := by
    simp only [history]
    rw [h1]
    simp only
    rw [g1]
    rfl
  refine ⟨hv, ?_, m', ?_, g3⟩
  · unfold trace
    rw [hh]
    rfl
  · show (history true sv [.new a quiet, .set 0 fk'' quiet] World.start).2.heap 0 = _
    rw [hh, h1]
    simp only
    rw [g1]
    rfl

/-- the inputs and length scales in half the unit: both programs get the same answers about the likelihood and, at the same places, the same predictions -/
example (mode : PredMode) : ∃ (a a' : LLGPArgs) (fk : FK) (x y : Except PyErr Answer), a.Xs ≠ a'.Xs ∧
    results exactSolvers ([.new a quiet] ++ [.ask 0 (.predict [⟨[1, 2], [0, 0]⟩, ⟨[2, 2], [0, 1, 1, 1]⟩]) quiet]) = results exactSolvers [.new a quiet] ++ [x] ∧
    results exactSolvers ([.new a' quiet, .set 0 fk quiet] ++ [.ask 0 (.predict [⟨[1, 2], [0, 0]⟩, ⟨[2, 2], [0, 2, 2, 2]⟩]) quiet]) =
      results exactSolvers [.new a' quiet, .set 0 fk quiet] ++ [x] ∧
    results exactSolvers ([.new a quiet] ++ [.ask 0 .logLikelihood quiet]) = results exactSolvers [.new a quiet] ++ [y] ∧
    results exactSolvers ([.new a' quiet, .set 0 fk quiet] ++ [.ask 0 .logLikelihood quiet]) = results exactSolvers [.new a' quiet, .set 0 fk quiet] ++ [y] := by
  obtain ⟨fk, ⟨h1, h2, h3, h4, -⟩, h⟩ := exists_documented_grid
  have hd := h mode false none (by simp)
  have hd' := documented_with_data hd (Xs := [⟨[2, 2], [0, 0, 2, 2]⟩, ⟨[2, 2], [0, 2, 2, 0]⟩]) (Ys := [⟨[2], [1, 3]⟩, ⟨[2], [5, 7]⟩])
    ⟨by simp, rfl, fun d hd => by
        have : d < 2 := hd
        interval_cases d
        · exact ⟨2, rfl, .inr rfl⟩
        · exact ⟨2, rfl, .inr rfl⟩, hd.data.spread⟩
    (fun X hX => by
      simp only [List.mem_cons, List.not_mem_nil, or_false] at hX
      rcases hX with rfl | rfl <;> rfl)
    (fun Y hY => by
      simp only [List.mem_cons, List.not_mem_nil, or_false] at hY
      rcases hY with rfl | rfl <;> exact ⟨rfl, by simp⟩) rfl
    (fun c hc => ⟨⟨2, 2, [0, 2, 2, 0]⟩, by simp [padded], c, hc, ⟨2, 2, [0, 2, 2, 0]⟩, by simp [padded], 1 - c, by show 1 - c < 2; omega, by
      interval_cases c <;> norm_num [Arr2.get]⟩)
  obtain ⟨m, -, hok, -, i4, i5, -, i7, -, i6⟩ := model_of_documented hd (mode := mode) (metrics := false) rfl rfl h1 h2 h3 h4 rfl
  obtain ⟨t1, t2, t3⟩ := doubled_units hok i4
  obtain ⟨v1, s1, m1, hm1, f1⟩ := new_program exactSolvers_fit (by norm_num) hd (by norm_num) rfl i6 i4
  obtain ⟨v2, s2, m2, hm2, f2⟩ := set_program exactSolvers_fit (by norm_num) hd' (by norm_num) i6 i4 t2 t3
  have key := C87_units exactSolvers exactSolvers_fit (fun K n A tol hK _ => exactSolvers_exact hK tol) _ _ v1 v2 0 0 2 _ _ none _ s1 s2 fk fk hd hd' (fun _ => 2) (fun _ => by norm_num)
    ⟨rfl, by simp [NDArr.stretched, Arr2.stretched, Arr2.of, Arr2.get, vmk, List.range_succ], trivial, trivial⟩ m1 m2 hm1 hm2 (by rw [f1, f2]; exact t1) (by
      rw [f1, i7]
      intro ad had
      simp only [List.map_cons, List.map_nil, List.mem_singleton] at had
      rw [had]
      decide)
  obtain ⟨x, hx1, hx2⟩ := key (.predict [⟨[1, 2], [0, 0]⟩, ⟨[2, 2], [0, 1, 1, 1]⟩]) ⟨⟨rfl, fun X hX => by
        simp only [List.mem_cons, List.not_mem_nil, or_false] at hX
        rcases hX with rfl | rfl
        · exact ⟨1, .inr rfl⟩
        · exact ⟨2, .inr rfl⟩⟩, fun X hX => by
        simp only [List.mem_cons, List.not_mem_nil, or_false] at hX
        rcases hX with rfl | rfl <;> rfl⟩ quiet quiet quiet_calm.1 quiet_calm.1
  obtain ⟨y, hy1, hy2⟩ := key .logLikelihood trivial quiet quiet quiet_calm.1 quiet_calm.1
  rw [show Query.stretched (fun _ => 2) (.predict [⟨[1, 2], [0, 0]⟩, ⟨[2, 2], [0, 1, 1, 1]⟩]) = .predict [⟨[1, 2], [0, 0]⟩, ⟨[2, 2], [0, 2, 2, 2]⟩] by
    simp [Query.stretched, NDArr.stretched, Arr2.stretched, Arr2.of, Arr2.get, vmk, List.range_succ]] at hx2
  refine ⟨_, _, _, x, y, fun e => ?_, hx1, hx2, hy1, hy2⟩
  have := congrArg (fun a : List (NDArr ℝ) => (a.getD 0 ⟨[], []⟩).data.getD 2 0) e
  norm_num at this

end Verif
