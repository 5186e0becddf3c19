import Verif.Proofs.Reordered
import Verif.Props.LLGPViolated
import Verif.Props.Observations

/-! C82: the order in which the observations are given does not matter. -/

namespace Verif

open Matrix

theorem alpha_exact {sv : Solvers} {m : LLGP} {P : ℕ} (h : m.OK P) {k : LLKernel} (hc : m.Current sv k)
    (hx : ExactSolves sv k.approx.K m.n (m.fk.skiFull m.axesOf m.fk.extraOf m.gp.Xs) m.tol) :
    toVec m.n k.approx.alpha = (m.fk.skiMat m.axesOf m.fk.extraOf m.gp.Xs)⁻¹.mulVec (toVec m.n m.y) := by
  obtain ⟨a, lg, h1, h2, h3⟩ := hx m.y (y_length h)
  obtain ⟨lg', h4⟩ := hc.solved
  rw [h1] at h4
  cases h4
  exact h3

theorem Rearranged.numbers {sv : Solvers} (hs : sv.Fit) (hx : sv.Exact) {m m' : LLGP} {P : ℕ} (R : Rearranged P m m') {k k' : LLKernel} (hc : m.Current sv k)
    (hc' : m'.Current sv k') (hso : m.fk.Sound) (hn : ∀ ad ∈ m.fk.activeDims.map Prod.fst, ad.Nodup) :
    ∃ l l', m.dense = .ok l ∧ m'.dense = .ok l' ∧ logDetOf l' = logDetOf l ∧ m'.normalQuadratic = m.normalQuadratic ∧ m'.logLikelihoodOf l' = m.logLikelihoodOf l := by
  have hso' : m'.fk.Sound := by rw [R.fk]; exact hso
  have hn' : ∀ ad ∈ m'.fk.activeDims.map Prod.fst, ad.Nodup := by rw [R.fk]; exact hn
  have hpd := covMat_posDef R.ok.ready.wf R.ok.data.inputs.len hso.kernels hso.kappa hso.noise
  have hpd' := covMat_posDef R.ok'.ready.wf R.ok'.data.inputs.len hso'.kernels hso'.kappa hso'.noise
  obtain ⟨l, hl, hd⟩ := (C40_log_det m P R.ok).1 hpd
  obtain ⟨l', hl', hd'⟩ := (C40_log_det m' P R.ok').1 hpd'
  obtain ⟨q1, q2⟩ := C40_log_likelihood sv hs m P R.ok k hc l hl
  obtain ⟨q1', q2'⟩ := C40_log_likelihood sv hs m' P R.ok' k' hc' l' hl'
  have hdet : (m'.fk.covMat m'.gp.Xs).det = (m.fk.covMat m.gp.Xs).det := by rw [R.fk]; exact R.det
  have hq : toVec m'.n m'.y ⬝ᵥ toVec m'.n k'.approx.alpha = toVec m.n m.y ⬝ᵥ toVec m.n k.approx.alpha := by
    rw [alpha_exact R.ok hc (exact_of_current hs hx R.ok hc hso hn _), alpha_exact R.ok' hc' (exact_of_current hs hx R.ok' hc' hso' hn' _), R.fk, R.axes]
    exact R.quadratic
  refine ⟨l, l', hl, hl', ?_, ?_, ?_⟩
  · rw [hd, hd', hdet]
  · rw [q1, q1', hq]
  · rw [q2, q2', hq, hdet, R.n_eq]

theorem Rearranged.answer {sv : Solvers} (hs : sv.Fit) (hx : sv.Exact) {m m' : LLGP} {P : ℕ} (R : Rearranged P m m') {k k' : LLKernel} (hc : m.Current sv k)
    (hc' : m'.Current sv k') (hso : m.fk.Sound) (hn : ∀ ad ∈ m.fk.activeDims.map Prod.fst, ad.Nodup) {e e' : Env} (he : e.Works) (he' : e'.Works) {q : Query}
    (hq : q.Plain m.fk.D P) : m'.answer sv e' q = m.answer sv e q := by
  obtain ⟨l, l', hl, hl', h1, h2, h3⟩ := R.numbers hs hx hc hc' hso hn
  cases q with
  | predict Qs =>
    show (m'.gp.predict (m'.rawPredict sv e') Qs).map _ = (m.gp.predict (m.rawPredict sv e) Qs).map _
    rw [R.gp, (predict_of_raw hq.1 R.ok.inputDim (R.raw hs hx hc hc' hso hn he he' (padded_inputs hq.1 hq.2))).1]
  | quantiles Qs qs =>
    show (m'.gp.predictQuantiles (m'.rawPredict sv e') Qs qs).map _ = (m.gp.predictQuantiles (m.rawPredict sv e) Qs qs).map _
    rw [R.gp, (predict_of_raw hq.1 R.ok.inputDim (R.raw hs hx hc hc' hso hn he he' (padded_inputs hq.1 hq.2))).2]
  | covariance => exact hq.elim
  | logDet =>
    show m'.dense.map _ = m.dense.map _
    rw [hl, hl']
    exact congrArg (fun x => Except.ok (Answer.extended x)) h1
  | normalQuadratic =>
    show m'.normalQuadratic.map _ = m.normalQuadratic.map _
    rw [h2]
  | logLikelihood =>
    show (do let l ← m'.dense; m'.logLikelihoodOf l).map _ = (do let l ← m.dense; m.logLikelihoodOf l).map _
    rw [hl, hl', ok_bind, ok_bind, h3]

/-- the two models of two programs -/
theorem reordered_models (sv : Solvers) (hs : sv.Fit) (ops ops' : List Op) (hv : ValidFrom [] ops) (hv' : ValidFrom [] ops') (i i' P : ℕ) (a a' : LLGPArgs)
    (given : Option FK) (h : setUp i none (trace sv ops) = some (a, given)) (h' : setUp i' none (trace sv ops') = some (a', given)) (fk : FK) (hd : a.Documented P fk)
    (hd' : a'.Documented P fk) (hr : a.Reordered P a') (m m' : LLGP) (hm : modelsAfter sv ops i = some m) (hm' : modelsAfter sv ops' i' = some m') :
    ∃ k k', Rearranged P m m' ∧ m.Current sv k ∧ m'.Current sv k' ∧ m.fk.Sound := by
  obtain ⟨hc, hall⟩ := C69_valid_program sv hs ops hv
  obtain ⟨hc', hall'⟩ := C69_valid_program sv hs ops' hv'
  obtain ⟨P1, k, hok, hcur, hso⟩ := hall i m hm
  obtain ⟨P2, k', hok', hcur', -⟩ := hall' i' m' hm'
  obtain ⟨a₁, g₁, m₁, -, e1, e2, e3, f1, f2, f3, -, -, -⟩ := C48_current sv ops (validFrom_works ops [] hv) hc i m hm
  obtain ⟨a₂, g₂, m₂, -, b1, b2, b3, c1, c2, c3, -, -, -⟩ := C48_current sv ops' (validFrom_works ops' [] hv') hc' i' m' hm'
  rw [h] at e1
  cases e1
  rw [h'] at b1
  cases b1
  obtain ⟨i1, -, -, s1, -⟩ := documented_fields hd e2
  obtain ⟨i2, -, -, s2, -⟩ := documented_fields hd' b2
  have p1 : P1 = P := by rw [← hok.inputDim, f1, i1]
  have p2 : P2 = P := by rw [← hok'.inputDim, c1, i2]
  subst p1
  subst p2
  rw [s1] at s2
  exact ⟨k, k', reordered_rearranged hd hd' hr e2 b2 hok hok' (by rw [b3, e3, Except.ok.inj s2]) f1 c1 f2 c2 f3 c3, hcur, hcur', hso⟩

/-- C82: two programs that use their models as documented and made two models with the same arguments except for the order of the observations of each output, and
last gave them the same parameters, get the same answer to every question about predictions, quantiles, the determinant and the likelihood, or the same exception,
in every prediction mode. (With linear solves that are exact; kernels do not read a dimension twice. Anything else may differ between the programs.) -/
theorem C82_order (sv : Solvers) (hs : sv.Fit) (hx : sv.Exact) (ops ops' : List Op) (hv : ValidFrom [] ops) (hv' : ValidFrom [] ops') (i i' P : ℕ) (a a' : LLGPArgs)
    (given : Option FK) (h : setUp i none (trace sv ops) = some (a, given)) (h' : setUp i' none (trace sv ops') = some (a', given)) (fk : FK) (hd : a.Documented P fk)
    (hd' : a'.Documented P fk) (hr : a.Reordered P a') (m m' : LLGP) (hm : modelsAfter sv ops i = some m) (hm' : modelsAfter sv ops' i' = some m')
    (hn : ∀ ad ∈ m.fk.activeDims.map Prod.fst, ad.Nodup) (q : Query) (hq : q.Plain a.Xs.length P) (e e' : Env) (he : e.Works) (he' : e'.Works) :
    ∃ x, results sv (ops ++ [.ask i q e]) = results sv ops ++ [x] ∧ results sv (ops' ++ [.ask i' q e']) = results sv ops' ++ [x] := by
  obtain ⟨k, k', R, hc, hc', hso⟩ := reordered_models sv hs ops ops' hv hv' i i' P a a' given h h' fk hd hd' hr m m' hm hm'
  have hD : m.fk.D = a.Xs.length := by
    obtain ⟨hcc, -⟩ := C69_valid_program sv hs ops hv
    obtain ⟨a₁, g₁, m₁, -, e1, e2, -, f1, -⟩ := C48_current sv ops (validFrom_works ops [] hv) hcc i m hm
    rw [h] at e1
    cases e1
    rw [← R.ok.outputDim, f1, (documented_fields hd e2).2.1]
  refine ⟨m.answer sv e q, (C48_answers sv ops (validFrom_works ops [] hv) i m hm (by rw [hc.kernel]; simp) q e he).1, ?_⟩
  rw [(C48_answers sv ops' (validFrom_works ops' [] hv') i' m' hm' (by rw [hc'.kernel]; simp) q e' he').1, R.answer hs hx hc hc' hso hn he he' (by rw [hD]; exact hq)]

/-- C82: the covariance matrix lists the observations in the order given: rows and columns are reordered in the same way, `σ` takes the place of each observation
to the place of the same point of the same output. (For every solver.) -/
theorem C82_covariance (sv : Solvers) (hs : sv.Fit) (ops ops' : List Op) (hv : ValidFrom [] ops) (hv' : ValidFrom [] ops') (i i' P : ℕ) (a a' : LLGPArgs)
    (given : Option FK) (h : setUp i none (trace sv ops) = some (a, given)) (h' : setUp i' none (trace sv ops') = some (a', given)) (fk : FK) (hd : a.Documented P fk)
    (hd' : a'.Documented P fk) (hr : a.Reordered P a') (m m' : LLGP) (hm : modelsAfter sv ops i = some m) (hm' : modelsAfter sv ops' i' = some m') (e e' : Env)
    (he : e.Works) (he' : e'.Works) :
    ∃ (K K' : Arr2 ℝ) (n : ℕ) (σ : Equiv.Perm (Fin n)), results sv (ops ++ [.ask i .covariance e]) = results sv ops ++ [.ok (.matrix K)] ∧
      results sv (ops' ++ [.ask i' .covariance e']) = results sv ops' ++ [.ok (.matrix K')] ∧ n = (queryLens a.Xs).sum ∧ K.rows = n ∧ K.cols = n ∧ K'.rows = n ∧ K'.cols = n ∧
      (∀ r : Fin n, ownerOf (queryLens a'.Xs) (σ r) = ownerOf (queryLens a.Xs) r ∧ ∀ c < P,
        queryPoint P a'.Xs (ownerOf (queryLens a'.Xs) (σ r)) (innerIdx (queryLens a'.Xs) (σ r)) c = queryPoint P a.Xs (ownerOf (queryLens a.Xs) r) (innerIdx (queryLens a.Xs) r) c) ∧
      ∀ r s : Fin n, K.get r s = K'.get (σ r) (σ s) := by
  obtain ⟨k, k', R, hc, hc', hso⟩ := reordered_models sv hs ops ops' hv hv' i i' P a a' given h h' fk hd hd' hr m m' hm hm'
  have hso' : m'.fk.Sound := by rw [R.fk]; exact hso
  have hpd := covMat_posDef R.ok.ready.wf R.ok.data.inputs.len hso.kernels hso.kappa hso.noise
  have hpd' := covMat_posDef R.ok'.ready.wf R.ok'.data.inputs.len hso'.kernels hso'.kappa hso'.noise
  obtain ⟨l, hl, cl⟩ := (exactLMC_contents R.ok.ready R.ok.data).1 hpd
  obtain ⟨l', hl', cl'⟩ := (exactLMC_contents R.ok'.ready R.ok'.data).1 hpd'
  obtain ⟨σ, hσ, -⟩ := R.rows
  have hn : m'.n = m.n := R.n_eq
  have hX : m.gp.Xs = padded P a.Xs := by
    obtain ⟨hcc, -⟩ := C69_valid_program sv hs ops hv
    obtain ⟨a₁, g₁, m₁, -, e1, e2, -, f1, -⟩ := C48_current sv ops (validFrom_works ops [] hv) hcc i m hm
    rw [h] at e1
    cases e1
    rw [f1, (documented_gp hd e2).1]
  have hX' : m'.gp.Xs = padded P a'.Xs := by
    obtain ⟨hcc, -⟩ := C69_valid_program sv hs ops' hv'
    obtain ⟨a₁, g₁, m₁, -, e1, e2, -, f1, -⟩ := C48_current sv ops' (validFrom_works ops' [] hv') hcc i' m' hm'
    rw [h'] at e1
    cases e1
    rw [f1, (documented_gp hd' e2).1]
  have hlen : m.n = (queryLens a.Xs).sum := by
    unfold LLGP.n
    rw [hX, padded_lens]
  refine ⟨l.K, l'.K, m.n, σ.trans (finCongr hn), ?_, ?_, hlen, ?_, ?_, ?_, ?_, fun r => ?_, fun r s => ?_⟩
  · rw [(C48_answers sv ops (validFrom_works ops [] hv) i m hm (by rw [hc.kernel]; simp) .covariance e he).1]
    show _ ++ [m.dense.map _] = _
    rw [show m.dense = .ok l from hl]
    rfl
  · rw [(C48_answers sv ops' (validFrom_works ops' [] hv') i' m' hm' (by rw [hc'.kernel]; simp) .covariance e' he').1]
    show _ ++ [m'.dense.map _] = _
    rw [show m'.dense = .ok l' from hl']
    rfl
  · rw [cl.K]; rfl
  · rw [cl.K]; rfl
  · rw [cl'.K]; exact hn
  · rw [cl'.K]; exact hn
  · have h1 := hσ.owner r
    have h2 := hσ.point r
    have b1 := (σ r).2
    have b2 : (r : ℕ) < (m.gp.Xs.map Arr2.rows).sum := r.2
    show ownerOf _ (σ r : ℕ) = ownerOf _ (r : ℕ) ∧ ∀ c < P, queryPoint P a'.Xs (ownerOf _ (σ r : ℕ)) (innerIdx _ (σ r : ℕ)) c = queryPoint P a.Xs (ownerOf _ (r : ℕ)) (innerIdx _ (r : ℕ)) c
    generalize (σ r : ℕ) = t at *
    generalize (r : ℕ) = u at *
    unfold rowPoint at h2
    rw [hX', padded_lens] at h1 h2 b1
    rw [hX, padded_lens] at h1 h2 b2
    have o1 := ownerOf_lt _ _ b1
    have o2 := ownerOf_lt _ _ b2
    have l1 : (queryLens a'.Xs).length = a'.Xs.length := List.length_map ..
    have l2 : (queryLens a.Xs).length = a.Xs.length := List.length_map ..
    rw [l1] at o1
    rw [l2] at o2
    refine ⟨h1, fun c hc => ?_⟩
    have h3 := h2 c hc
    rwa [pointOf_padded o1, pointOf_padded o2] at h3
  · rw [cl.K, cl'.K]
    have e1 := Arr2.of_get (f := m.fk.fullCov m.gp.Xs) (show (r : ℕ) < (m.gp.Xs.map Arr2.rows).sum from r.2) (show (s : ℕ) < (m.gp.Xs.map Arr2.rows).sum from s.2)
    have e2 := Arr2.of_get (f := m'.fk.fullCov m'.gp.Xs) (σ r).2 (σ s).2
    refine e1.trans (Eq.trans ?_ e2.symm)
    rw [R.fk]
    exact covMat_within R.ok.ready hσ r s

/-- a program that makes one model -/
theorem new_program {sv : Solvers} (hs : sv.Fit) {a : LLGPArgs} {fk fk' : FK} {P : ℕ} (hP : 0 < P) (hd : a.Documented P fk) (ht : 0 < a.traceIterations)
    (hmet : a.metrics = false) (hf : fk.setInputDim P = .ok fk') (hso : fk'.Sound) : ValidFrom [] [.new a quiet] ∧ setUp 0 none (trace sv [.new a quiet]) = some (a, none) ∧
      ∃ m, modelsAfter sv [.new a quiet] 0 = some m ∧ m.fk = fk' := by
  have hv : ValidFrom [] [.new a quiet] := ⟨P, fk, fk', hP, hd, ht, hf, hso, quiet_calm, trivial⟩
  obtain ⟨m, k, c, h1, h2⟩ := new_completes hs hP hd ht hf quiet_calm (fun h => by simp [quiet, hmet] at h) true World.start
  refine ⟨hv, ?_, m, ?_, h2.2.1⟩
  · unfold trace
    show setUp 0 none ([Op.new a quiet].zip [(execOp true sv (.new a quiet) World.start).1]) = _
    rw [h1]
    rfl
  · show (execOp true sv (.new a quiet) World.start).2.heap 0 = _
    rw [h1]
    rfl

/-- the observations of the first output the other way round: both programs get the same predictions -/
example (mode : PredMode) : ∃ (a a' : LLGPArgs) (x : Except PyErr Answer), a ≠ a' ∧
    results exactSolvers ([.new a quiet] ++ [.ask 0 (.predict [⟨[1, 2], [0, 0]⟩, ⟨[2, 2], [0, 1, 1, 1]⟩]) quiet]) = results exactSolvers [.new a quiet] ++ [x] ∧
    results exactSolvers ([.new a' quiet] ++ [.ask 0 (.predict [⟨[1, 2], [0, 0]⟩, ⟨[2, 2], [0, 1, 1, 1]⟩]) quiet]) = results exactSolvers [.new a' quiet] ++ [x] := by
  obtain ⟨fk, ⟨h1, h2, h3, h4, -⟩, h⟩ := exists_documented_grid
  have hd := h mode false none (by simp)
  have hd' := documented_with_data hd (Xs := [⟨[2, 2], [1, 1, 0, 0]⟩, ⟨[2, 2], [0, 1, 1, 0]⟩]) (Ys := [⟨[2], [3, 1]⟩, ⟨[2], [5, 7]⟩])
    ⟨by simp, rfl, fun d hd => by
        have : d < 2 := hd
        interval_cases d
        · exact ⟨2, rfl, .inr rfl⟩
        · exact ⟨2, rfl, .inr rfl⟩, fun Y hY => .inr (by
        simp only [List.mem_cons, List.not_mem_nil, or_false] at hY
        rcases hY with rfl | rfl
        · have hv : varOf [3, 1] = 1 := by
            simp [varOf, meanOf, Finset.sum_range_succ]
            norm_num
          simp [sdOf, hv]
        · have hv : varOf [5, 7] = 1 := by
            simp [varOf, meanOf, Finset.sum_range_succ]
            norm_num
          simp [sdOf, hv])⟩
    (fun X hX => by
      simp only [List.mem_cons, List.not_mem_nil, or_false] at hX
      rcases hX with rfl | rfl <;> rfl)
    (fun Y hY => by
      simp only [List.mem_cons, List.not_mem_nil, or_false] at hY
      rcases hY with rfl | rfl <;> exact ⟨rfl, by simp⟩) rfl
    (fun c hc => ⟨⟨2, 2, [0, 1, 1, 0]⟩, by simp [padded], c, hc, ⟨2, 2, [0, 1, 1, 0]⟩, by simp [padded], 1 - c, by show 1 - c < 2; omega, by
      interval_cases c <;> norm_num [Arr2.get]⟩)
  obtain ⟨m, -, -, -, i4, i5, -, i7, -, i6⟩ := model_of_documented hd (mode := mode) (metrics := false) rfl rfl h1 h2 h3 h4 rfl
  obtain ⟨v1, s1, m1, hm1, f1⟩ := new_program exactSolvers_fit (by norm_num) hd (by norm_num) rfl i6 i4
  obtain ⟨v2, s2, m2, hm2, -⟩ := new_program exactSolvers_fit (by norm_num) hd' (by norm_num) rfl i6 i4
  obtain ⟨x, hx1, hx2⟩ := C82_order exactSolvers exactSolvers_fit (fun K n A tol hK _ => exactSolvers_exact hK tol) _ _ v1 v2 0 0 2 _ _ none s1 s2 fk hd hd' ⟨rfl, rfl, fun d hd => by
      have : d < 2 := hd
      interval_cases d
      · have e1 : observed 2 [⟨[2, 2], [0, 0, 1, 1]⟩, ⟨[2, 2], [0, 1, 1, 0]⟩] [⟨[2], [1, 3]⟩, ⟨[2], [5, 7]⟩] 0 = [([0, 0], 1), ([1, 1], 3)] := by
          simp [observed, queryLens, queryPoint, vmk, List.range_succ]
        have e2 : observed 2 [⟨[2, 2], [1, 1, 0, 0]⟩, ⟨[2, 2], [0, 1, 1, 0]⟩] [⟨[2], [3, 1]⟩, ⟨[2], [5, 7]⟩] 0 = [([1, 1], 3), ([0, 0], 1)] := by
          simp [observed, queryLens, queryPoint, vmk, List.range_succ]
        show (observed 2 [⟨[2, 2], [0, 0, 1, 1]⟩, ⟨[2, 2], [0, 1, 1, 0]⟩] [⟨[2], [1, 3]⟩, ⟨[2], [5, 7]⟩] 0).Perm
          (observed 2 [⟨[2, 2], [1, 1, 0, 0]⟩, ⟨[2, 2], [0, 1, 1, 0]⟩] [⟨[2], [3, 1]⟩, ⟨[2], [5, 7]⟩] 0)
        rw [e1, e2]
        exact List.Perm.swap _ _ _
      · exact List.Perm.refl _⟩ m1 m2 hm1 hm2 (by
      rw [f1, i7]
      intro ad had
      simp only [List.map_cons, List.map_nil, List.mem_singleton] at had
      rw [had]
      decide) (.predict [⟨[1, 2], [0, 0]⟩, ⟨[2, 2], [0, 1, 1, 1]⟩]) ⟨⟨rfl, fun X hX => by
        simp only [List.mem_cons, List.not_mem_nil, or_false] at hX
        rcases hX with rfl | rfl
        · exact ⟨1, .inr rfl⟩
        · exact ⟨2, .inr rfl⟩⟩, fun X hX => by
        simp only [List.mem_cons, List.not_mem_nil, or_false] at hX
        rcases hX with rfl | rfl <;> rfl⟩ quiet quiet quiet_calm.1 quiet_calm.1
  refine ⟨_, _, x, fun e => ?_, hx1, hx2⟩
  have := congrArg (fun a : LLGPArgs => (a.Xs.getD 0 ⟨[], []⟩).data.getD 0 0) e
  norm_num at this

end Verif
