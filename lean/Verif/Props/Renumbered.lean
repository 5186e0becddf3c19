import Verif.Proofs.Renumbered
import Verif.Props.Stretched

/-! C111: the order of the dimensions of the inputs does not matter. -/

namespace Verif

theorem renumbered_queries {P D : ℕ} {ρ : ℕ → ℕ} {Qs Qs' : List (NDArr ℝ)} (hr : RenumberedPoints P ρ Qs Qs') (h : QueriesOK D P Qs) :
    QueriesOK D P Qs' ∧ (∀ Q ∈ Qs', Q.WF) ∧ SameQueries P D id (SamePoint P ρ) Qs Qs' := by
  refine ⟨⟨hr.length_eq.symm.trans h.1, fun X' hX' => ?_⟩, fun X' hX' => ?_, ⟨fun d _ => by rw [ren_lens hr]; rfl, by rw [ren_lens hr], fun d hd i hi => ?_⟩⟩
  · obtain ⟨X, hX, e⟩ := forall₂_mem_right hr hX'
    obtain ⟨n, hn⟩ := h.2 X hX
    exact ⟨n, by unfold PointsShape at hn ⊢; rw [e.1]; exact hn⟩
  · obtain ⟨X, hX, e⟩ := forall₂_mem_right hr hX'
    exact e.2.1
  · exact ren_point hr (by rw [h.1]; exact hd) hi

/-- up-to-date models that differ in the order of the dimensions -/
theorem renumbered_answer {sv : Solvers} (hf : sv.Fit) (hx : sv.Exact) {P : ℕ} {ρ : ℕ → ℕ} (hρ : Permutes P ρ) {a a' : LLGPArgs} (hr : a.Renumbered P ρ a') {m m' : LLGP} (hok : m.OK P)
    (hok' : m'.OK P) {k k' : LLKernel} (hc : m.Current sv k) (hc' : m'.Current sv k') (hmode : m'.prediction = m.prediction) (hfk : m.fk.Renumbered ρ m'.fk) (hso : m.fk.Sound)
    (hso' : m'.fk.Sound) (hn : ∀ ad ∈ m.fk.activeDims.map Prod.fst, ad.Nodup) (ha : m.MadeFrom P a) (ha' : m'.MadeFrom P a') {e e' : Env} (he : e.Works) (he' : e'.Works) {q q' : Query}
    (hq : q.Fits m.fk.D P) (hqq : q.Renumbered P ρ q') : m'.answer sv e' q' = m.answer sv e q := by
  obtain ⟨τ, R, hl, hcov⟩ := renumbered_isomorphic hρ hr hok hok' hmode hfk ha ha'
  obtain ⟨l, l', d1, d2, d3, d4, d5⟩ := R.numbers hf hx hc hc' hso hso' hn
  have hgp : m'.gp.inputDim = m.gp.inputDim ∧ m'.gp.outputDim = m.gp.outputDim ∧ m'.gp.normalizer = m.gp.normalizer := by
    obtain ⟨fk, m0, q1, q2, q3, -⟩ := ha
    obtain ⟨fk', m0', q1', q2', q3', -⟩ := ha'
    obtain ⟨i1, i2, i3, -⟩ := documented_fields q1 q2
    obtain ⟨j1, j2, j3, -⟩ := documented_fields q1' q2'
    rw [q3, q3', i1, i2, i3, j1, j2, j3, hr.Xs.length_eq, show a'.normalize = a.normalize by rw [hr.same], show a'.Ys = a.Ys by rw [hr.same]]
    exact ⟨rfl, rfl, rfl⟩
  have hraw : ∀ Qs Qs', RenumberedPoints P ρ Qs Qs' → QueriesOK m.fk.D P Qs → (∀ Q ∈ Qs, Q.WF) → m'.gp.predict (m'.rawPredict sv e') Qs' = m.gp.predict (m.rawPredict sv e) Qs ∧
      ∀ qs, m'.gp.predictQuantiles (m'.rawPredict sv e') Qs' qs = m.gp.predictQuantiles (m.rawPredict sv e) Qs qs := fun Qs Qs' hQ h1 h2 => by
    obtain ⟨q1, q2, q3⟩ := renumbered_queries hQ h1
    refine predict_of_other h1 q1 hok.inputDim hgp.1 hgp.2.1 hgp.2.2 ?_
    rcases R.raw hx ⟨hf, hok, hc, h1, h2⟩ ⟨hf, hok', hc', by rw [R.D]; exact q1, q2⟩ q3 hso hso' hn he he' with ⟨x, r1, r2⟩ | ⟨r, r', r1, r2, r3, r4, r5, r6, r7⟩
    · rw [r1, r2]
    · rw [r1, r2]
      refine congrArg _ (Prod.ext (list_ext_getD [] (r5.trans r3.symm) fun d hd => ?_) (list_ext_getD [] (r6.trans r4.symm) fun d hd => ?_))
      · exact (r7 d (by rw [← r5]; exact hd)).1
      · exact (r7 d (by rw [← r6]; exact hd)).2
  cases q with
  | predict Qs =>
    cases q' with
    | predict Qs' =>
      show (m'.gp.predict (m'.rawPredict sv e') Qs').map _ = (m.gp.predict (m.rawPredict sv e) Qs).map _
      rw [(hraw Qs Qs' hqq hq.1 hq.2).1]
    | _ => exact hqq.elim
  | quantiles Qs qs =>
    cases q' with
    | quantiles Qs' qs' =>
      obtain ⟨h1, rfl⟩ := hqq
      show (m'.gp.predictQuantiles (m'.rawPredict sv e') Qs' qs').map _ = (m.gp.predictQuantiles (m.rawPredict sv e) Qs qs').map _
      rw [(hraw Qs Qs' h1 hq.1 hq.2).2]
    | _ => exact hqq.elim
  | covariance =>
    cases q' with
    | covariance =>
      show m'.dense.map _ = m.dense.map _
      have hpd := covMat_posDef hok.ready.wf hok.data.inputs.len hso.kernels hso.kappa hso.noise
      have hpd' := covMat_posDef hok'.ready.wf hok'.data.inputs.len hso'.kernels hso'.kappa hso'.noise
      obtain ⟨l₁, hl₁, c₁⟩ := (exactLMC_contents hok.ready hok.data).1 hpd
      obtain ⟨l₂, hl₂, c₂⟩ := (exactLMC_contents hok'.ready hok'.data).1 hpd'
      rw [show m.dense = .ok l₁ from hl₁, show m'.dense = .ok l₂ from hl₂]
      show Except.ok (Answer.matrix l₂.K) = Except.ok (Answer.matrix l₁.K)
      rw [c₁.K, c₂.K, hl]
      refine congrArg (fun A => Except.ok (Answer.matrix A)) ?_
      exact Arr2.of_congr fun r hr t ht => hcov r hr t ht
    | _ => exact hqq.elim
  | logDet =>
    cases q' with
    | logDet =>
      show m'.dense.map _ = m.dense.map _
      rw [d1, d2]
      exact congrArg (fun x => Except.ok (Answer.extended x)) d3
    | _ => exact hqq.elim
  | normalQuadratic =>
    cases q' with
    | normalQuadratic =>
      show m'.normalQuadratic.map _ = m.normalQuadratic.map _
      rw [d4]
    | _ => exact hqq.elim
  | logLikelihood =>
    cases q' with
    | logLikelihood =>
      show (do let l ← m'.dense; m'.logLikelihoodOf l).map _ = (do let l ← m.dense; m.logLikelihoodOf l).map _
      rw [d1, d2, ok_bind, ok_bind, d5]
    | _ => exact hqq.elim

/-- C111: two programs use their models as documented and made two models with the same arguments, except that in the second the coordinates of all points (and the bounds
and sizes of the grid, where given for each dimension) are in another order, coordinate `c` being the coordinate `ρ c`; the parameters of the models are the same and each
kernel of the second reads the dimensions that the kernel of the first reads, under their new numbers, listed in any order. Then every question gets the same answer in both
programs when the query points are also in the new order, or the same exception, in every prediction mode. (No kernel lists a dimension twice; the linear solves are exact.
Anything else may differ between the programs.) -/
theorem C111_dimensions (sv : Solvers) (hs : sv.Fit) (hx : sv.Exact) (ops ops' : List Op) (hv : ValidFrom [] ops) (hv' : ValidFrom [] ops') (i i' P : ℕ) (a a' : LLGPArgs)
    (given given' : Option FK) (h : setUp i none (trace sv ops) = some (a, given)) (h' : setUp i' none (trace sv ops') = some (a', given')) (fk fk' : FK) (hd : a.Documented P fk)
    (hd' : a'.Documented P fk') (ρ : ℕ → ℕ) (hρ : Permutes P ρ) (hr : a.Renumbered P ρ a') (m m' : LLGP) (hm : modelsAfter sv ops i = some m) (hm' : modelsAfter sv ops' i' = some m')
    (hfk : m.fk.Renumbered ρ m'.fk) (hn : ∀ ad ∈ m.fk.activeDims.map Prod.fst, ad.Nodup) (q q' : Query) (hq : q.Fits a.Xs.length P) (hqq : q.Renumbered P ρ q') (e e' : Env)
    (he : e.Works) (he' : e'.Works) :
    ∃ x, results sv (ops ++ [.ask i q e]) = results sv ops ++ [x] ∧ results sv (ops' ++ [.ask i' q' e']) = results sv ops' ++ [x] := by
  obtain ⟨P1, k, ha, hok, hc, hso, hmode⟩ := valid_made hs hv h hm
  obtain ⟨P2, k', ha', hok', hc', hso', hmode'⟩ := valid_made hs hv' h' hm'
  have hin : ∀ {m : LLGP} {P₁ : ℕ} {a : LLGPArgs} {fk : FK}, m.MadeFrom P₁ a → m.OK P₁ → a.Documented P fk → P₁ = P ∧ m.fk.D = a.Xs.length := fun {m P₁ a fk} ha hok hd => by
    obtain ⟨fk₁, m0, q1, q2, q3, -⟩ := ha
    refine ⟨?_, ?_⟩
    · rw [← hok.inputDim, q3, (documented_fields hd q2).1]
    · rw [← hok.outputDim, q3, (documented_fields hd q2).2.1]
  obtain ⟨p1, hD⟩ := hin ha hok hd
  obtain ⟨p2, -⟩ := hin ha' hok' hd'
  subst p1
  subst p2
  rw [show a'.prediction = a.prediction by rw [hr.same], hmode] at hmode'
  refine ⟨m.answer sv e q, (C48_answers sv ops (validFrom_works ops [] hv) i m hm (by rw [hc.kernel]; simp) q e he).1, ?_⟩
  rw [(C48_answers sv ops' (validFrom_works ops' [] hv') i' m' hm' (by rw [hc'.kernel]; simp) _ e' he').1,
    renumbered_answer hs hx hρ hr hok hok' hc hc' (Option.some.inj hmode').symm hfk hso hso' hn ha ha' he he' (by rw [hD]; exact hq) hqq]

/-- just made, the models have the parameters of C111: kernels that were given the dimensions under their new numbers read these -/
theorem C111_made {P : ℕ} {ρ : ℕ → ℕ} (hρ : Permutes P ρ) {fk fk' p p' : FK} (hf : fk.Fresh) (he : fk' = { fk with kernels := fk'.kernels }) (hk : GivenKernels ρ fk.kernels fk'.kernels)
    (h : fk.setInputDim P = .ok p) (h' : fk'.setInputDim P = .ok p') : p.Renumbered ρ p' := by
  have hlen : fk'.kernels.length = fk.kernels.length := by rw [hk, List.length_map]
  have hf' : fk'.Fresh := by
    have := hf.counts
    rw [← hlen] at this
    rw [he]
    exact ⟨hf.P, hf.activeDims, hf.numLmc, hf.numSlfm, hf.numIndep, this⟩
  obtain ⟨p₁, e1, g⟩ := setInputDim_fresh fk P hf
  obtain ⟨p₁', e1', g'⟩ := setInputDim_fresh fk' P hf'
  rw [h] at e1
  rw [h'] at e1'
  cases e1
  cases e1'
  have hQ : p.Q = fk.kernels.length := g.klen
  have hker : ∀ q < p.Q, p'.kernels.getD q (.identity none) = (p.kernels.getD q (.identity none)).setActiveDims (some (dimsRead P (fk'.kernels.getD q (.identity none)))) ∧
      p.kdims q = dimsRead P (fk.kernels.getD q (.identity none)) ∧ p'.kdims q = dimsRead P (fk'.kernels.getD q (.identity none)) ∧
      fk'.kernels.getD q (.identity none) = (fk.kernels.getD q (.identity none)).setActiveDims ((fk.kernels.getD q (.identity none)).activeDims.map (List.map ρ)) := fun q hq => by
    rw [hQ] at hq
    have e := g.kern q hq
    have e' := g'.kern q (by rw [hlen]; exact hq)
    have e3 : fk'.kernels.getD q (.identity none) = (fk.kernels.getD q (.identity none)).setActiveDims ((fk.kernels.getD q (.identity none)).activeDims.map (List.map ρ)) := by
      rw [hk, map_getD_lt hq _ _ (.identity none)]
    have s1 : ∀ (k : Kern) (o : Option (List ℕ)), (k.setActiveDims o).activeDims = o := fun k o => by cases k <;> rfl
    have s2 : ∀ (k : Kern) (o o' : Option (List ℕ)), (k.setActiveDims o).setActiveDims o' = k.setActiveDims o' := fun k o o' => by cases k <;> rfl
    refine ⟨?_, ?_, ?_, e3⟩
    · rw [e', e, s2, e3, s2]
    · unfold FK.kdims
      rw [e, s1]
      rfl
    · unfold FK.kdims
      rw [e', s1]
      rfl
  have s3 : ∀ (k : Kern) (o : Option (List ℕ)), (k.setActiveDims o).setActiveDims none = k.setActiveDims none := fun k o => by cases k <;> rfl
  have s1 : ∀ (k : Kern) (o : Option (List ℕ)), (k.setActiveDims o).activeDims = o := fun k o => by cases k <;> rfl
  refine ⟨by rw [g.same, g'.same, he], by rw [g.same, g'.same, he], by rw [g.same, g'.same, he], by rw [g.same, g'.same, he], by rw [g.same, g'.same, he], by rw [g.same, g'.same, he],
    by rw [g.klen, g'.klen, hlen], fun q hq => ?_, fun q hq => ?_⟩
  · rw [(hker q hq).1, s3]
  · obtain ⟨-, k1, k2, k3⟩ := hker q hq
    rw [k1, k2, k3]
    unfold dimsRead
    rw [s1]
    cases (fk.kernels.getD q (.identity none)).activeDims with
    | none => exact (map_range_perm hρ).symm
    | some l => exact (List.perm_insertionSort _ _).trans ((List.perm_insertionSort (· ≤ ·) l).map ρ).symm

/-- the two coordinates in the other order: both programs get the same answers about the likelihood and, at the same places, the same predictions -/
example (mode : PredMode) : ∃ (a a' : LLGPArgs) (x y : Except PyErr Answer), a.Xs ≠ a'.Xs ∧
    results exactSolvers ([.new a quiet] ++ [.ask 0 (.predict [⟨[1, 2], [0, 0]⟩, ⟨[2, 2], [0, 1, 1, 2]⟩]) quiet]) = results exactSolvers [.new a quiet] ++ [x] ∧
    results exactSolvers ([.new a' quiet] ++ [.ask 0 (.predict [⟨[1, 2], [0, 0]⟩, ⟨[2, 2], [1, 0, 2, 1]⟩]) quiet]) = results exactSolvers [.new a' quiet] ++ [x] ∧
    results exactSolvers ([.new a quiet] ++ [.ask 0 .logLikelihood quiet]) = results exactSolvers [.new a quiet] ++ [y] ∧
    results exactSolvers ([.new a' quiet] ++ [.ask 0 .logLikelihood quiet]) = results exactSolvers [.new a' quiet] ++ [y] := by
  obtain ⟨fk, ⟨h1, h2, h3, h4, -⟩, h⟩ := exists_documented_grid
  have hd := h mode false none (by simp)
  have hd' := documented_with_data hd (Xs := [⟨[2, 2], [0, 0, 1, 1]⟩, ⟨[2, 2], [1, 0, 0, 1]⟩]) (Ys := [⟨[2], [1, 3]⟩, ⟨[2], [5, 7]⟩])
    ⟨by simp, rfl, fun d hd => by
        have : d < 2 := hd
        interval_cases d
        · exact ⟨2, rfl, .inr rfl⟩
        · exact ⟨2, rfl, .inr rfl⟩, hd.data.spread⟩
    (fun X hX => by
      simp only [List.mem_cons, List.not_mem_nil, or_false] at hX
      rcases hX with rfl | rfl <;> rfl)
    (fun Y hY => by
      simp only [List.mem_cons, List.not_mem_nil, or_false] at hY
      rcases hY with rfl | rfl <;> exact ⟨rfl, by simp⟩) rfl
    (fun c hc => ⟨⟨2, 2, [1, 0, 0, 1]⟩, by simp [padded], 1 - c, by show 1 - c < 2; omega, ⟨2, 2, [1, 0, 0, 1]⟩, by simp [padded], c, hc, by
      interval_cases c <;> norm_num [Arr2.get]⟩)
  obtain ⟨m, -, hok, -, i4, i5, -, i7, -, i6⟩ := model_of_documented hd (mode := mode) (metrics := false) rfl rfl h1 h2 h3 h4 rfl
  have hρ : Permutes 2 fun c => 1 - c := ⟨fun d hd => by show 1 - d < 2; omega, fun a ha b hb e => by have e : 1 - a = 1 - b := e; omega⟩
  have hmade : m.fk.Renumbered (fun c => 1 - c) m.fk := C111_made hρ hd.fresh rfl (by rw [h1]; rfl) i6 i6
  obtain ⟨v1, s1, m1, hm1, f1⟩ := new_program exactSolvers_fit (by norm_num) hd (by norm_num) rfl i6 i4
  obtain ⟨v2, s2, m2, hm2, f2⟩ := new_program exactSolvers_fit (by norm_num) hd' (by norm_num) rfl i6 i4
  have hren : ∀ {n : ℕ} {l l' : List ℝ}, l'.length = n * 2 → (∀ i < n, l'.getD (i * 2 + 1) 0 = l.getD (i * 2) 0 ∧ l'.getD (i * 2) 0 = l.getD (i * 2 + 1) 0) →
      NDArr.Renumbered 2 (fun c => 1 - c) ⟨[n, 2], l⟩ ⟨[n, 2], l'⟩ := fun {n l l'} hl hh => ⟨rfl, by show l'.length = [n, 2].prod; simpa using hl, fun i hi c hc => by
    have hi : i < n := hi
    interval_cases c
    · exact (hh i hi).1
    · exact (hh i hi).2⟩
  have key := C111_dimensions exactSolvers exactSolvers_fit (fun K n A tol hK _ => exactSolvers_exact hK tol) _ _ v1 v2 0 0 2 _ _ none none s1 s2 fk fk hd hd' (fun c => 1 - c) hρ
    ⟨rfl, .cons (hren rfl fun i hi => by interval_cases i <;> norm_num) (.cons (hren rfl fun i hi => by interval_cases i <;> norm_num) .nil), trivial, trivial, trivial⟩
    m1 m2 hm1 hm2 (by rw [f1, f2]; exact hmade) (by
      rw [f1, i7]
      intro ad had
      simp only [List.map_cons, List.map_nil, List.mem_singleton] at had
      rw [had]
      decide)
  obtain ⟨x, hx1, hx2⟩ := key (.predict [⟨[1, 2], [0, 0]⟩, ⟨[2, 2], [0, 1, 1, 2]⟩]) (.predict [⟨[1, 2], [0, 0]⟩, ⟨[2, 2], [1, 0, 2, 1]⟩]) ⟨⟨rfl, fun X hX => by
        simp only [List.mem_cons, List.not_mem_nil, or_false] at hX
        rcases hX with rfl | rfl
        · exact ⟨1, .inr rfl⟩
        · exact ⟨2, .inr rfl⟩⟩, fun X hX => by
        simp only [List.mem_cons, List.not_mem_nil, or_false] at hX
        rcases hX with rfl | rfl <;> rfl⟩
    (.cons (hren rfl fun i hi => by interval_cases i; norm_num) (.cons (hren rfl fun i hi => by interval_cases i <;> norm_num) .nil)) quiet quiet quiet_calm.1 quiet_calm.1
  obtain ⟨y, hy1, hy2⟩ := key .logLikelihood .logLikelihood trivial trivial quiet quiet quiet_calm.1 quiet_calm.1
  refine ⟨_, _, x, y, fun e => ?_, hx1, hx2, hy1, hy2⟩
  have := congrArg (fun a : List (NDArr ℝ) => (a.getD 1 ⟨[], []⟩).data.getD 0 0) e
  norm_num at this

end Verif
