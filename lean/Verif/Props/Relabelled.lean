import Verif.Proofs.Relabelled
import Verif.Props.Stretched

/-! C88: the order in which the outputs are given does not matter. -/

namespace Verif

theorem quantiles_error {sv : Solvers} {m : LLGP} {P : ℕ} {k : LLKernel} {Qs : List (NDArr ℝ)} (h : Asked sv m P k Qs) {e : Env} {x : PyErr}
    (hr : m.rawPredict sv e (padded P Qs) = .error x) (qs : List ℝ) : m.gp.predictQuantiles (m.rawPredict sv e) Qs qs = .error x := by
  unfold MultiGP.predictQuantiles
  rw [h.ok.inputDim, show padDims P Qs = .ok (padded P Qs) from padDims_dataset h.queries.2, ok_bind]
  unfold MultiGP.predictWith
  rw [if_neg (not_not.2 (by rw [h.inputs.len, h.ok.outputDim])), if_neg (not_not.2 fun X hX => by rw [h.inputs.cols X hX, h.ok.inputDim]), hr]
  rfl

theorem arr2_ext {A B : Arr2 ℝ} (hA : A.WF) (hB : B.WF) (hr : A.rows = B.rows) (hc : A.cols = B.cols) (h : ∀ i < B.rows, ∀ j < B.cols, A.get i j = B.get i j) : A = B := by
  rw [← Arr2.of_self hA, ← Arr2.of_self hB, hr, hc]
  exact Arr2.of_congr h

/-- quantiles of isomorphic models: the same exception, or the same numbers under the other names -/
theorem Isomorphic.quantiles {P : ℕ} {π : ℕ → ℕ} {C : (ℕ → ℝ) → (ℕ → ℝ) → Prop} {γ : List ℕ → List ℕ} {τ : List ℕ → ℕ → ℕ} {m m' : LLGP} (R : Isomorphic P π C γ τ m m') {sv : Solvers} (hx : sv.Exact) {k k' : LLKernel}
    {Qs Qs' : List (NDArr ℝ)} (h : Asked sv m P k Qs) (h' : Asked sv m' P k' Qs') (hq : SameQueries P m.fk.D π C Qs Qs') (hso : m.fk.Sound) (hso' : m'.fk.Sound)
    (hn : ∀ ad ∈ m.fk.activeDims.map Prod.fst, ad.Nodup) {e e' : Env} (he : e.Works) (he' : e'.Works) (qs : List ℝ) :
    (∃ x, m.gp.predictQuantiles (m.rawPredict sv e) Qs qs = .error x ∧ m'.gp.predictQuantiles (m'.rawPredict sv e') Qs' qs = .error x) ∨
    ∃ r r', m.gp.predictQuantiles (m.rawPredict sv e) Qs qs = .ok r ∧ m'.gp.predictQuantiles (m'.rawPredict sv e') Qs' qs = .ok r' ∧ r.length = m.fk.D ∧
      r'.length = m.fk.D ∧ ∀ d < m.fk.D, r'.getD (π d) ⟨0, 0, []⟩ = r.getD d ⟨0, 0, []⟩ := by
  rcases R.raw hx h h' hq hso hso' hn he he' with ⟨x, r1, r2⟩ | ⟨p, p', r1, r2, -, -, -, -, r7⟩
  · exact .inl ⟨x, quantiles_error h r1 qs, quantiles_error h' r2 qs⟩
  · have hD : 0 < m.fk.D := h.ok.ready.wf.Dpos
    have ne : ∀ {Qs : List (NDArr ℝ)}, Qs.length = m.fk.D → padded P Qs ≠ [] := fun {Qs} hl e => by
      have := congrArg List.length e
      unfold padded at this
      rw [List.length_map, hl] at this
      simp at this
      omega
    have f1 : PredictionFits p (queryLens Qs) := by rw [← padded_lens (P := P)]; exact raw_fits (ne h.queries.1) r1
    have f2 : PredictionFits p' (queryLens Qs') := by rw [← padded_lens (P := P)]; exact raw_fits (ne (by rw [h'.queries.1, R.D])) r2
    obtain ⟨-, r, t1, t2, t3⟩ := predict_values m.gp h.ok.gp _ Qs (by rw [h.ok.outputDim, h.ok.inputDim]; exact h.queries) p (by rw [h.ok.inputDim]; exact r1) f1 qs
    obtain ⟨-, r', u1, u2, u3⟩ := predict_values m'.gp h'.ok.gp _ Qs' (by rw [h'.ok.outputDim, h'.ok.inputDim]; exact h'.queries) p' (by rw [h'.ok.inputDim]; exact r2) f2 qs
    rw [h.ok.outputDim] at t2 t3
    rw [h'.ok.outputDim, R.D] at u2 u3
    refine .inr ⟨r, r', t1, u1, t2, u2, fun d hd => ?_⟩
    obtain ⟨a1, a2, a3, a4⟩ := t3 d hd
    obtain ⟨b1, b2, b3, b4⟩ := u3 (π d) (R.maps d hd)
    rw [hq.lens d hd] at b1 b4
    refine arr2_ext b3 a3 (b1.trans a1.symm) (b2.trans a2.symm) fun i hi j hj => ?_
    rw [a1] at hi
    rw [a2] at hj
    rw [a4 i hi j hj, b4 i hi j hj, (r7 d hd).1, (r7 d hd).2, R.norm d hd]

theorem relabelled_queries {P D : ℕ} {π : ℕ → ℕ} (hp : Permutes D π) {Qs Qs' : List (NDArr ℝ)} (h : RelabelledList D π Qs Qs') (hQ : QueriesOK D P Qs) (hW : ∀ Q ∈ Qs, Q.WF) :
    QueriesOK D P Qs' ∧ (∀ Q ∈ Qs', Q.WF) ∧ SameQueries P D π (Corr P fun _ x => x) Qs Qs' := by
  have hpm := h.perm hp
  have hl : RelabelledList D π (queryLens Qs) (queryLens Qs') := relabelledList_map h _
  refine ⟨⟨h.2.1, fun X hX => hQ.2 X (hpm.mem_iff.2 hX)⟩, fun Q hQ' => hW Q (hpm.mem_iff.2 hQ'), ⟨fun d hd => hl.getD 0 hd, ((hl.perm hp).sum_eq).symm, fun d hd i _ c _ => ?_⟩⟩
  rw [← pointOf_padded (by rw [h.2.1]; exact hp.1 d hd), ← pointOf_padded (by rw [h.1]; exact hd)]
  unfold pointOf
  have : RelabelledList D π (padded P Qs) (padded P Qs') := relabelledList_map h _
  rw [this.getD _ hd]

/-- up-to-date models that differ in the order of the outputs -/
theorem relabelled_answer {sv : Solvers} (hf : sv.Fit) (hx : sv.Exact) {π : ℕ → ℕ} {P : ℕ} {a a' : LLGPArgs} (hp : Permutes a.Xs.length π) (hr : a.Relabelled π a') {m m' : LLGP}
    (hok : m.OK P) (hok' : m'.OK P) {k k' : LLKernel} (hc : m.Current sv k) (hc' : m'.Current sv k') (hmode : m'.prediction = m.prediction) (hfk : m.fk.Relabelled π m'.fk)
    (hso : m.fk.Sound) (hn : ∀ ad ∈ m.fk.activeDims.map Prod.fst, ad.Nodup) (ha : m.MadeFrom P a) (ha' : m'.MadeFrom P a') {e e' : Env} (he : e.Works) (he' : e'.Works)
    {q q' : Query} (hq : q.Fits m.fk.D P) (hqq : q.Relabelled m.fk.D π q') :
    RelabelledResult m.fk.D π (queryLens a.Xs) (queryLens a'.Xs) (m.answer sv e q) (m'.answer sv e' q') := by
  have hDX : m.fk.D = a.Xs.length := by
    rw [← hok.data.inputs.len, (MadeFrom.scale ha).1]
    unfold padded
    rw [List.length_map]
  have hpD : Permutes m.fk.D π := by rw [hDX]; exact hp
  obtain ⟨R, hl, hcov⟩ := relabelled_isomorphic hp hr hok hok' hmode hfk ha ha'
  have hso' := relabelled_sound hpD hfk hso
  obtain ⟨l, l', d1, d2, d3, d4, d5⟩ := R.numbers hf hx hc hc' hso hso' hn
  cases q with
  | predict Qs =>
    cases q' with
    | predict Qs' =>
      obtain ⟨q1, q2, q3⟩ := relabelled_queries hpD hqq hq.1 hq.2
      show RelabelledResult _ _ _ _ ((m.gp.predict (m.rawPredict sv e) Qs).map _) ((m'.gp.predict (m'.rawPredict sv e') Qs').map _)
      rcases R.predict hx ⟨hf, hok, hc, hq.1, hq.2⟩ ⟨hf, hok', hc', by rw [R.D]; exact q1, q2⟩ q3 hso hso' hn he he' with ⟨x, r1, r2⟩ | ⟨r, r', r1, r2, r3, r4, r5, r6, r7⟩
      · rw [r1, r2]
        exact rfl
      · rw [r1, r2]
        exact ⟨relabelledList_of hpD r3 r5 [] fun d hd => (r7 d hd).1, relabelledList_of hpD r4 r6 [] fun d hd => (r7 d hd).2⟩
    | _ => exact hqq.elim
  | quantiles Qs qs =>
    cases q' with
    | quantiles Qs' qs' =>
      obtain ⟨hqq, rfl⟩ := hqq
      obtain ⟨q1, q2, q3⟩ := relabelled_queries hpD hqq hq.1 hq.2
      show RelabelledResult _ _ _ _ ((m.gp.predictQuantiles (m.rawPredict sv e) Qs qs').map _) ((m'.gp.predictQuantiles (m'.rawPredict sv e') Qs' qs').map _)
      rcases R.quantiles hx ⟨hf, hok, hc, hq.1, hq.2⟩ ⟨hf, hok', hc', by rw [R.D]; exact q1, q2⟩ q3 hso hso' hn he he' qs' with ⟨x, r1, r2⟩ | ⟨r, r', r1, r2, r3, r4, r5⟩
      · rw [r1, r2]
        exact rfl
      · rw [r1, r2]
        exact relabelledList_of hpD r3 r4 _ r5
    | _ => exact hqq.elim
  | covariance =>
    cases q' with
    | covariance =>
      show RelabelledResult _ _ _ _ (m.dense.map _) (m'.dense.map _)
      have hpd := covMat_posDef hok.ready.wf hok.data.inputs.len hso.kernels hso.kappa hso.noise
      have hpd' := covMat_posDef hok'.ready.wf hok'.data.inputs.len hso'.kernels hso'.kappa hso'.noise
      obtain ⟨l₁, hl₁, c₁⟩ := (exactLMC_contents hok.ready hok.data).1 hpd
      obtain ⟨l₂, hl₂, c₂⟩ := (exactLMC_contents hok'.ready hok'.data).1 hpd'
      rw [show m.dense = .ok l₁ from hl₁, show m'.dense = .ok l₂ from hl₂]
      have e1 : m.gp.Xs.map Arr2.rows = queryLens a.Xs := by rw [(MadeFrom.scale ha).1, padded_lens]
      have e2 : m'.gp.Xs.map Arr2.rows = queryLens a'.Xs := by rw [(MadeFrom.scale ha').1, padded_lens]
      show Answer.Relabelled _ _ _ _ (.matrix l₁.K) (.matrix l₂.K)
      rw [c₁.K, c₂.K, ← e1, ← e2]
      refine ⟨⟨rfl, rfl⟩, ⟨rfl, rfl⟩, fun d hd t ht i hi j hj => ?_⟩
      obtain ⟨-, s2, -⟩ := ownerOf_offset (by rw [hl.1]; exact hd) hi
      obtain ⟨-, t2, -⟩ := ownerOf_offset (by rw [hl.1]; exact ht) hj
      obtain ⟨-, s2', -⟩ := ownerOf_offset (lens := m'.gp.Xs.map Arr2.rows) (a := π d) (by rw [hl.2.1]; exact hpD.1 d hd) (by rw [hl.getD 0 hd]; exact hi)
      obtain ⟨-, t2', -⟩ := ownerOf_offset (lens := m'.gp.Xs.map Arr2.rows) (a := π t) (by rw [hl.2.1]; exact hpD.1 t ht) (by rw [hl.getD 0 ht]; exact hj)
      rw [Arr2.of_get s2 t2, Arr2.of_get s2' t2']
      exact hcov d hd t ht i hi j hj
    | _ => exact hqq.elim
  | logDet =>
    cases q' with
    | logDet =>
      show RelabelledResult _ _ _ _ (m.dense.map _) (m'.dense.map _)
      rw [d1, d2]
      exact d3
    | _ => exact hqq.elim
  | normalQuadratic =>
    cases q' with
    | normalQuadratic =>
      show RelabelledResult _ _ _ _ (m.normalQuadratic.map _) (m'.normalQuadratic.map _)
      rw [d4]
      cases m.normalQuadratic <;> exact rfl
    | _ => exact hqq.elim
  | logLikelihood =>
    cases q' with
    | logLikelihood =>
      show RelabelledResult _ _ _ _ ((do let l ← m.dense; m.logLikelihoodOf l).map _) ((do let l ← m'.dense; m'.logLikelihoodOf l).map _)
      rw [d1, d2, ok_bind, ok_bind, d5]
      cases m.logLikelihoodOf l <;> exact rfl
    | _ => exact hqq.elim

/-- C88: two programs use their models as documented and made two models with the same arguments, except that the second lists the outputs in another order, output `d` of
the first being output `π d` of the second, and the current coregionalization vectors, diagonals and noise of the second follow that order. Then every question gets the same
answer in both programs, in the order of the outputs, or the same exception, in every prediction mode. (No kernel reads a dimension twice and the linear solves are exact.
Anything else may differ between the programs.) -/
theorem C88_outputs (sv : Solvers) (hs : sv.Fit) (hx : sv.Exact) (ops ops' : List Op) (hv : ValidFrom [] ops) (hv' : ValidFrom [] ops') (i i' P : ℕ) (a a' : LLGPArgs)
    (given given' : Option FK) (h : setUp i none (trace sv ops) = some (a, given)) (h' : setUp i' none (trace sv ops') = some (a', given')) (fk fk' : FK) (hd : a.Documented P fk)
    (hd' : a'.Documented P fk') (π : ℕ → ℕ) (hp : Permutes a.Xs.length π) (hr : a.Relabelled π a') (m m' : LLGP) (hm : modelsAfter sv ops i = some m)
    (hm' : modelsAfter sv ops' i' = some m') (hfk : m.fk.Relabelled π m'.fk) (hn : ∀ ad ∈ m.fk.activeDims.map Prod.fst, ad.Nodup) (q q' : Query) (hq : q.Fits a.Xs.length P)
    (hqq : q.Relabelled a.Xs.length π q') (e e' : Env) (he : e.Works) (he' : e'.Works) :
    ∃ x x', results sv (ops ++ [.ask i q e]) = results sv ops ++ [x] ∧ results sv (ops' ++ [.ask i' q' e']) = results sv ops' ++ [x'] ∧
      RelabelledResult a.Xs.length π (queryLens a.Xs) (queryLens a'.Xs) x x' := by
  obtain ⟨P1, k, ha, hok, hc, hso, hmode⟩ := valid_made hs hv h hm
  obtain ⟨P2, k', ha', hok', hc', -, hmode'⟩ := valid_made hs hv' h' hm'
  have hin : ∀ {m : LLGP} {P₁ : ℕ} {a : LLGPArgs} {fk : FK}, m.MadeFrom P₁ a → m.OK P₁ → a.Documented P fk → P₁ = P ∧ m.fk.D = a.Xs.length := fun {m P₁ a fk} ha hok hd => by
    obtain ⟨fk₁, m0, q1, q2, q3, -⟩ := ha
    refine ⟨?_, ?_⟩
    · rw [← hok.inputDim, q3, (documented_fields hd q2).1]
    · rw [← hok.outputDim, q3, (documented_fields hd q2).2.1]
  obtain ⟨p1, hD⟩ := hin ha hok hd
  obtain ⟨p2, -⟩ := hin ha' hok' hd'
  subst p1
  subst p2
  rw [show a'.prediction = a.prediction by rw [hr.same], hmode] at hmode'
  refine ⟨m.answer sv e q, m'.answer sv e' q', (C48_answers sv ops (validFrom_works ops [] hv) i m hm (by rw [hc.kernel]; simp) q e he).1,
    (C48_answers sv ops' (validFrom_works ops' [] hv') i' m' hm' (by rw [hc'.kernel]; simp) _ e' he').1, ?_⟩
  rw [← hD]
  exact relabelled_answer hs hx hp hr hok hok' hc hc' (Option.some.inj hmode').symm hfk hso hn ha ha' he he' (by rw [hD]; exact hq) (by rw [hD]; exact hqq)

theorem vmk_zero {n : ℕ} {f : ℕ → ℝ} (h : ∀ i, f i = 0) (i : ℕ) : (vmk n f).getD i 0 = 0 := by
  by_cases hi : i < n
  · rw [vmk_getD_lt hi, h]
  · rw [List.getD_eq_getElem?_getD, List.getElem?_eq_none (by rw [vmk_length]; omega)]
    rfl

/-- any parameters of a model can be put in another order -/
theorem reordered_params {m : LLGP} {P : ℕ} (h : m.OK P) (hs : m.fk.Sound) {π σ : ℕ → ℕ} (hp : Permutes m.fk.D π) (hσ : ∀ d < m.fk.D, σ (π d) = d) :
    ∃ fk, m.fk.Relabelled π fk ∧ m.fk.Retuned fk ∧ fk.Sound := by
  have w := h.ready.wf
  have vd : ∀ l : List ℝ, l.length = m.fk.D → RelabelledList m.fk.D π l (vmk m.fk.D fun d => l.getD (σ d) 0) := fun l hl =>
    relabelledList_of hp hl (vmk_length _ _) 0 fun d hd => by rw [vmk_getD_lt (hp.1 d hd), hσ d hd]
  let A : ℕ → Arr2 ℝ := fun q => m.fk.coregVecs.getD q ⟨0, 0, []⟩
  let B : ℕ → Arr2 ℝ := fun q => Arr2.of (A q).rows m.fk.D fun r d => (A q).get r (σ d)
  let fk : FK := { m.fk with coregVecs := vmk m.fk.kernels.length B, coregDiags := vmk m.fk.kernels.length fun q => vmk m.fk.D fun d => (m.fk.coregDiags.getD q []).getD (σ d) 0,
                             noise := vmk m.fk.D fun d => m.fk.noise.getD (σ d) 0 }
  have eB : ∀ q < m.fk.kernels.length, fk.coregVecs.getD q ⟨0, 0, []⟩ = B q := fun q hq => by
    show (vmk _ B).getD q _ = _
    rw [vmk_getD_lt hq]
  have eD : ∀ q < m.fk.kernels.length, fk.coregDiags.getD q [] = vmk m.fk.D fun d => (m.fk.coregDiags.getD q []).getD (σ d) 0 := fun q hq => by
    show (vmk _ _).getD q _ = _
    rw [vmk_getD_lt hq]
  have hr : m.fk.Relabelled π fk := by
    refine ⟨rfl, fun q hq => ?_, fun q hq => ?_, vd _ w.noise⟩
    · rw [eB q hq]
      refine ⟨rfl, fun r hr d hd => ?_⟩
      show (Arr2.of _ _ _).get _ _ = _
      rw [Arr2.of_get hr (hp.1 d hd), hσ d hd]
    · rw [eD q hq]
      exact vd _ (w.diag q hq)
  refine ⟨fk, hr, ⟨⟨w.Dpos, vmk_length _ _, vmk_length _ _, vmk_length _ _, w.counts, fun q hq => ?_, fun q hq => ?_, fun q h1 h2 i => ?_, fun q h1 h2 => ?_, fun q h1 i j => ?_⟩,
    rfl, rfl, rfl, rfl, rfl, rfl, rfl, rfl, rfl, fun _ _ => rfl, h.ready.valid⟩, relabelled_sound hp hr hs⟩
  · rw [eB q hq]
    exact ⟨Arr2.of_wf _ _ _, rfl, (w.vec q hq).2.2⟩
  · rw [eD q hq]
    exact vmk_length _ _
  · have hq : q < m.fk.kernels.length := lt_of_lt_of_le h2 w.counts
    rw [eD q hq]
    exact vmk_zero (fun d => w.slfm q h1 h2 _) i
  · rw [eB q (lt_of_lt_of_le h2 w.counts)]
    exact w.slfmRank q h1 h2
  · by_cases hq : q < m.fk.kernels.length
    · rw [eB q hq]
      exact vmk_zero (fun x => w.indep q h1 _ _) _
    · have : fk.coregVecs.getD q ⟨0, 0, []⟩ = ⟨0, 0, []⟩ := by
        rw [List.getD_eq_getElem?_getD, List.getElem?_eq_none (by show (vmk _ _).length ≤ _; rw [vmk_length]; omega)]
        rfl
      rw [this]
      rfl

theorem relabelled_pair {α : Type} (x y : α) : RelabelledList 2 (fun d => 1 - d) [x, y] [y, x] :=
  ⟨rfl, rfl, fun d hd => by interval_cases d <;> rfl⟩

/-- two outputs, listed in either order: both programs predict the same, in the order of the outputs, and give the same likelihood -/
example (mode : PredMode) : ∃ (a a' : LLGPArgs) (fk : FK) (x x' y y' : Except PyErr Answer), a.Xs ≠ a'.Xs ∧
    results exactSolvers ([.new a quiet] ++ [.ask 0 (.predict [⟨[1, 2], [0, 0]⟩, ⟨[2, 2], [0, 1, 1, 1]⟩]) quiet]) = results exactSolvers [.new a quiet] ++ [x] ∧
    results exactSolvers ([.new a' quiet, .set 0 fk quiet] ++ [.ask 0 (.predict [⟨[2, 2], [0, 1, 1, 1]⟩, ⟨[1, 2], [0, 0]⟩]) quiet]) =
      results exactSolvers [.new a' quiet, .set 0 fk quiet] ++ [x'] ∧ RelabelledResult 2 (fun d => 1 - d) [2, 2] [2, 2] x x' ∧
    results exactSolvers ([.new a quiet] ++ [.ask 0 .logLikelihood quiet]) = results exactSolvers [.new a quiet] ++ [y] ∧
    results exactSolvers ([.new a' quiet, .set 0 fk quiet] ++ [.ask 0 .logLikelihood quiet]) = results exactSolvers [.new a' quiet, .set 0 fk quiet] ++ [y'] ∧
      RelabelledResult 2 (fun d => 1 - d) [2, 2] [2, 2] y y' := by
  obtain ⟨fk, ⟨h1, h2, h3, h4, -⟩, h⟩ := exists_documented_grid
  have hd := h mode false none (by simp)
  have hd' := documented_with_data hd (Xs := [⟨[2, 2], [0, 1, 1, 0]⟩, ⟨[2, 2], [0, 0, 1, 1]⟩]) (Ys := [⟨[2], [5, 7]⟩, ⟨[2], [1, 3]⟩])
    ⟨by simp, rfl, fun d hd => by
        have : d < 2 := hd
        interval_cases d
        · exact ⟨2, rfl, .inr rfl⟩
        · exact ⟨2, rfl, .inr rfl⟩, fun Y hY => hd.data.spread Y (by simpa [or_comm] using hY)⟩
    (fun X hX => by
      simp only [List.mem_cons, List.not_mem_nil, or_false] at hX
      rcases hX with rfl | rfl <;> rfl)
    (fun Y hY => by
      simp only [List.mem_cons, List.not_mem_nil, or_false] at hY
      rcases hY with rfl | rfl <;> exact ⟨rfl, by simp⟩) rfl
    (fun c hc => ⟨⟨2, 2, [0, 0, 1, 1]⟩, by simp [padded], 0, by norm_num, ⟨2, 2, [0, 0, 1, 1]⟩, by simp [padded], 1, by norm_num, by
      interval_cases c <;> norm_num [Arr2.get]⟩)
  obtain ⟨m, -, hok, -, i4, i5, -, i7, -, i6⟩ := model_of_documented hd (mode := mode) (metrics := false) rfl rfl h1 h2 h3 h4 rfl
  have hp : Permutes 2 fun d => 1 - d := ⟨fun d hd => by show 1 - d < 2; omega, fun a ha b hb he => by replace he : 1 - a = 1 - b := he; omega⟩
  obtain ⟨fk'', t1, t2, t3⟩ := reordered_params hok i4 (π := fun d => 1 - d) (σ := fun d => 1 - d) (by rw [i5]; exact hp) (fun d hd => by rw [i5] at hd; omega)
  obtain ⟨v1, s1, m1, hm1, f1⟩ := new_program exactSolvers_fit (by norm_num) hd (by norm_num) rfl i6 i4
  obtain ⟨v2, s2, m2, hm2, f2⟩ := set_program exactSolvers_fit (by norm_num) hd' (by norm_num) i6 i4 t2 t3
  have key := C88_outputs exactSolvers exactSolvers_fit (fun K n A tol hK _ => exactSolvers_exact hK tol) _ _ v1 v2 0 0 2 _ _ none _ s1 s2 fk fk hd hd' (fun d => 1 - d) hp
    ⟨rfl, relabelled_pair _ _, relabelled_pair _ _⟩ m1 m2 hm1 hm2 (by rw [f1, f2]; exact t1) (by
      rw [f1, i7]
      intro ad had
      simp only [List.map_cons, List.map_nil, List.mem_singleton] at had
      rw [had]
      decide)
  obtain ⟨x, x', hx1, hx2, hx3⟩ := key (.predict [⟨[1, 2], [0, 0]⟩, ⟨[2, 2], [0, 1, 1, 1]⟩]) (.predict [⟨[2, 2], [0, 1, 1, 1]⟩, ⟨[1, 2], [0, 0]⟩]) ⟨⟨rfl, fun X hX => by
        simp only [List.mem_cons, List.not_mem_nil, or_false] at hX
        rcases hX with rfl | rfl
        · exact ⟨1, .inr rfl⟩
        · exact ⟨2, .inr rfl⟩⟩, fun X hX => by
        simp only [List.mem_cons, List.not_mem_nil, or_false] at hX
        rcases hX with rfl | rfl <;> rfl⟩ (relabelled_pair _ _) quiet quiet quiet_calm.1 quiet_calm.1
  obtain ⟨y, y', hy1, hy2, hy3⟩ := key .logLikelihood .logLikelihood trivial trivial quiet quiet quiet_calm.1 quiet_calm.1
  refine ⟨_, _, _, x, x', y, y', fun e => ?_, hx1, hx2, hx3, hy1, hy2, hy3⟩
  have := congrArg (fun a : List (NDArr ℝ) => (a.getD 0 ⟨[], []⟩).data.getD 1 0) e
  norm_num at this

end Verif
