import Verif.Proofs.SameCovariance

/-! C96: only the covariance function matters, not how it is written. -/

namespace Verif

open Matrix

theorem generateGrids_at {Xs : List (Arr2 ℝ)} {lo hi m : GridOpt} {fk : FK} {G : List (List ℕ × GroupGrid)} (hg : generateGrids fk Xs lo hi m = .ok G) {ad : List ℕ}
    (had : ad ∈ fk.activeDims.map Prod.fst) : ∃ g, generateGrid Xs lo hi m ad = .ok g ∧ dictGet G ad = some g := by
  unfold generateGrids at hg
  generalize fk.activeDims.map Prod.fst = keys at hg had
  induction keys generalizing G with
  | nil => cases had
  | cons key keys ih =>
    simp only [mapExcept, bind_ok, pure_ok] at hg
    obtain ⟨x, ⟨g, g1, rfl⟩, ys, g2, rfl⟩ := hg
    simp only [dictGet]
    by_cases hk : key = ad
    · subst hk
      exact ⟨g, g1, by rw [if_pos rfl]⟩
    · rw [if_neg hk]
      refine ih g2 ?_
      rcases List.mem_cons.1 had with h | h
      · exact absurd h.symm hk
      · exact h

theorem sameFunction_of {P P' : ℕ} {m m' : LLGP} {a a' : LLGPArgs} (ha : m.MadeFrom P a) (ha' : m'.MadeFrom P' a') (ok : m.OK P) (ok' : m'.OK P') (hp : a.SameProblem a')
    (hm : m'.prediction = m.prediction) (hc : SameCovariance m.fk m'.fk) (hs : SpoiledAlike m.fk m'.fk) : SameFunction P m m' := by
  obtain ⟨fk, m0, hd, hi, g1, g2, g3⟩ := ha
  obtain ⟨fk', m0', hd', hi', g1', g2', g3'⟩ := ha'
  obtain ⟨p1, p2, p3, p4, p5, p6, -⟩ := hp
  have hgp : m'.gp = m.gp := by
    obtain ⟨-, -, -, -, -, e⟩ := init_fields hi
    obtain ⟨-, -, -, -, -, e'⟩ := init_fields hi'
    rw [p1, p2, p3, e] at e'
    rw [g1, g1']
    exact (Except.ok.inj e').symm
  have hP : P' = P := by rw [← ok.inputDim, ← ok'.inputDim, hgp]
  subst hP
  obtain ⟨-, -, -, -, q⟩ := documented_fields hd hi
  obtain ⟨-, -, -, -, q'⟩ := documented_fields hd' hi'
  refine ⟨ok, ok', hc, hs, hm, hgp, fun ad had => ?_⟩
  have had' : ad ∈ m'.fk.activeDims.map Prod.fst := by
    rw [key_iff ok'.ready ok'.groups, hc.dims, ← key_iff ok.ready ok.groups]
    exact had
  rw [g3] at had
  rw [g3'] at had'
  rw [p4, p5, p6, ← g1', hgp] at q'
  rw [← g1] at q
  obtain ⟨g, x1, x2⟩ := generateGrids_at q had
  obtain ⟨g', y1, y2⟩ := generateGrids_at q' had'
  rw [x1] at y1
  cases y1
  unfold LLGP.axesOf
  rw [g2, g2', x2, y2]

/-- C96: two programs that use their models as documented and hold two models of the same data, with the same grids and prediction mode, whose parameters describe the same
covariance function, get the same answer to every question, or the same exception, in every prediction mode. How many kernels there are, in which order, of which type,
with which ranks and scales does not matter. (With linear solves that are exact; kernels do not read a dimension twice.) -/
theorem C96_same_answers (sv : Solvers) (hs : sv.Fit) (hx : sv.Exact) (ops ops' : List Op) (i i' : ℕ) (a a' : LLGPArgs) (m m' : LLGP) (h : Held sv ops i a m)
    (h' : Held sv ops' i' a' m') (hp : a.SameProblem a') (hc : SameCovariance m.fk m'.fk) (hsp : SpoiledAlike m.fk m'.fk)
    (hn : ∀ ad ∈ m.fk.activeDims.map Prod.fst, ad.Nodup) (q : Query) (hq : m.Understands q) (e e' : Env) (he : e.Works) (he' : e'.Works) :
    ∃ x, results sv (ops ++ [.ask i q e]) = results sv ops ++ [x] ∧ results sv (ops' ++ [.ask i' q e']) = results sv ops' ++ [x] := by
  obtain ⟨k, f1, f2, f3, -, f5, f6, -⟩ := h.facts hs
  obtain ⟨k', g1, g2, -, -, g5, g6, -⟩ := h'.facts hs
  have R := sameFunction_of f1 g1 f5 g5 hp (held_prediction hs h h' hp.2.2.2.2.2.2) hc hsp
  refine ⟨m.answer sv e q, (C48_answers sv ops (validFrom_works ops [] h.valid) i m h.model (by rw [f6.kernel]; simp) q e he).1, ?_⟩
  rw [(C48_answers sv ops' (validFrom_works ops' [] h'.valid) i' m' h'.model (by rw [g6.kernel]; simp) q e' he').1]
  congr 2
  obtain ⟨l, l', hl, hl', h0, h1, h2, h3⟩ := R.numbers hs hx f6 g6 f2 g2 hn
  cases q with
  | predict Qs =>
    show (m'.gp.predict (m'.rawPredict sv e') Qs).map _ = (m.gp.predict (m.rawPredict sv e) Qs).map _
    have := (predict_of_raw (Xs := m.gp.Xs) (Ys := m.gp.Ys) hq.1 rfl (R.raw hs hx f6 g6 f2 g2 hn he he' (padded_inputs (by rw [← f3]; exact hq.1) hq.2))).1
    rw [R.gp, ← this]
  | quantiles Qs qs =>
    show (m'.gp.predictQuantiles (m'.rawPredict sv e') Qs qs).map _ = (m.gp.predictQuantiles (m.rawPredict sv e) Qs qs).map _
    have := (predict_of_raw (Xs := m.gp.Xs) (Ys := m.gp.Ys) hq.1 rfl (R.raw hs hx f6 g6 f2 g2 hn he he' (padded_inputs (by rw [← f3]; exact hq.1) hq.2))).2
    rw [R.gp, ← this]
  | covariance =>
    show m'.dense.map _ = m.dense.map _
    rw [hl, hl']
    exact congrArg (fun x => Except.ok (Answer.matrix x)) h0
  | logDet =>
    show m'.dense.map _ = m.dense.map _
    rw [hl, hl']
    exact congrArg (fun x => Except.ok (Answer.extended x)) h1
  | normalQuadratic =>
    show m'.normalQuadratic.map _ = m.normalQuadratic.map _
    rw [h2]
  | logLikelihood =>
    show (do let l ← m'.dense; m'.logLikelihoodOf l).map _ = (do let l ← m.dense; m.logLikelihoodOf l).map _
    rw [hl, hl', ok_bind, ok_bind, h3]

/-- When kernels can be rewritten: `f` says which kernel of the first list each kernel of the second list is a multiple of, and the coregionalization matrices of the
kernels that stand for one of the first list add up, with these multiples, to its matrix. This covers reordering the kernels, listing one several times with its
matrix split up (a rank `R` kernel of the linear model of coregionalization against `R` kernels of rank one and a kernel for each output), and moving a factor
between a kernel and its matrix. -/
theorem C96_rewritten (fk fk' : FK) (hD : fk'.D = fk.D) (hn : ∀ a < fk.D, fk'.noise.getD a 0 = fk.noise.getD a 0) (f : ℕ → ℕ) (c : ℕ → ℝ)
    (hf : ∀ q < fk'.Q, f q < fk.Q ∧ fk'.kdims q = fk.kdims (f q) ∧
      ∀ r ≥ 0, (fk'.kernels.getD q (.identity none)).doc r = c q * (fk.kernels.getD (f q) (.identity none)).doc r)
    (hs : ∀ q < fk.Q, ∃ q' < fk'.Q, f q' = q)
    (hB : ∀ q < fk.Q, ∀ a < fk.D, ∀ b < fk.D, ∑ q' ∈ (Finset.range fk'.Q).filter (fun q' => f q' = q), c q' * fk'.B q' a b = fk.B q a b) : SameCovariance fk fk' := by
  refine ⟨hD, fun ad => ⟨fun ⟨q, hq, h⟩ => ⟨f q, (hf q hq).1, (hf q hq).2.1 ▸ h⟩, fun ⟨q, hq, h⟩ => ?_⟩, fun ad a ha b hb r hr => ?_, hn⟩
  · obtain ⟨q', h1, rfl⟩ := hs q hq
    exact ⟨q', h1, (hf q' h1).2.1.trans h⟩
  · unfold FK.onDims
    have e : ∀ q ∈ (Finset.range fk.Q).filter (fun q => fk.kdims q = ad), fk.B q a b * (fk.kernels.getD q (.identity none)).doc r =
        ∑ q' ∈ ((Finset.range fk'.Q).filter (fun q' => fk'.kdims q' = ad)).filter (fun q' => f q' = q), fk'.B q' a b * (fk'.kernels.getD q' (.identity none)).doc r := by
      intro q hq
      simp only [Finset.mem_filter, Finset.mem_range] at hq
      rw [← hB q hq.1 a ha b hb, Finset.sum_mul]
      have hfil : ((Finset.range fk'.Q).filter (fun q' => fk'.kdims q' = ad)).filter (fun q' => f q' = q) = (Finset.range fk'.Q).filter (fun q' => f q' = q) := by
        ext q'
        simp only [Finset.mem_filter, Finset.mem_range]
        refine ⟨fun h => ⟨h.1.1, h.2⟩, fun h => ⟨⟨h.1, ?_⟩, h.2⟩⟩
        rw [(hf q' h.1).2.1, h.2, hq.2]
      rw [hfil]
      refine Finset.sum_congr rfl fun q' hq' => ?_
      simp only [Finset.mem_filter, Finset.mem_range] at hq'
      rw [(hf q' hq'.1).2.2 r hr, hq'.2]
      ring
    rw [Finset.sum_congr rfl e]
    refine (Finset.sum_fiberwise_of_maps_to (fun q' hq' => ?_) _).symm
    simp only [Finset.mem_filter, Finset.mem_range] at hq' ⊢
    exact ⟨(hf q' hq'.1).1, by rw [← (hf q' hq'.1).2.1, hq'.2]⟩

/-- two outputs with two-dimensional inputs and any number of RBF kernels -/
theorem rbf_documented {fk : FK} (hw : fk.WF) (hf : fk.Fresh) (hk : ∀ k ∈ fk.kernels, k = .rbf 1 none) (hQ : 0 < fk.Q)
    (hκ : ∀ q < fk.Q, ∀ a < fk.D, 0 ≤ (fk.coregDiags.getD q []).getD a 0) (hn : ∀ a < fk.D, 0 < fk.noise.getD a 0) (hD : fk.D = 2) (mode : PredMode) :
    LLGPArgs.Documented ⟨[⟨[2, 2], [0, 0, 1, 1]⟩, ⟨[2, 2], [0, 1, 1, 0]⟩], [⟨[2], [1, 3]⟩, ⟨[2], [5, 7]⟩], true, .none, .none, .none, false, mode.name, 15, 1e-4, some fk⟩ 2 fk ∧
    ∃ fk', fk.setInputDim 2 = .ok fk' ∧ fk'.Sound ∧ fk'.Q = fk.Q ∧ fk'.D = fk.D ∧ fk'.noise = fk.noise ∧ fk'.B = fk.B ∧ fk'.numLmcTotal = fk.numLmcTotal ∧
      fk'.numSlfmTotal = fk.numSlfmTotal ∧ (∀ q < fk.Q, fk'.kernels.getD q (.identity none) = .rbf 1 (some [0, 1])) ∧
      ∀ g ∈ fk'.activeDims, g = ([0, 1], List.range fk.Q) := by
  obtain ⟨fk', g1, g2⟩ := setInputDim_fresh fk 2 hf
  have hq : ∀ q < fk.Q, fk.kernels.getD q (.identity none) = .rbf 1 none := fun q hq => hk _ (by
    rw [List.getD_eq_getElem _ _ hq]
    exact List.getElem_mem hq)
  have hd : LLGPArgs.Documented ⟨[⟨[2, 2], [0, 0, 1, 1]⟩, ⟨[2, 2], [0, 1, 1, 0]⟩], [⟨[2], [1, 3]⟩, ⟨[2], [5, 7]⟩], true, .none, .none, .none, false, mode.name, 15, 1e-4, some fk⟩ 2 fk := by
    refine ⟨example_dataset, ?_, ?_, ?_, rfl, hf, hw, hQ, hD, ?_, ?_, ?_, trivial, trivial, trivial, (fun c _ v hv => by cases hv), ?_⟩
    · intro X hX
      simp only [List.mem_cons, List.not_mem_nil, or_false] at hX
      rcases hX with rfl | rfl <;> rfl
    · intro X hX
      simp only [List.mem_cons, List.not_mem_nil, or_false] at hX
      rcases hX with rfl | rfl <;> rfl
    · intro X hX
      simp only [List.mem_cons, List.not_mem_nil, or_false] at hX
      rcases hX with rfl | rfl <;> simp
    · intro k h
      rw [hk k h]
      simp [Kern.Valid]
    · intro k h
      rw [hk k h]
      simp [dimsRead, Kern.activeDims]
    · cases mode <;> simp [PredMode.name]
    · intro c hc
      refine ⟨⟨2, 2, [0, 0, 1, 1]⟩, by simp [padded], 0, by norm_num, .inl ⟨⟨2, 2, [0, 0, 1, 1]⟩, by simp [padded], 1, by norm_num, ?_⟩⟩
      interval_cases c <;> norm_num [Arr2.get]
  obtain ⟨m, fk'', h1, h2, h3, h4, -⟩ := llgpInit_documented hd (by norm_num)
  rw [g1] at h3
  cases h3
  have hQ' : fk'.Q = fk.Q := g2.klen
  have hker : ∀ q < fk.Q, fk'.kernels.getD q (.identity none) = .rbf 1 (some [0, 1]) := fun q h => by
    rw [g2.kern q h, hq q h]
    rfl
  refine ⟨hd, fk', g1, ⟨fun q h => ?_, fun k h => ?_, fun q h => ?_, ?_⟩, hQ', ?_, ?_, ?_, ?_, ?_, hker, fun g hg => ?_⟩
  · have := C36_kernels_psd m.fk 2 h2.ready q (by rw [h4]; exact h) (.inl (by rw [h4, hker q (hQ' ▸ h)]; trivial))
    rwa [h4] at this
  · obtain ⟨q, h', rfl⟩ := mem_getD h (.identity none)
    rw [hker q (hQ' ▸ h')]
    trivial
  · rw [g2.same]
    exact hκ q (hQ' ▸ h)
  · rw [g2.same]
    exact hn
  · rw [g2.same]
  · rw [g2.same]
  · rw [g2.same]; rfl
  · rw [g2.same]
  · rw [g2.same]
  · obtain ⟨e1, e2⟩ := (g2.mem g.1 g.2).1 hg
    have hdr : ∀ q < fk.Q, dimsRead 2 (fk.kernels.getD q (.identity none)) = [0, 1] := fun q h => by rw [hq q h]; rfl
    by_cases e : g.1 = [0, 1]
    · refine Prod.ext e ?_
      rw [e1]
      unfold FK.groupOf
      refine List.filter_eq_self.2 fun q h => ?_
      rw [hdr q (List.mem_range.1 h), e]
      simp
    · refine absurd ?_ e2
      rw [e1]
      unfold FK.groupOf
      refine List.filter_eq_nil_iff.2 fun q h => ?_
      rw [hdr q (List.mem_range.1 h)]
      simpa using Ne.symm e

/-- A linear model of coregionalization with one RBF kernel of rank two, and one with two latent RBF kernels of rank one and an RBF kernel for each output: when the
vectors of the latter are the rows of the former, programs that make these models get the same answers to all questions. -/
example (mode : PredMode) (A : ℕ → ℕ → ℝ) : ∃ (a a' : LLGPArgs) (fk fk' : FK), a.prediction = mode.name ∧ a.functionalKernel = some fk ∧ a'.functionalKernel = some fk' ∧
    fkNew (fun _ => A) ⟨some 2, some [.rbf 1 none], some [2], none, none, none⟩ = .ok fk ∧
    fkNew (fun q _ => A q) ⟨some 2, some [], some [], some [.rbf 1 none, .rbf 1 none], some [.rbf 1 none, .rbf 1 none], none⟩ = .ok fk' ∧
    ∃ m m', Held exactSolvers [.new a quiet] 0 a m ∧ Held exactSolvers [.new a' quiet] 0 a' m' ∧ ∀ q, m.Understands q →
      ∃ x, results exactSolvers ([.new a quiet] ++ [.ask 0 q quiet]) = results exactSolvers [.new a quiet] ++ [x] ∧
        results exactSolvers ([.new a' quiet] ++ [.ask 0 q quiet]) = results exactSolvers [.new a' quiet] ++ [x] := by
  obtain ⟨D, hD, h⟩ := (fkNew_given (fun _ => A) ⟨some 2, some [.rbf 1 none], some [2], none, none, none⟩ (by simp) (by simp)).1
    ⟨⟨2, rfl, by norm_num⟩, by simp [given], rfl, by simp [given], .inl rfl⟩ (fun D hD => by cases hD; simp [given])
  have hD2 : D = 2 := by simp at hD; omega
  subst hD2
  obtain ⟨D, hD', h'⟩ := (fkNew_given (fun q _ => A q) ⟨some 2, some [], some [], some [.rbf 1 none, .rbf 1 none], some [.rbf 1 none, .rbf 1 none], none⟩ (by simp) (by simp)).1
    ⟨⟨2, rfl, by norm_num⟩, by simp [given], rfl, by simp [given], .inl rfl⟩ (fun D hD => by cases hD; simp [given])
  have hD2 : D = 2 := by simp at hD'; omega
  subst hD2
  obtain ⟨-, -, -, hw, hf⟩ := C29_contents _ _ _ (by simp) (by simp) h
  obtain ⟨-, -, -, hw', hf'⟩ := C29_contents _ _ _ (by simp) (by simp) h'
  obtain ⟨d1, k1, s1, so1, Q1, D1, n1, B1, l1, t1, c1, g1⟩ := rbf_documented hw hf (by simp [given]) (by simp [FK.Q, given]) (fun q hq a ha => by
    have hq' : q < 1 := hq
    have ha' : a < 2 := ha
    interval_cases q
    interval_cases a <;> simp [given, FKArgs.idx, indexOrRange, vmk, List.range_succ])
    (fun a ha => by
      show 0 < (vmk 2 fun _ => (0.1 : ℝ)).getD a 0
      rw [vmk_getD_lt (by exact ha)]
      norm_num) rfl mode
  obtain ⟨d2, k2, s2, so2, Q2, D2, n2, B2, l2, t2, c2, g2⟩ := rbf_documented hw' hf' (by simp [given]) (by simp [FK.Q, given]) (fun q hq a ha => by
    have hq' : q < 4 := hq
    have ha' : a < 2 := ha
    interval_cases q <;> interval_cases a <;> simp [given, FKArgs.idx, indexOrRange, vmk, List.range_succ])
    (fun a ha => by
      show 0 < (vmk 2 fun _ => (0.1 : ℝ)).getD a 0
      rw [vmk_getD_lt (by exact ha)]
      norm_num) rfl mode
  obtain ⟨m, hm, e⟩ := held_new exactSolvers_fit (by norm_num) d1 (by norm_num) rfl s1 so1
  obtain ⟨m', hm', e'⟩ := held_new exactSolvers_fit (by norm_num) d2 (by norm_num) rfl s2 so2
  have Q1' : k1.Q = 1 := Q1
  have Q2' : k2.Q = 4 := Q2
  have D1' : k1.D = 2 := D1
  have hs : SameCovariance k1 k2 := by
    refine C96_rewritten k1 k2 (by rw [D1, D2]) (fun a _ => by rw [n1, n2]) (fun _ => 0) (fun _ => 1) (fun q hq => ⟨by rw [Q1']; norm_num, ?_, fun r _ => ?_⟩)
      (fun q hq => ⟨0, by rw [Q2']; norm_num, by omega⟩) (fun q hq a ha b hb => ?_)
    · unfold FK.kdims
      rw [c1 0 (by rw [← Q1, Q1']; norm_num), c2 q (by rw [← Q2]; exact hq)]
    · rw [c1 0 (by rw [← Q1, Q1']; norm_num), c2 q (by rw [← Q2]; exact hq), one_mul]
    · rw [Q1'] at hq
      rw [D1'] at ha hb
      rw [Q2', B1, B2]
      interval_cases q
      interval_cases a <;> interval_cases b <;>
        simp [FK.B, initAq, given, Arr2.of, Arr2.zeros, Arr2.get, vmk, List.range_succ, Finset.sum_range_succ, FKArgs.idx, indexOrRange] <;> ring
  refine ⟨_, _, _, _, rfl, rfl, rfl, h, h', m, m', hm, hm', fun q hq => ?_⟩
  refine C96_same_answers exactSolvers exactSolvers_fit (fun K n A tol hK _ => exactSolvers_exact hK tol) _ _ 0 0 _ _ m m' hm hm' ⟨rfl, rfl, rfl, rfl, rfl, rfl, rfl⟩
    (by rw [e, e']; exact hs) ?_ ?_ q hq quiet quiet quiet_calm.1 quiet_calm.1
  · rw [e, e']
    intro g hg g' hg' _
    have hg := g1 g hg
    have hg' := g2 g' hg'
    refine ⟨fun h => absurd h.2 ?_, fun h => absurd h.2 ?_⟩
    · rw [hg']
      have a1 : k2.numLmcTotal = 0 := l2
      have a2 : k2.numSlfmTotal = 2 := t2
      rintro (h | h)
      · have := h 0 (by simp [FK.Q, given])
        simp [FK.IsIndep, a1, a2] at this
      · have := h 3 (by simp [FK.Q, given])
        simp [FK.IsSlfm, a1, a2] at this
    · rw [hg]
      have a1 : k1.numLmcTotal = 1 := l1
      rintro (h | h)
      · have := h 0 (by simp [FK.Q, given])
        simp [FK.IsIndep, a1] at this
      · have := h 0 (by simp [FK.Q, given])
        simp [FK.IsSlfm, a1] at this
  · rw [e]
    intro ad had
    obtain ⟨g, hg, rfl⟩ := List.mem_map.1 had
    rw [g1 g hg]
    simp

end Verif
