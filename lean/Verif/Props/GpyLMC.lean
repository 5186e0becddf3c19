import Verif.Proofs.GpyLMC

/-! C101: `GPyLMC` and the exact Gaussian process of the LMC model. -/

namespace Verif

section
variable {Xs Ys : List (NDArr ℝ)} {kernels : List Kern} {ranks : List ℕ} {o : GPyLMC}

theorem sameAs_D {fk : FK} (hwf : fk.WF) (h : o.From Xs Ys kernels ranks) (hs : fk.SameAs o) : fk.D = Ys.length := by
  rw [← hwf.noise, hs.noise, (from_terms h).1]

theorem columns_lt {P : ℕ} (h : o.From Xs Ys kernels ranks) (hk : ∀ k ∈ kernels, ∀ c ∈ k.activeDims.getD [0], c < P) :
    ∀ t ∈ o.terms, ∀ c ∈ t.kern.columns, c < P := by
  intro t ht c hc
  obtain ⟨k, hkm, e, -⟩ := ((from_terms h).2 t ht).column
  exact hk k hkm c (e ▸ hc)

theorem gpyMean_one {fk : FK} (hD : Dataset Xs Ys 1) (hw : ∀ X ∈ Xs, X.WF) (h : o.From Xs Ys kernels ranks)
    (hk : ∀ k ∈ kernels, ∀ c ∈ k.activeDims.getD [0], c < 1) (hwf : fk.WF) (hs : fk.SameAs o) {d : ℕ} (hd : d < Xs.length) (x : ℕ → ℝ) :
    o.mean (vmk 1 x ++ [(d : ℝ)]) = fk.jittered.condMean (padded 1 Xs) (Ys.map NDArr.data) d x ∧
    o.var (vmk 1 x ++ [(d : ℝ)]) d = fk.gpyVar (padded 1 Xs) d x := by
  have hh := from_holds hD hw h
  have hDl := sameAs_D hwf h hs
  have hX : Xs.length = fk.D := by rw [hDl, hD.len]
  have hW : ∀ t ∈ o.terms, t.W.rows = fk.D := fun t ht => by rw [((from_terms h).2 t ht).rows, hDl]
  have hc := columns_lt h hk
  have hK := gpyKy_one hh hs hwf hc hX hW
  have hcr : (fun s : Fin ((padded 1 Xs).map Arr2.rows).sum => o.cov (vmk 1 x ++ [(d : ℝ)]) (o.rows.row s)) = fk.crossCov (padded 1 Xs) d x := by
    funext s
    rw [hh.row s s.2, gpyCov_one hs hc hW (by omega) (by
      have := ownerOf_lt _ s.1 s.2
      simpa [padded, hX] using this)]
    rfl
  refine ⟨?_, ?_⟩
  · rw [mean_at o _ _ hh.count, hK, hcr, hh.y]
    rfl
  · rw [var_at o _ _ _ hh.count, hK, hcr, gpyCov_one hs hc hW (by omega) (by omega), ← hs.noise]
    rfl

/-- C101, the part that holds: for one-dimensional inputs `predict` returns the means and variances of the exact Gaussian process of the LMC model (with GPy's
`1e-8` on the diagonal, and no variance below `1e-15` before noise), for all data, kernels, ranks and parameter values. Missing: inputs of dimension 2 and more,
for which the claim is false (`C101_violated`). -/
theorem C101_predict_partial (ppf : ℝ → ℝ) (hD : Dataset Xs Ys 1) (hw : ∀ X ∈ Xs, X.WF) (h : o.From Xs Ys kernels ranks)
    (hk : ∀ k ∈ kernels, ∀ c ∈ k.activeDims.getD [0], c < 1) (hp : o.Proper) (fk : FK) (hwf : fk.WF) (hs : fk.SameAs o)
    (Qs : List (NDArr ℝ)) (hne : Qs ≠ []) (hle : Qs.length ≤ Xs.length) (hsh : ∀ Q ∈ Qs, ∃ n, PointsShape Q n 1) (hq : ∀ Q ∈ Qs, Q.WF) :
    (fk.jittered.covMat (padded 1 Xs)).PosDef ∧ ∃ p, o.predict ppf Qs = .ok p ∧ PredictedAs p Qs.length (queryLens Qs)
      (fun d i => fk.jittered.condMean (padded 1 Xs) (Ys.map NDArr.data) d (queryPoint 1 Qs d i))
      (fun d i => fk.gpyVar (padded 1 Xs) d (queryPoint 1 Qs d i)) := by
  have hh := from_holds hD hw h
  have hpd := from_posDef hD hw h hp
  have hDl := sameAs_D hwf h hs
  refine ⟨?_, ?_⟩
  · rw [← gpyKy_one hh hs hwf (columns_lt h hk) (by rw [hDl, hD.len]) fun t ht => by rw [((from_terms h).2 t ht).rows, hDl], ← hh.count]
    exact hpd
  · obtain ⟨p, h1, h2⟩ := C58_predict o.gp (o.gpyModel ppf) _ _ _ (gpyModel_pointwise ppf o o.gp.inputDim hpd) Qs hne
      (by rw [hh.inputDim]; exact hsh) hq
    refine ⟨p, h1, h2.len, h2.mlen, fun d hd i hi => ?_⟩
    obtain ⟨e1, e2⟩ := h2.entry d hd i hi
    rw [hh.inputDim] at e1 e2
    obtain ⟨m1, m2⟩ := gpyMean_one hD hw h hk hwf hs (d := d) (by omega) (queryPoint 1 Qs d i)
    exact ⟨e1.trans m1, e2.trans m2⟩

/-- C101, the part that holds, for quantiles: they are those of the Gaussian with these means and variances. Missing: as in `C101_predict_partial`. -/
theorem C101_quantiles_partial (ppf : ℝ → ℝ) (hD : Dataset Xs Ys 1) (hw : ∀ X ∈ Xs, X.WF) (h : o.From Xs Ys kernels ranks)
    (hk : ∀ k ∈ kernels, ∀ c ∈ k.activeDims.getD [0], c < 1) (hp : o.Proper) (fk : FK) (hwf : fk.WF) (hs : fk.SameAs o)
    (Qs : List (NDArr ℝ)) (hne : Qs ≠ []) (hle : Qs.length ≤ Xs.length) (hsh : ∀ Q ∈ Qs, ∃ n, PointsShape Q n 1) (hq : ∀ Q ∈ Qs, Q.WF) (qs : List ℝ)
    (hqs : qs ≠ []) :
    ∃ r, o.quantiles ppf Qs qs = .ok r ∧ r.length = Qs.length ∧ ∀ d < Qs.length, (r.getD d []).length = (queryLens Qs).getD d 0 ∧
      ∀ i < (queryLens Qs).getD d 0, (r.getD d []).getD i [] = qs.map fun q =>
        fk.jittered.condMean (padded 1 Xs) (Ys.map NDArr.data) d (queryPoint 1 Qs d i) +
          ppf (q / 100) * Real.sqrt (fk.gpyVar (padded 1 Xs) d (queryPoint 1 Qs d i)) := by
  have hh := from_holds hD hw h
  have hpd := from_posDef hD hw h hp
  obtain ⟨r, h1, h2, h3⟩ := C58_quantiles o.gp (o.gpyModel ppf) _ _ _ (gpyModel_pointwise ppf o o.gp.inputDim hpd) Qs hne
    (by rw [hh.inputDim]; exact hsh) hq qs hqs
  refine ⟨r, h1, h2, fun d hd => ⟨(h3 d hd).1, fun i hi => ?_⟩⟩
  rw [(h3 d hd).2 i hi, hh.inputDim]
  refine List.map_congr_left fun q _ => ?_
  obtain ⟨m1, m2⟩ := gpyMean_one hD hw h hk hwf hs (d := d) (by omega) (queryPoint 1 Qs d i)
  unfold queryRow
  rw [m1, m2]

/-- C101, the part that holds, for the log likelihood. Missing: as in `C101_predict_partial`. -/
theorem C101_likelihood_partial (hD : Dataset Xs Ys 1) (hw : ∀ X ∈ Xs, X.WF) (h : o.From Xs Ys kernels ranks)
    (hk : ∀ k ∈ kernels, ∀ c ∈ k.activeDims.getD [0], c < 1) (fk : FK) (hwf : fk.WF) (hs : fk.SameAs o) :
    o.logLikelihood = fk.jittered.logLik (padded 1 Xs) (Ys.map NDArr.data) := by
  have hh := from_holds hD hw h
  have hDl := sameAs_D hwf h hs
  have hK := gpyKy_one hh hs hwf (columns_lt h hk) (by rw [hDl, hD.len]) fun t ht => by rw [((from_terms h).2 t ht).rows, hDl]
  have e : ∀ n, o.rows.rows = n → o.logLikelihood = -(1 / 2) * (n * Real.log (2 * Real.pi) + Real.log (fnMatrix n n o.Ky).det +
      toVec n o.y ⬝ᵥ (fnMatrix n n o.Ky)⁻¹.mulVec (toVec n o.y)) := by
    rintro n rfl
    rfl
  rw [e _ hh.count, hK, hh.y]
  unfold FK.logLik gaussLogDensity
  show _ = -(1 / 2) * (toVec _ _ ⬝ᵥ (fk.jittered.covMat (padded 1 Xs))⁻¹.mulVec (toVec _ _) + Real.log (fk.jittered.covMat (padded 1 Xs)).det + _)
  ring

theorem gpy_described (hD : Dataset Xs Ys 1) (h : o.From Xs Ys kernels ranks) (hk : ∀ k ∈ kernels, ∀ c ∈ k.activeDims.getD [0], c < 1)
    (hr : ∀ r ∈ ranks, 0 < r) (hp : o.Proper) (hne : o.terms ≠ []) :
    ∃ fk : FK, fk.Ready 1 ∧ fk.Sound ∧ fk.SameAs o ∧ fk.numLmcTotal = fk.Q ∧ fk.numSlfmTotal = 0 := by
  obtain ⟨hn, ht⟩ := from_terms h
  obtain ⟨fk, hfk⟩ : ∃ fk : FK, fk = ⟨Ys.length, o.terms.map fun t => t.kern.back, o.terms.map fun t => Arr2.of t.W.cols t.W.rows fun r a => t.W.get a r,
    o.terms.map GpyTerm.kappa, o.noise, o.terms.length, o.terms.length, o.terms.length, 0, some 1, [([0], List.range o.terms.length)], [([0], o.terms.length)],
    [([0], 0)], [([0], 0)]⟩ := ⟨_, rfl⟩
  have hQ : fk.Q = o.terms.length := by rw [hfk]; exact List.length_map ..
  have gk : ∀ q (hq : q < o.terms.length), fk.kernels.getD q (.identity none) = o.terms[q].kern.back := fun q hq => by
    rw [hfk]; exact (map_getD_lt hq _ _ ⟨.rbf 0 0 none, ⟨0, 0, []⟩, []⟩).trans (by rw [List.getD_eq_getElem _ _ hq])
  have gv : ∀ q (hq : q < o.terms.length), fk.coregVecs.getD q ⟨0, 0, []⟩ = Arr2.of o.terms[q].W.cols o.terms[q].W.rows fun r a => o.terms[q].W.get a r := fun q hq => by
    rw [hfk]; exact (map_getD_lt hq _ _ ⟨.rbf 0 0 none, ⟨0, 0, []⟩, []⟩).trans (by rw [List.getD_eq_getElem _ _ hq])
  have gd : ∀ q (hq : q < o.terms.length), fk.coregDiags.getD q [] = o.terms[q].kappa := fun q hq => by
    rw [hfk]; exact (map_getD_lt hq _ _ ⟨.rbf 0 0 none, ⟨0, 0, []⟩, []⟩).trans (by rw [List.getD_eq_getElem _ _ hq])
  have hm : ∀ q (hq : q < o.terms.length), o.terms[q] ∈ o.terms := fun q hq => List.getElem_mem hq
  have hdim : ∀ q < o.terms.length, fk.kdims q = [0] := fun q hq => by
    unfold FK.kdims
    rw [gk q hq, (back_spec (hp.kern _ (hm q hq)) (ht _ (hm q hq)).variance).2.2.1]
    rfl
  have hkl : fk.kernels.length = o.terms.length := by rw [hfk]; simp
  have hmem : ∀ k ∈ fk.kernels, ∃ t ∈ o.terms, t.kern.back = k := fun k hk => by rw [hfk] at hk; exact List.mem_map.1 hk
  have hDp : 0 < Ys.length := by rw [← hD.len]; exact List.length_pos_iff.2 hD.nonempty
  have hwf : fk.WF := by
    refine ⟨by rw [hfk]; exact hDp, by rw [hfk]; simp, by rw [hfk]; simp, by rw [hfk]; exact hn, by rw [hfk]; simp, fun q hq => ?_, fun q hq => ?_, fun q h1 h2 => ?_,
      fun q h1 h2 => ?_, fun q h1 i j => ?_⟩
    · rw [hkl] at hq
      rw [gv q hq]
      refine ⟨Arr2.of_wf .., ?_, hr _ (ht _ (hm q hq)).cols⟩
      rw [hfk]; exact (ht _ (hm q hq)).rows
    · rw [hkl] at hq
      rw [gd q hq, hfk]; exact (ht _ (hm q hq)).kappa
    · rw [hfk] at h1 h2; simp only at h1 h2; omega
    · rw [hfk] at h1 h2; simp only at h1 h2; omega
    · rw [hfk] at h1 ⊢; simp only at h1 ⊢
      rw [List.getD_eq_default _ _ (by rw [List.length_map]; omega)]
      rfl
  have hrd : fk.Ready 1 := by
    refine ⟨hwf, by rw [hQ]; exact List.length_pos_iff.2 hne, by rw [hfk], one_pos, fun k hkm => ?_, fun k hkm => ?_, ?_⟩
    · obtain ⟨t, htm, rfl⟩ := hmem k hkm
      exact (back_spec (hp.kern _ htm) (ht _ htm).variance).1
    · obtain ⟨t, htm, rfl⟩ := hmem k hkm
      exact ⟨[0], (back_spec (hp.kern _ htm) (ht _ htm).variance).2.2.1, by rw [hfk]; simp⟩
    · rw [hfk]
      intro ad hd c hc
      simp only [List.map_cons, List.map_nil, List.mem_singleton] at hd
      subst hd
      simp only [List.mem_singleton] at hc
      omega
  refine ⟨fk, hrd, ⟨fun q hq => ?_, fun k hkm => ?_, fun q hq a ha => ?_, fun a ha => ?_⟩, ⟨hQ, fun q t hq r => ?_, fun q t hq => ?_, fun q t hq => ?_,
    fun q t hq => ?_, by rw [hfk]⟩, by rw [hQ, hfk], by rw [hfk]⟩
  · exact C36_kernels_psd fk 1 hrd q hq (.inr ⟨0, hdim q (by omega)⟩)
  · obtain ⟨t, htm, rfl⟩ := hmem k hkm
    exact (back_spec (hp.kern _ htm) (ht _ htm).variance).2.1
  · rw [hQ] at hq
    have ha' : a < o.terms[q].kappa.length := by rw [(ht _ (hm q hq)).kappa]; rw [hfk] at ha; exact ha
    rw [gd q hq, List.getD_eq_getElem _ _ ha']
    exact hp.kappa _ (hm q hq) _ (List.getElem_mem ha')
  · have ha' : a < o.noise.length := by rw [hn]; rw [hfk] at ha; exact ha
    rw [hfk]
    simp only
    rw [List.getD_eq_getElem _ _ ha']
    exact hp.noise _ (List.getElem_mem ha')
  all_goals
    obtain ⟨hq', rfl⟩ := List.getElem?_eq_some_iff.1 hq
  · rw [gk q hq']
    exact (back_spec (hp.kern _ (hm q hq')) (ht _ (hm q hq')).variance).2.2.2 r
  · rw [hdim q hq']
    obtain ⟨k, hkm, e1, c, e2⟩ := (ht _ (hm q hq')).column
    have : c < 1 := hk k hkm c (by rw [← e1, e2]; exact List.mem_singleton_self c)
    rw [e2]
    congr 1; omega
  · rw [gv q hq']
    exact ⟨rfl, fun r a h1 h2 => Arr2.of_get h1 h2⟩
  · exact gd q hq'

/-- C101: there is such an LMC model for every object constructed with positive ranks, whatever `optimize` did within GPy's constraints; its kernels are valid
and positive semi-definite. -/
theorem C101_described (hD : Dataset Xs Ys 1) (h : o.From Xs Ys kernels ranks) (hk : ∀ k ∈ kernels, ∀ c ∈ k.activeDims.getD [0], c < 1)
    (hr : ∀ r ∈ ranks, 0 < r) (hp : o.Proper) (hne : o.terms ≠ []) : ∃ fk : FK, fk.Ready 1 ∧ fk.Sound ∧ fk.SameAs o := by
  obtain ⟨fk, h1, h2, h3, -⟩ := gpy_described hD h hk hr hp hne
  exact ⟨fk, h1, h2, h3⟩

/-- C101 is false for inputs of dimension 2 and more: whatever the data, the kernels, ranks and parameters, the mean at a point does not depend on the output
it is asked for. (The second coordinate of the points is taken for the output index.) -/
theorem C101_blind (ppf : ℝ → ℝ) {P : ℕ} (hP : 2 ≤ P) (hD : Dataset Xs Ys P) (hw : ∀ X ∈ Xs, X.WF) (h : o.From Xs Ys kernels ranks)
    (hk : ∀ k ∈ kernels, ∀ c ∈ k.activeDims.getD [0], c < P) (hp : o.Proper)
    (Qs : List (NDArr ℝ)) (hne : Qs ≠ []) (hsh : ∀ Q ∈ Qs, ∃ n, PointsShape Q n P) (hq : ∀ Q ∈ Qs, Q.WF) :
    ∃ p, o.predict ppf Qs = .ok p ∧ ∀ d < Qs.length, ∀ i < (queryLens Qs).getD d 0, ∀ d' < Qs.length, ∀ i' < (queryLens Qs).getD d' 0,
      (∀ c < P, queryPoint P Qs d i c = queryPoint P Qs d' i' c) → (p.1.getD d []).getD i 0 = (p.1.getD d' []).getD i' 0 := by
  have hh := from_holds hD hw h
  obtain ⟨p, h1, h2⟩ := C58_predict o.gp (o.gpyModel ppf) _ _ _ (gpyModel_pointwise ppf o o.gp.inputDim (from_posDef hD hw h hp)) Qs hne
      (by rw [hh.inputDim]; exact hsh) hq
  refine ⟨p, h1, fun d hd i hi d' hd' i' hi' hx => ?_⟩
  rw [(h2.entry d hd i hi).1, (h2.entry d' hd' i' hi').1, hh.inputDim]
  exact gpyMean_blind hP (columns_lt h hk) hx _ _

/-- C101: with as many ranks as kernels (at least one), all of them of a kind GPy has and of one dimension, a model can be constructed from every dataset. -/
theorem C101_constructs (st : GpyStart) (hκ : 0 ≤ st.kappa) (hσ : 0 < st.noise) {P : ℕ} (hD : Dataset Xs Ys P) (hw : ∀ X ∈ Xs, X.WF)
    (hv : ∀ k ∈ kernels, k.Valid) (he : ∀ k ∈ kernels, ∃ gk, k.toGpy = .ok gk) (hne : kernels ≠ []) (hl : kernels.length = ranks.length) :
    ∃ o, gpyLMCNew st Xs Ys kernels ranks = .ok o ∧ o.From Xs Ys kernels ranks ∧ o.Proper ∧ o.terms.length = kernels.length := by
  obtain ⟨norms, g1, -⟩ := (C42_validation_partial Xs Ys (fun X hX => by
    obtain ⟨n, ⟨e, -⟩ | e⟩ := hD.points X hX <;> simp [e]) (fun Y hY => by
    obtain ⟨i, hi, rfl⟩ := mem_getD hY ⟨[], []⟩
    obtain ⟨n, e, -⟩ := hD.shape i (by rw [hD.len]; exact hi)
    rw [e]
    exact List.cons_ne_nil _ _) false).2.2 _ hD
  obtain ⟨ts, t1, t2, t3⟩ := C68_terms kernels ranks hne hl hv he
  obtain ⟨X', R', s1, s2, s3, -⟩ := gpy_setup hD.nonempty hD.points hw
  obtain ⟨o, hnew, ot, on⟩ : ∃ o, gpyLMCNew st Xs Ys kernels ranks = .ok o ∧
      o.terms = (ts.mapIdx fun q kr => (⟨kr.1, Arr2.of Ys.length kr.2 (st.W q), List.replicate Ys.length st.kappa⟩ : GpyTerm)) ∧
      o.noise = List.replicate Ys.length st.noise := by
    unfold gpyLMCNew
    rw [g1, ok_bind, t1, ok_bind]
    simp only
    rw [show (List.map (fun X : NDArr ℝ => (⟨X.shape.headD 0, P, X.data⟩ : Arr2 ℝ)) Xs) = padded P Xs from rfl, s2, ok_bind, s3, ok_bind]
    exact ⟨_, rfl, rfl, rfl⟩
  have hpos : ∀ t ∈ ts, t.1.Positive := by
    intro t ht
    obtain ⟨-, k, hkm, e⟩ := constructGpy_terms t1 t ht
    have hvk := hv k hkm
    have ho : ∀ {ad : Option (List ℕ)} {k : GpyKern}, gpyOneDim ad k = .ok t.1 → t.1 = k := by
      intro ad k hk
      cases ad with
      | none => cases hk; rfl
      | some l =>
        unfold gpyOneDim at hk
        by_cases hl : l.length = 1
        · simp only [if_pos hl, Except.ok.injEq] at hk
          exact hk.symm
        · simp only [if_neg hl] at hk
          cases hk
    cases k with
    | rbf _ _ => rw [ho e]; exact Real.rpow_pos_of_pos hvk _
    | matern32 _ _ => rw [ho e]; exact one_div_pos.2 hvk
    | stdPeriodic _ _ _ => rw [ho e]; exact ⟨Real.rpow_pos_of_pos hvk.1 _, hvk.2⟩
    | identity _ => cases e
    | scaled _ _ _ => cases e
  have hrefl : ∀ t : GpyTerm, t.Tunes t := fun t => by
    refine ⟨?_, rfl, rfl, rfl⟩
    cases t.kern <;> constructor
  refine ⟨_, hnew, ⟨st, _, hnew, rfl, rfl, rfl, rfl, rfl, List.forall₂_same.2 fun t _ => hrefl t⟩, ⟨fun t ht => ?_, fun t ht v hv' => ?_, fun v hv' => ?_⟩, by rw [ot]; simpa using t2⟩
  · rw [ot] at ht
    obtain ⟨i, hi, rfl⟩ := List.getElem_of_mem ht
    simp only [List.getElem_mapIdx]
    exact hpos _ (List.getElem_mem _)
  · rw [ot] at ht
    obtain ⟨i, hi, rfl⟩ := List.getElem_of_mem ht
    simp only [List.getElem_mapIdx] at hv'
    rw [(List.mem_replicate.1 hv').2]; exact hκ
  · rw [on] at hv'
    rw [(List.mem_replicate.1 hv').2]; exact hσ

end

/-! ### a concrete case in two dimensions -/

/-- two points in the plane for each of two outputs -/
def planeXs : List (NDArr ℝ) := [⟨[2, 2], [0, 0, 1, 0]⟩, ⟨[2, 2], [0, 0, 1, 0]⟩]

/-- opposite observations of the two outputs -/
def planeYs : List (NDArr ℝ) := [⟨[2], [1, -1]⟩, ⟨[2], [-1, 1]⟩]

/-- one query at the origin for each output -/
def planeQs : List (NDArr ℝ) := [⟨[1, 2], [0, 0]⟩, ⟨[1, 2], [0, 0]⟩]

/-- an LMC model of independent outputs on the plane -/
noncomputable def planeFK : FK :=
  ⟨2, [.rbf 2 (some [0, 1])], [⟨1, 2, [0, 0]⟩], [[1, 1]], [1, 1], 1, 1, 1, 0, some 2, [([0, 1], [0])], [([0, 1], 1)], [([0, 1], 0)], [([0, 1], 0)]⟩

theorem plane_dataset : Dataset planeXs planeYs 2 := by
  refine ⟨by simp [planeXs], rfl, fun d hd => ?_, fun Y hY => ?_⟩
  · have hd' : d < 2 := hd
    interval_cases d
    · exact ⟨2, rfl, .inr rfl⟩
    · exact ⟨2, rfl, .inr rfl⟩
  · right
    simp only [planeYs, List.mem_cons, List.not_mem_nil, or_false] at hY
    rcases hY with rfl | rfl <;> norm_num [sdOf, varOf, meanOf, Finset.sum_range_succ]

theorem plane_ready : planeFK.Ready 2 ∧ planeFK.Sound := by
  have hwf : planeFK.WF := by
    refine ⟨by decide, rfl, rfl, rfl, by decide, fun q hq => ?_, fun q hq => ?_, fun q h1 h2 => ?_, fun q h1 h2 => ?_, fun q h1 i j => ?_⟩
    · have : q = 0 := by change q < 1 at hq; omega
      subst this; exact ⟨rfl, rfl, by decide⟩
    · have : q = 0 := by change q < 1 at hq; omega
      subst this; rfl
    · change 1 ≤ q at h1; change q < 1 at h2; omega
    · change 1 ≤ q at h1; change q < 1 at h2; omega
    · change 1 ≤ q at h1
      have : planeFK.coregVecs.getD q ⟨0, 0, []⟩ = ⟨0, 0, []⟩ := List.getD_eq_default _ _ h1
      rw [this]; rfl
  have hr : planeFK.Ready 2 := by
    refine ⟨hwf, by decide, rfl, by decide, fun k hk => ?_, fun k hk => ?_, fun ad had c hc => ?_⟩
    · rw [List.mem_singleton.1 hk]; exact (by norm_num : (0 : ℝ) < 2)
    · rw [List.mem_singleton.1 hk]; exact ⟨[0, 1], rfl, by simp [planeFK]⟩
    · simp only [planeFK, List.map_cons, List.map_nil, List.mem_singleton] at had
      subst had
      simp at hc; omega
  refine ⟨hr, fun q hq => C36_kernels_psd _ 2 hr q hq (.inl ?_), fun k hk => ?_, fun q hq a ha => ?_, fun a ha => ?_⟩
  · have : q = 0 := by change q < 1 at hq; omega
    subst this; trivial
  · rw [List.mem_singleton.1 hk]; trivial
  · have : q = 0 := by change q < 1 at hq; omega
    subst this
    change a < 2 at ha
    interval_cases a <;> norm_num [planeFK]
  · change a < 2 at ha
    interval_cases a <;> norm_num [planeFK]

theorem plane_means : 0 < planeFK.jittered.condMean (padded 2 planeXs) (planeYs.map NDArr.data) 0 (queryPoint 2 planeQs 0 0) ∧
    planeFK.jittered.condMean (padded 2 planeXs) (planeYs.map NDArr.data) 1 (queryPoint 2 planeQs 1 0) < 0 := by
  have hpd : (planeFK.jittered.covMat (padded 2 planeXs)).PosDef := jittered_posDef plane_ready.1.wf plane_ready.2 rfl
  set e := Real.exp (-1) with he
  have he1 : e < 1 := by rw [he]; exact Real.exp_lt_one_iff.2 (by norm_num)
  have hcov : ∀ a b : ℕ, ∀ x z : ℕ → ℝ, planeFK.jittered.cov a b x z = (if a = b then [(1 : ℝ), 1].getD a 0 else 0) * Real.exp (-((x 0 - z 0) ^ 2 + (x 1 - z 1) ^ 2)) := by
    intro a b x z
    have hB : planeFK.jittered.B 0 a b = if a = b then [(1 : ℝ), 1].getD a 0 else 0 := by
      unfold FK.B
      have : ∀ r a, (planeFK.jittered.coregVecs.getD 0 ⟨0, 0, []⟩).get r a = 0 := by
        intro r a
        show ([0, 0] : List ℝ).getD (r * 2 + a) 0 = 0
        rcases h : r * 2 + a with _ | _ | n <;> simp
      simp only [this]
      simp [FK.jittered, planeFK]
    show ∑ q ∈ Finset.range 1, _ = _
    rw [Finset.sum_range_one, hB]
    congr 1
    show Real.exp _ = _
    congr 1
    show -2 * (Real.sqrt _) ^ 2 / 2 = _
    rw [Real.sq_sqrt]
    · simp [FK.kdims, FK.jittered, planeFK, Kern.activeDims]
      ring
    · exact List.sum_nonneg (by intro v hv; obtain ⟨c, -, rfl⟩ := List.mem_map.1 hv; positivity)
  set α : ℝ := 1 / (2 + 1 / 10 ^ 8 - e) with hα
  have hα0 : 0 < α := by rw [hα]; apply one_div_pos.2; norm_num; linarith
  have hαe : α * (2 + 1 / 10 ^ 8 - e) = 1 := by rw [hα]; apply one_div_mul_cancel; apply ne_of_gt; norm_num; linarith
  have hpt : ∀ r < 4, rowPoint (padded 2 planeXs) r = fun c => if c = 0 then ((r % 2 : ℕ) : ℝ) else if c = 1 then 0 else rowPoint (padded 2 planeXs) r c := by
    intro r hr
    funext c
    rcases c with _ | _ | c
    · interval_cases r <;> norm_num [rowPoint, pointOf, padded, planeXs, ownerOf, innerIdx, offset, Arr2.get]
    · interval_cases r <;> norm_num [rowPoint, pointOf, padded, planeXs, ownerOf, innerIdx, offset, Arr2.get]
    · simp
  have hown : ∀ r < 4, ownerOf ((padded 2 planeXs).map Arr2.rows) r = r / 2 := by
    intro r hr
    interval_cases r <;> norm_num [padded, planeXs, ownerOf]
  have hfull : ∀ r < 4, ∀ s < 4, planeFK.jittered.fullCov (padded 2 planeXs) r s = if r = s then 2 + 1 / 10 ^ 8 else if r / 2 = s / 2 then e else 0 := by
    intro r hr s hs
    show planeFK.jittered.cov _ _ (rowPoint (padded 2 planeXs) r) (rowPoint (padded 2 planeXs) s) + _ = _
    rw [hcov, hown r hr, hown s hs, hpt r hr, hpt s hs]
    interval_cases r <;> interval_cases s <;> norm_num [FK.jittered, planeFK, he]
  have hcross : ∀ a < 2, ∀ s < 4, planeFK.jittered.cov a (ownerOf ((padded 2 planeXs).map Arr2.rows) s) (queryPoint 2 planeQs a 0) (rowPoint (padded 2 planeXs) s) =
      if a = s / 2 then (if s % 2 = 0 then 1 else e) else 0 := by
    intro a ha s hs
    have hq : queryPoint 2 planeQs a 0 0 = 0 ∧ queryPoint 2 planeQs a 0 1 = 0 := by interval_cases a <;> norm_num [queryPoint, planeQs]
    rw [hcov, hown s hs, hpt s hs, hq.1, hq.2]
    interval_cases a <;> interval_cases s <;> norm_num [he]
  obtain ⟨w, hwd⟩ : ∃ w : Fin ((padded 2 planeXs).map Arr2.rows).sum → ℝ, w = fun r => if r.1 = 0 ∨ r.1 = 3 then α else -α := ⟨_, rfl⟩
  have hw : (planeFK.jittered.covMat (padded 2 planeXs)).mulVec w = toVec _ ((planeYs.map NDArr.data).flatten) := by
    funext r
    have hr : r.1 < 4 := r.2
    show ∑ s : Fin 4, planeFK.jittered.fullCov (padded 2 planeXs) r s * w s = ([1, -1, -1, 1] : List ℝ).getD r 0
    rw [Fin.sum_univ_four, hfull r hr _ (by norm_num), hfull r hr _ (by norm_num), hfull r hr _ (by norm_num), hfull r hr _ (by norm_num), hwd]
    obtain ⟨r, hr'⟩ := r
    simp only at hr ⊢
    interval_cases r <;> norm_num <;> linarith
  have hsol : (planeFK.jittered.covMat (padded 2 planeXs))⁻¹.mulVec (toVec _ ((planeYs.map NDArr.data).flatten)) = w := by
    rw [← hw, Matrix.mulVec_mulVec, Matrix.nonsing_inv_mul _ ((Matrix.isUnit_iff_isUnit_det _).1 hpd.isUnit), Matrix.one_mulVec]
  have hmean : ∀ a < 2, planeFK.jittered.condMean (padded 2 planeXs) (planeYs.map NDArr.data) a (queryPoint 2 planeQs a 0) =
      if a = 0 then α * (1 - e) else -(α * (1 - e)) := by
    intro a ha
    unfold FK.condMean
    rw [hsol, hwd]
    show ∑ s : Fin 4, planeFK.jittered.cov a (ownerOf ((padded 2 planeXs).map Arr2.rows) s) (queryPoint 2 planeQs a 0) (rowPoint (padded 2 planeXs) s) * _ = _
    rw [Fin.sum_univ_four, hcross a ha _ (by norm_num), hcross a ha _ (by norm_num), hcross a ha _ (by norm_num), hcross a ha _ (by norm_num)]
    interval_cases a <;> norm_num <;> ring
  rw [hmean 0 (by norm_num), hmean 1 (by norm_num)]
  have := mul_pos hα0 (sub_pos.2 he1)
  norm_num
  exact this

/-- C101, violated: at the origin of the plane the exact Gaussian process of an LMC model of independent outputs predicts a positive value for the first output
and a negative one for the second; `GPyLMC` predicts the same value for both, with any kernels, ranks and parameter values. -/
theorem C101_violated : Dataset planeXs planeYs 2 ∧ planeFK.Ready 2 ∧ planeFK.Sound ∧
    0 < planeFK.jittered.condMean (padded 2 planeXs) (planeYs.map NDArr.data) 0 (queryPoint 2 planeQs 0 0) ∧
    planeFK.jittered.condMean (padded 2 planeXs) (planeYs.map NDArr.data) 1 (queryPoint 2 planeQs 1 0) < 0 ∧
    ∀ (ppf : ℝ → ℝ) (kernels : List Kern) (ranks : List ℕ) (o : GPyLMC), (∀ k ∈ kernels, ∀ c ∈ k.activeDims.getD [0], c < 2) →
      o.From planeXs planeYs kernels ranks → o.Proper →
      ∃ p, o.predict ppf planeQs = .ok p ∧ (p.1.getD 0 []).getD 0 0 = (p.1.getD 1 []).getD 0 0 := by
  refine ⟨plane_dataset, plane_ready.1, plane_ready.2, plane_means.1, plane_means.2, fun ppf kernels ranks o hk h hp => ?_⟩
  obtain ⟨p, h1, h2⟩ := C101_blind ppf le_rfl plane_dataset (by
    intro X hX
    simp only [planeXs, List.mem_cons, List.not_mem_nil, or_false] at hX
    rcases hX with rfl | rfl <;> rfl) h hk hp planeQs (by simp [planeQs]) (by
    intro X hX
    simp only [planeQs, List.mem_cons, List.not_mem_nil, or_false] at hX
    rcases hX with rfl | rfl <;> exact ⟨1, .inr rfl⟩) (by
    intro X hX
    simp only [planeQs, List.mem_cons, List.not_mem_nil, or_false] at hX
    rcases hX with rfl | rfl <;> rfl)
  exact ⟨p, h1, h2 0 (by decide) 0 (by decide) 1 (by decide) 0 (by decide) fun c _ => rfl⟩

/-- such objects exist -/
example : ∃ o : GPyLMC, o.From planeXs planeYs [.rbf 2 none, .matern32 1 (some [1])] [1, 2] ∧ o.Proper := by
  obtain ⟨o, -, h1, h2, -⟩ := C101_constructs (kernels := [.rbf 2 none, .matern32 1 (some [1])]) (ranks := [1, 2]) ⟨fun _ _ _ => 1, 1 / 2, 1⟩ (by norm_num) one_pos plane_dataset (by
    intro X hX
    simp only [planeXs, List.mem_cons, List.not_mem_nil, or_false] at hX
    rcases hX with rfl | rfl <;> rfl) (by
    intro k hk
    simp only [List.mem_cons, List.not_mem_nil, or_false] at hk
    rcases hk with rfl | rfl
    · exact (by norm_num : (0 : ℝ) < 2)
    · exact one_pos) (by
    intro k hk
    simp only [List.mem_cons, List.not_mem_nil, or_false] at hk
    rcases hk with rfl | rfl <;> exact ⟨_, rfl⟩) (by simp) rfl
  exact ⟨o, h1, h2⟩

/-- two outputs on the line, queries for the first output alone -/
example : ∃ (o : GPyLMC) (fk : FK) (p : List (List ℝ) × List (List ℝ)),
    o.From [⟨[2], [0, 1]⟩, ⟨[2, 1], [0, 3]⟩] planeYs [.rbf 2 none, .stdPeriodic 1 2 (some [0])] [1, 2] ∧ fk.Ready 1 ∧ fk.Sound ∧ fk.SameAs o ∧
      o.predict id [⟨[1], [5]⟩] = .ok p ∧ (p.1.getD 0 []).getD 0 0 =
        fk.jittered.condMean (padded 1 [⟨[2], [0, 1]⟩, ⟨[2, 1], [0, 3]⟩]) (planeYs.map NDArr.data) 0 (queryPoint 1 [⟨[1], [5]⟩] 0 0) := by
  have hD : Dataset [⟨[2], [0, 1]⟩, ⟨[2, 1], [0, 3]⟩] planeYs 1 := by
    refine ⟨by simp, rfl, fun d hd => ?_, plane_dataset.spread⟩
    have hd' : d < 2 := hd
    interval_cases d
    · exact ⟨2, rfl, .inl ⟨rfl, rfl⟩⟩
    · exact ⟨2, rfl, .inr rfl⟩
  have hw : ∀ X ∈ ([⟨[2], [0, 1]⟩, ⟨[2, 1], [0, 3]⟩] : List (NDArr ℝ)), X.WF := by
    intro X hX
    simp only [List.mem_cons, List.not_mem_nil, or_false] at hX
    rcases hX with rfl | rfl <;> rfl
  have hk : ∀ k ∈ ([.rbf 2 none, .stdPeriodic 1 2 (some [0])] : List Kern), ∀ c ∈ k.activeDims.getD [0], c < 1 := by
    intro k hk c hc
    simp only [List.mem_cons, List.not_mem_nil, or_false] at hk
    rcases hk with rfl | rfl <;> simp [Kern.activeDims] at hc <;> omega
  obtain ⟨o, -, h1, h2, h3⟩ := C101_constructs (kernels := [.rbf 2 none, .stdPeriodic 1 2 (some [0])]) (ranks := [1, 2]) ⟨fun _ _ _ => 1, 1 / 2, 1⟩ (by norm_num) one_pos hD hw (by
    intro k hk
    simp only [List.mem_cons, List.not_mem_nil, or_false] at hk
    rcases hk with rfl | rfl
    · exact (by norm_num : (0 : ℝ) < 2)
    · refine ⟨one_pos, ?_⟩
      have := Real.exp_lt_one_iff.2 (show (-200 : ℝ) < 0 by norm_num)
      linarith) (by
    intro k hk
    simp only [List.mem_cons, List.not_mem_nil, or_false] at hk
    rcases hk with rfl | rfl <;> exact ⟨_, rfl⟩) (by simp) rfl
  obtain ⟨fk, f1, f2, f3⟩ := C101_described hD h1 hk (by simp) h2 (by
    intro e
    rw [e] at h3
    simp at h3)
  obtain ⟨-, p, p1, p2⟩ := C101_predict_partial id hD hw h1 hk h2 fk f1.wf f3 [⟨[1], [5]⟩] (by simp) (by simp) (by
    intro Q hQ
    rw [List.mem_singleton.1 hQ]
    exact ⟨1, .inl ⟨rfl, rfl⟩⟩) (by
    intro Q hQ
    rw [List.mem_singleton.1 hQ]
    rfl)
  exact ⟨o, fk, p, h1, f1, f2, f3, p1, (p2.entry 0 (by decide) 0 (by decide)).1⟩

end Verif
