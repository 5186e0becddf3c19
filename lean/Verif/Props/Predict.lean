import Verif.Props.MultiGP

/-! C47 (`predict_quantiles`), and what `predict` makes of a raw prediction (used for C43). -/

namespace Verif

theorem getD_mem_of_lt {α : Type} {l : List α} {i : ℕ} (h : i < l.length) (d : α) : l.getD i d ∈ l := by
  rw [List.getD_eq_getElem _ _ h]
  exact List.getElem_mem _

theorem map_getD_lt {α β : Type} {l : List α} {i : ℕ} (h : i < l.length) (f : α → β) (d : β) (d' : α) : (l.map f).getD i d = f (l.getD i d') := by
  rw [List.getD_eq_getElem _ _ (by simpa using h), List.getElem_map, List.getD_eq_getElem _ _ h]

theorem fits_as {p : Predicted} {lens : List ℕ} (h : PredictionFits p lens) :
    PredictedAs p lens.length lens (fun d i => (p.1.getD d []).getD i 0) (fun d i => (p.2.getD d []).getD i 0) := by
  have l1 : p.1.length = lens.length := by rw [← h.means, List.length_map]
  have l2 : p.2.length = lens.length := by rw [← h.vars, List.length_map]
  refine ⟨⟨l1, l2⟩, fun d hd => ⟨?_, ?_⟩, fun d _ i _ => ⟨rfl, rfl⟩⟩
  · have hd' : d < p.1.length := by rw [l1]; exact hd
    rw [List.getD_eq_getElem _ _ hd', List.getD_eq_getElem _ _ hd]
    simp only [← h.means, List.getElem_map]
  · have hd' : d < p.2.length := by rw [l2]; exact hd
    rw [List.getD_eq_getElem _ _ hd', List.getD_eq_getElem _ _ hd]
    simp only [← h.vars, List.getElem_map]

theorem mapExcept_zip_range {α β γ : Type} {f : α × β → Except PyErr γ} {l : List α} {m : List β} {g : ℕ → γ} (h : l.length = m.length) (a : α) (b : β)
    (hf : ∀ i < l.length, f (l.getD i a, m.getD i b) = .ok (g i)) : mapExcept f (l.zip m) = .ok ((List.range l.length).map g) := by
  have : l.zip m = (List.range l.length).map fun i => (l.getD i a, m.getD i b) := by
    refine List.ext_getElem (by simp [h]) fun i h1 h2 => ?_
    have hi : i < l.length := by simpa using h2
    simp only [List.getElem_zip, List.getElem_map, List.getElem_range]
    rw [List.getD_eq_getElem _ _ hi, List.getD_eq_getElem _ _ (h ▸ hi)]
  rw [this, mapExcept_map]
  exact mapExcept_ok fun i hi => hf i (List.mem_range.1 hi)

theorem range_map_getD {α : Type} (n : ℕ) (g : ℕ → α) (d : α) {i : ℕ} (hi : i < n) : ((List.range n).map g).getD i d = g i := by
  rw [List.getD_eq_getElem _ _ (by simpa using hi)]
  simp

theorem gpReady_of_new {Xs Ys : List (NDArr ℝ)} {normalize : Bool} {gp : MultiGP} (h : multiGPNew Xs Ys normalize = .ok gp) :
    GPReady gp ∧ gp.outputDim = Xs.length := by
  have hd := ok_of_multiGP h
  obtain ⟨norms, h1, h2⟩ := (C42_validation_partial Xs Ys (fun X hX => by
    obtain ⟨n, ⟨e, -⟩ | e⟩ := hd.points X hX <;> simp [e]) (fun Y hY => by
    obtain ⟨i, hi, rfl⟩ := mem_getD hY ⟨[], []⟩
    obtain ⟨n, e, -⟩ := hd.shape i (by rw [hd.len]; exact hi)
    rw [e]
    exact List.cons_ne_nil _ _) normalize).2.2 _ hd
  rw [h] at h1
  injection h1 with h1
  rw [h1]
  refine ⟨⟨fun norms' e => ?_⟩, rfl⟩
  simp only at e
  rw [h2] at e
  cases normalize
  · cases e
  · simp only [if_true, Option.some.injEq] at e
    subst e
    refine ⟨?_, by simp [hd.len], ?_⟩
    · have := hd.nonempty
      intro e
      simp only [List.map_eq_nil_iff] at e
      have := hd.len
      rw [e] at this
      exact hd.nonempty (List.eq_nil_of_length_eq_zero this)
    · intro n hn
      obtain ⟨Y, -, rfl⟩ := List.mem_map.1 hn
      exact ⟨_, _, rfl, sdOf_nonneg _⟩

theorem normOf_nonneg {gp : MultiGP} (h : GPReady gp) {d : ℕ} (hd : d < gp.outputDim) : 0 ≤ (normOf gp d).1 := by
  unfold normOf
  cases e : gp.normalizer with
  | none => simp
  | some norms =>
    obtain ⟨h1, h2, h3⟩ := h.norms norms e
    obtain ⟨m, s, h4, h5⟩ := h3 (norms.getD d ⟨none, none⟩) (by
      rw [List.getD_eq_getElem _ _ (by rw [h2]; exact hd)]
      exact List.getElem_mem _)
    simp only [h4]
    exact h5

theorem lens_query (Xs : List (NDArr ℝ)) {D P : ℕ} (h : QueriesOK D P Xs) : (queryLens Xs).length = D := by
  unfold queryLens
  rw [List.length_map, h.1]

/-- `predict` and `predict_quantiles` in terms of the raw prediction -/
theorem predict_values (gp : MultiGP) (hgp : GPReady gp) (raw : List (Arr2 ℝ) → Except PyErr Predicted) (Qs : List (NDArr ℝ))
    (hQ : QueriesOK gp.outputDim gp.inputDim Qs) (p : Predicted) (hraw : raw (padded gp.inputDim Qs) = .ok p) (hp : PredictionFits p (queryLens Qs)) (qs : List ℝ) :
    (∃ r, gp.predict raw Qs = .ok r ∧ PredictedAs r gp.outputDim (queryLens Qs)
      (fun d i => (p.1.getD d []).getD i 0 * (normOf gp d).1 + (normOf gp d).2) (fun d i => (p.2.getD d []).getD i 0 * (normOf gp d).1 ^ 2)) ∧
    ∃ Q : List (Arr2 ℝ), gp.predictQuantiles raw Qs qs = .ok Q ∧ Q.length = gp.outputDim ∧ ∀ d < gp.outputDim,
      (Q.getD d ⟨0, 0, []⟩).rows = (queryLens Qs).getD d 0 ∧ (Q.getD d ⟨0, 0, []⟩).cols = qs.length ∧ (Q.getD d ⟨0, 0, []⟩).WF ∧
      ∀ i < (queryLens Qs).getD d 0, ∀ k < qs.length, (Q.getD d ⟨0, 0, []⟩).get i k =
        (Real.sqrt ((p.2.getD d []).getD i 0) * normPpf (qs.getD k 0 / 100) + (p.1.getD d []).getD i 0) * (normOf gp d).1 + (normOf gp d).2 := by
  have hD := lens_query Qs hQ
  have has := fits_as hp
  rw [hD] at has
  have hpad : padDims gp.inputDim Qs = .ok (padded gp.inputDim Qs) := padDims_dataset hQ.2
  have hlen : (padded gp.inputDim Qs).length = gp.outputDim := by unfold padded; rw [List.length_map, hQ.1]
  have hcols : ∀ X ∈ padded gp.inputDim Qs, X.cols = gp.inputDim := by
    intro X hX
    obtain ⟨Y, -, rfl⟩ := List.mem_map.1 hX
    rfl
  have hwith : ∀ b, gp.predictWith raw (padded gp.inputDim Qs) b = (match gp.normalizer with
      | some norms => if norms ≠ [] ∧ b = true then denormalize norms p else .ok p
      | none => .ok p) := by
    intro b
    unfold MultiGP.predictWith
    rw [if_neg (not_not.2 hlen), if_neg (not_not.2 hcols), hraw, ok_bind]
    rfl
  have hqs : mapExcept (fun mv : List ℝ × List ℝ => quantilesOf qs mv.1 mv.2) (p.1.zip p.2) = .ok ((List.range gp.outputDim).map fun d =>
      Arr2.of ((queryLens Qs).getD d 0) qs.length fun i k =>
        Real.sqrt ((p.2.getD d []).getD i 0) * normPpf (qs.getD k 0 / 100) + (p.1.getD d []).getD i 0) := by
    rw [mapExcept_zip_range (has.len.1.trans has.len.2.symm) [] [] (g := fun d =>
      Arr2.of ((queryLens Qs).getD d 0) qs.length fun i k =>
        Real.sqrt ((p.2.getD d []).getD i 0) * normPpf (qs.getD k 0 / 100) + (p.1.getD d []).getD i 0), has.len.1]
    intro d hd
    rw [has.len.1] at hd
    unfold quantilesOf
    rw [(has.mlen d hd).1, (has.mlen d hd).2, if_neg (not_not.2 rfl)]
  cases hn : gp.normalizer with
  | none =>
    have hof : ∀ d, normOf gp d = (1, 0) := fun d => by simp [normOf, hn]
    refine ⟨⟨p, ?_, has.len, has.mlen, fun d hd i hi => by rw [hof]; simp only [mul_one, add_zero, one_pow]; exact ⟨trivial, trivial⟩⟩, (List.range gp.outputDim).map fun d =>
      Arr2.of ((queryLens Qs).getD d 0) qs.length fun i k =>
        Real.sqrt ((p.2.getD d []).getD i 0) * normPpf (qs.getD k 0 / 100) + (p.1.getD d []).getD i 0, ?_, by rw [List.length_map, List.length_range], fun d hd => ?_⟩
    · unfold MultiGP.predict
      rw [hpad, ok_bind, hwith, hn]
    · unfold MultiGP.predictQuantiles
      rw [hpad, ok_bind, hwith, hn]
      simp only [ok_bind, hqs]
      rfl
    · rw [range_map_getD _ _ _ hd]
      refine ⟨rfl, rfl, Arr2.of_wf _ _ _, fun i hi k hk => ?_⟩
      rw [Arr2.of_get hi hk, hof]
      ring
  | some norms =>
    obtain ⟨h1, h2, h3⟩ := hgp.norms norms hn
    have hof : ∀ d < gp.outputDim, norms.getD d ⟨none, none⟩ = ⟨some (normOf gp d).2, some (normOf gp d).1⟩ := by
      intro d hd
      obtain ⟨m, s, h4, -⟩ := h3 (norms.getD d ⟨none, none⟩) (by
        rw [List.getD_eq_getElem _ _ (by rw [h2]; exact hd)]
        exact List.getElem_mem _)
      simp only [normOf, hn, h4, Option.getD_some]
    refine ⟨⟨((List.range gp.outputDim).map fun d => (p.1.getD d []).map fun x => x * (normOf gp d).1 + (normOf gp d).2,
      (List.range gp.outputDim).map fun d => (p.2.getD d []).map fun x => x * (normOf gp d).1 ^ 2), ?_, ⟨by simp, by simp⟩, fun d hd => ?_, fun d hd i hi => ?_⟩,
      (List.range gp.outputDim).map fun d => ⟨(queryLens Qs).getD d 0, qs.length, (Arr2.of ((queryLens Qs).getD d 0) qs.length fun i k =>
        Real.sqrt ((p.2.getD d []).getD i 0) * normPpf (qs.getD k 0 / 100) + (p.1.getD d []).getD i 0).data.map
          fun x => x * (normOf gp d).1 + (normOf gp d).2⟩, ?_, by rw [List.length_map, List.length_range], fun d hd => ?_⟩
    · unfold MultiGP.predict
      rw [hpad, ok_bind, hwith, hn]
      simp only
      rw [if_pos ⟨h1, trivial⟩]
      unfold denormalize
      rw [mapExcept_zip_range (h2.trans has.len.1.symm) ⟨none, none⟩ [] (g := fun d => (p.1.getD d []).map fun x => x * (normOf gp d).1 + (normOf gp d).2)
        (fun d hd => by rw [hof d (h2 ▸ hd)]; rfl), ok_bind,
        mapExcept_zip_range (h2.trans has.len.2.symm) ⟨none, none⟩ [] (g := fun d => (p.2.getD d []).map fun x => x * (normOf gp d).1 ^ 2)
        (fun d hd => by rw [hof d (h2 ▸ hd)]; rfl), h2]
      rfl
    · rw [range_map_getD _ _ _ hd, range_map_getD _ _ _ hd, List.length_map, List.length_map]
      exact has.mlen d hd
    · simp only [range_map_getD _ _ _ hd]
      have hi1 : i < (p.1.getD d []).length := by rw [(has.mlen d hd).1]; exact hi
      have hi2 : i < (p.2.getD d []).length := by rw [(has.mlen d hd).2]; exact hi
      rw [map_getD_lt hi1 _ _ 0, map_getD_lt hi2 _ _ 0]
      exact ⟨rfl, rfl⟩
    · unfold MultiGP.predictQuantiles
      rw [hpad, ok_bind, hwith, hn]
      simp only [and_false, Bool.false_eq_true, if_false]
      rw [ok_bind, hqs, ok_bind, if_pos h1, mapExcept_zip_range (by rw [List.length_map, List.length_range, h2]) ⟨none, none⟩ ⟨0, 0, []⟩, h2]
      intro d hd
      have hd' : d < gp.outputDim := h2 ▸ hd
      rw [hof d hd', range_map_getD _ _ _ hd']
      rfl
    · rw [range_map_getD _ _ _ hd]
      refine ⟨rfl, rfl, by simp [Arr2.WF, Arr2.of], fun i hi k hk => ?_⟩
      have hidx : i * qs.length + k < (queryLens Qs).getD d 0 * qs.length := idx_lt hi hk
      have hidx' : i * qs.length + k < (Arr2.of ((queryLens Qs).getD d 0) qs.length fun i k =>
        Real.sqrt ((p.2.getD d []).getD i 0) * normPpf (qs.getD k 0 / 100) + (p.1.getD d []).getD i 0).data.length := by
        rw [Arr2.of_wf]; exact hidx
      show List.getD _ _ _ = _
      rw [List.getD_eq_getElem _ _ (by rw [List.length_map]; exact hidx'), List.getElem_map, ← List.getD_eq_getElem _ 0 hidx']
      have := Arr2.of_get (f := fun i k => Real.sqrt ((p.2.getD d []).getD i 0) * normPpf (qs.getD k 0 / 100) + (p.1.getD d []).getD i 0) hi hk
      unfold Arr2.get at this
      change ((Arr2.of _ qs.length _).data.getD (i * qs.length + k) 0) = _ at this
      rw [this]

/-- `predict` returns one mean and one non-negative variance per query point, whatever raw prediction of this kind it is given -/
theorem predict_fits (gp : MultiGP) (hr : GPReady gp)
    (raw : List (Arr2 ℝ) → Except PyErr Predicted) (Qs : List (NDArr ℝ)) (hQ : QueriesOK gp.outputDim gp.inputDim Qs) (p : Predicted)
    (hraw : raw (padded gp.inputDim Qs) = .ok p) (hp : PredictionFits p (queryLens Qs)) : ∃ r, gp.predict raw Qs = .ok r ∧ PredictionFits r (queryLens Qs) := by
  obtain ⟨⟨r, h1, h2⟩, -⟩ := predict_values gp hr raw Qs hQ p hraw hp []
  have hD := lens_query Qs hQ
  refine ⟨r, h1, ?_, ?_, fun v hv x hx => ?_⟩
  · refine List.ext_getElem (by rw [List.length_map, h2.len.1, hD]) fun d a b => ?_
    have hd : d < gp.outputDim := by rw [← hD]; exact b
    have := (h2.mlen d hd).1
    rw [List.getD_eq_getElem _ _ (by simpa using a), List.getD_eq_getElem _ _ b] at this
    rw [List.getElem_map, this]
  · refine List.ext_getElem (by rw [List.length_map, h2.len.2, hD]) fun d a b => ?_
    have hd : d < gp.outputDim := by rw [← hD]; exact b
    have := (h2.mlen d hd).2
    rw [List.getD_eq_getElem _ _ (by simpa using a), List.getD_eq_getElem _ _ b] at this
    rw [List.getElem_map, this]
  · obtain ⟨d, hd, rfl⟩ := mem_getD hv []
    rw [h2.len.2] at hd
    obtain ⟨i, hi, rfl⟩ := mem_getD hx 0
    rw [(h2.mlen d hd).2] at hi
    rw [(h2.entry d hd i hi).2]
    refine mul_nonneg ?_ (sq_nonneg _)
    have hf := fits_as hp
    rw [hD] at hf
    have hmem : p.2.getD d [] ∈ p.2 := by
      rw [List.getD_eq_getElem _ _ (by rw [hf.len.2]; exact hd)]
      exact List.getElem_mem _
    refine hp.nonneg _ hmem _ ?_
    exact getD_mem_of_lt (by rw [(hf.mlen d hd).2]; exact hi) 0

/-- C47: every quantile is `mean + sqrt(var) ppf(q / 100)` of what `predict` returns for the same query, with or without
normalisation. -/
theorem C47_quantiles (Xs Ys : List (NDArr ℝ)) (normalize : Bool) (gp : MultiGP) (hgp : multiGPNew Xs Ys normalize = .ok gp)
    (raw : List (Arr2 ℝ) → Except PyErr Predicted) (Qs : List (NDArr ℝ)) (hQ : QueriesOK gp.outputDim gp.inputDim Qs) (p : Predicted)
    (hraw : raw (padded gp.inputDim Qs) = .ok p) (hp : PredictionFits p (queryLens Qs)) (qs : List ℝ) :
    ∃ r Q, gp.predict raw Qs = .ok r ∧ gp.predictQuantiles raw Qs qs = .ok Q ∧ Q.length = gp.outputDim ∧ ∀ d < gp.outputDim,
      (Q.getD d ⟨0, 0, []⟩).rows = (queryLens Qs).getD d 0 ∧ (Q.getD d ⟨0, 0, []⟩).cols = qs.length ∧
      ∀ i < (queryLens Qs).getD d 0, ∀ k < qs.length, (Q.getD d ⟨0, 0, []⟩).get i k =
        (r.1.getD d []).getD i 0 + Real.sqrt ((r.2.getD d []).getD i 0) * normPpf (qs.getD k 0 / 100) := by
  obtain ⟨hr, -⟩ := gpReady_of_new hgp
  obtain ⟨⟨r, h1, h2⟩, Q, h3, h4, h5⟩ := predict_values gp hr raw Qs hQ p hraw hp qs
  refine ⟨r, Q, h1, h3, h4, fun d hd => ⟨(h5 d hd).1, (h5 d hd).2.1, fun i hi k hk => ?_⟩⟩
  rw [(h5 d hd).2.2.2 i hi k hk, (h2.entry d hd i hi).1, (h2.entry d hd i hi).2, Real.sqrt_mul' _ (sq_nonneg _),
    Real.sqrt_sq (normOf_nonneg hr hd)]
  ring

/-- C47: for a positive variance it is the quantile of the predictive distribution: a Gaussian with the predicted mean and variance is
at most the returned number with probability `q / 100`. Quantiles are ordered like `q`. -/
theorem C47_distribution (Xs Ys : List (NDArr ℝ)) (normalize : Bool) (gp : MultiGP) (hgp : multiGPNew Xs Ys normalize = .ok gp)
    (raw : List (Arr2 ℝ) → Except PyErr Predicted) (Qs : List (NDArr ℝ)) (hQ : QueriesOK gp.outputDim gp.inputDim Qs) (p : Predicted)
    (hraw : raw (padded gp.inputDim Qs) = .ok p) (hp : PredictionFits p (queryLens Qs)) (qs : List ℝ) (hq : ∀ q ∈ qs, 0 < q ∧ q < 100) :
    ∃ r Q, gp.predict raw Qs = .ok r ∧ gp.predictQuantiles raw Qs qs = .ok Q ∧ ∀ d < gp.outputDim, ∀ i < (queryLens Qs).getD d 0,
      (0 < (r.2.getD d []).getD i 0 → ∀ k < qs.length,
        ProbabilityTheory.cdf (ProbabilityTheory.gaussianReal ((r.1.getD d []).getD i 0) ((r.2.getD d []).getD i 0).toNNReal) ((Q.getD d ⟨0, 0, []⟩).get i k) =
          qs.getD k 0 / 100) ∧
      ∀ k < qs.length, ∀ l < qs.length, qs.getD k 0 ≤ qs.getD l 0 → (Q.getD d ⟨0, 0, []⟩).get i k ≤ (Q.getD d ⟨0, 0, []⟩).get i l := by
  obtain ⟨r, Q, h1, h2, h3, h4⟩ := C47_quantiles Xs Ys normalize gp hgp raw Qs hQ p hraw hp qs
  have hq' : ∀ k < qs.length, 0 < qs.getD k 0 / 100 ∧ qs.getD k 0 / 100 < 1 := by
    intro k hk
    obtain ⟨a, b⟩ := hq (qs.getD k 0) (by rw [List.getD_eq_getElem _ _ hk]; exact List.getElem_mem _)
    constructor
    · positivity
    · rw [div_lt_one (by norm_num)]; exact b
  refine ⟨r, Q, h1, h2, fun d hd i hi => ⟨fun hv k hk => ?_, fun k hk l hl hkl => ?_⟩⟩
  · rw [(h4 d hd).2.2 i hi k hk, cdf_affine _ hv, cdf_ppf (hq' k hk).1 (hq' k hk).2]
  · rw [(h4 d hd).2.2 i hi k hk, (h4 d hd).2.2 i hi l hl]
    have : normPpf (qs.getD k 0 / 100) ≤ normPpf (qs.getD l 0 / 100) := by
      rcases hkl.eq_or_lt with e | e
      · rw [e]
      · exact (ppf_strictMono (hq' k hk).1 (by linarith) (hq' l hl).2).le
    have := mul_le_mul_of_nonneg_left this (Real.sqrt_nonneg ((r.2.getD d []).getD i 0))
    linarith

/-- hypotheses of C47: the dataset of `example_dataset`, one query for the first output and none for the second -/
example : ∃ gp, multiGPNew [⟨[2, 2], [0, 0, 1, 1]⟩, ⟨[2, 2], [0, 1, 1, 0]⟩] [⟨[2], [1, 3]⟩, ⟨[2], [5, 7]⟩] true = .ok gp ∧
    QueriesOK gp.outputDim gp.inputDim [⟨[1, 2], [0, 1]⟩, ⟨[0, 2], []⟩] ∧
    PredictionFits ([[0.5], []], [[2], []]) (queryLens [⟨[1, 2], [0, 1]⟩, ⟨[0, 2], []⟩]) := by
  obtain ⟨norms, h, -⟩ := (C42_validation_partial _ _ (by simp) (by simp) true).2.2 2 example_dataset
  refine ⟨_, h, ⟨rfl, fun X hX => ?_⟩, rfl, rfl, ?_⟩
  · simp only [List.mem_cons, List.not_mem_nil, or_false] at hX
    rcases hX with rfl | rfl
    · exact ⟨1, .inr rfl⟩
    · exact ⟨0, .inr rfl⟩
  · intro v hv x hx
    simp only [List.mem_cons, List.not_mem_nil, or_false] at hv
    rcases hv with rfl | rfl
    · simp at hx; rw [hx]; norm_num
    · simp at hx

end Verif
