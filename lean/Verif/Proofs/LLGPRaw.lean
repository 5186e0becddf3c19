import Verif.Proofs.LLGPVar
import Verif.Spec.Predict

/-! What `_raw_predict` and `predict` return. -/

namespace Verif

open Matrix

theorem raw_parts {sv : Solvers} {e : Env} {m : LLGP} {Xs : List (Arr2 ℝ)} {p : Predicted} (h : m.rawPredict sv e Xs = .ok p) :
    ∃ ga native wm ex, m.gridAlpha = .ok ga ∧ m.nativeVariance = .ok native ∧ m.predictMean Xs ga = .ok wm ∧ m.explained sv e Xs wm.1 = .ok ex ∧
      splitPrediction (Xs.map Arr2.rows) wm.2 native ex = .ok p := by
  unfold LLGP.rawPredict at h
  simp only [bind_ok] at h
  obtain ⟨ga, h1, native, h2, wm, h3, ex, h4, h5⟩ := h
  exact ⟨ga, native, wm, ex, h1, h2, h3, h4, h5⟩

theorem predictMean_length {m : LLGP} {Xs : List (Arr2 ℝ)} {ga : List (List ℕ × List ℝ)} {wm : List (List ℕ × Arr2 ℝ) × List ℝ}
    (h : m.predictMean Xs ga = .ok wm) : wm.2.length = (Xs.map Arr2.rows).sum := by
  unfold LLGP.predictMean at h
  simp only [bind_ok] at h
  obtain ⟨parts, h1, h2⟩ := h
  split_ifs at h2 with h3
  simp only [pure_ok] at h2
  subst h2
  exact (foldl_vadd_length (fun x => x) _ _ _ (vmk_length _ _) (fun v hv => by
    obtain ⟨q, hq, rfl⟩ := List.mem_map.1 hv
    exact h3 q hq)).1

theorem splitPrediction_lengths {lens : List ℕ} {mean native explained : List ℝ} {p : Predicted} (h : splitPrediction lens mean native explained = .ok p) :
    native.length = lens.length ∧ explained.length = lens.sum := by
  unfold splitPrediction at h
  simp only at h
  split_ifs at h with h1 h2
  rw [not_not] at h1 h2
  exact ⟨h1, by rw [← h2, npRepeat_length _ _ h1]⟩

/-- in any state: one mean and one non-negative variance per query point -/
theorem raw_fits {sv : Solvers} {e : Env} {m : LLGP} {Xs : List (Arr2 ℝ)} (hne : Xs ≠ []) {p : Predicted} (h : m.rawPredict sv e Xs = .ok p) :
    PredictionFits p (Xs.map Arr2.rows) := by
  obtain ⟨ga, native, wm, ex, h1, h2, h3, h4, h5⟩ := raw_parts h
  exact splitPrediction_fits (by simpa using hne) (predictMean_length h3) h5

theorem rowPoint_offset (Xs : List (Arr2 ℝ)) {d i : ℕ} (hd : d < Xs.length) (hi : i < (Xs.map Arr2.rows).getD d 0) :
    ownerOf (Xs.map Arr2.rows) (offset (Xs.map Arr2.rows) d + i) = d ∧ offset (Xs.map Arr2.rows) d + i < (Xs.map Arr2.rows).sum ∧
      rowPoint Xs (offset (Xs.map Arr2.rows) d + i) = pointOf Xs d i := by
  obtain ⟨h1, h2, h3⟩ := ownerOf_offset (lens := Xs.map Arr2.rows) (a := d) (i := i) (by rw [List.length_map]; exact hd) hi
  refine ⟨h1, h2, ?_⟩
  unfold rowPoint
  rw [h1, h3]

/-- the mean before the linear solve is known to be exact -/
noncomputable def LLGP.meanWith (m : LLGP) (alpha : List ℝ) (d : ℕ) (x : ℕ → ℝ) : ℝ :=
  ∑ s ∈ Finset.range m.n, m.fk.skiCov m.axesOf m.fk.extraOf d (ownerOf (m.gp.Xs.map Arr2.rows) s) x (rowPoint m.gp.Xs s) * alpha.getD s 0

theorem raw_ok {sv : Solvers} (hs : sv.Fit) {m : LLGP} {P : ℕ} (h : m.OK P) {k : LLKernel} (hc : m.Current sv k) {Xs : List (Arr2 ℝ)}
    (hX : InputsOK m.fk.D P Xs) (hi : ∀ k ∈ m.fk.kernels, k.noIdentity) (e : Env) {ex : List ℝ}
    (hex : m.explained sv e Xs (m.fk.activeDims.map fun g => (g.1, Arr2.of (Xs.map Arr2.rows).sum (m.gridCols g) (interpOf g.1 (m.axesOf g.1) Xs))) = .ok ex)
    (hlen : ex.length = (Xs.map Arr2.rows).sum) :
    ∃ p, m.rawPredict sv e Xs = .ok p ∧ PredictionFits p (Xs.map Arr2.rows) ∧ PredictedAs p m.fk.D (Xs.map Arr2.rows)
      (fun d i => m.meanWith k.approx.alpha d (pointOf Xs d i))
      (fun d i => max 0 (m.fk.priorVar d (pointOf Xs d i) - ex.getD (offset (Xs.map Arr2.rows) d + i) 0)) := by
  obtain ⟨ga, g1, g2⟩ := predictMean_ok hs h hc hX
  have hne : Xs.map Arr2.rows ≠ [] := by
    have := h.ready.wf.Dpos
    rw [← hX.len] at this
    intro e
    rw [List.map_eq_nil_iff] at e
    rw [e] at this
    simp at this
  obtain ⟨p, p1, p2, p3⟩ := splitPrediction_ok hne (mean := vmk (Xs.map Arr2.rows).sum fun r => ∑ s ∈ Finset.range m.n,
          m.fk.skiCov m.axesOf m.fk.extraOf (ownerOf (Xs.map Arr2.rows) r) (ownerOf (m.gp.Xs.map Arr2.rows) s) (rowPoint Xs r) (rowPoint m.gp.Xs s) *
            k.approx.alpha.getD s 0) (native := vmk m.fk.D fun d => m.fk.priorVar d 0) (vmk_length _ _) (by rw [vmk_length, List.length_map, hX.len]) hlen
  refine ⟨p, ?_, p2, ?_⟩
  · unfold LLGP.rawPredict
    rw [g1, ok_bind, nativeVariance_ok h.ready hi 0, ok_bind, g2, ok_bind]
    simp only
    rw [hex, ok_bind, p1]
  · rw [List.length_map, hX.len] at p3
    refine ⟨p3.len, p3.mlen, fun d hd i hi => ?_⟩
    obtain ⟨r1, r2, r3⟩ := rowPoint_offset Xs (by rw [hX.len]; exact hd) hi
    obtain ⟨e1, e2⟩ := p3.entry d hd i hi
    rw [e1, e2, vmk_getD_lt r2, vmk_getD_lt hd, r1, r3]
    refine ⟨rfl, ?_⟩
    have : m.fk.priorVar d 0 = m.fk.priorVar d (pointOf Xs d i) := by unfold FK.priorVar; rw [cov_self, cov_self]
    rw [this]

/-- a result of `_raw_predict` on an updated model -/
theorem raw_values {sv : Solvers} (hs : sv.Fit) {m : LLGP} {P : ℕ} (h : m.OK P) {k : LLKernel} (hc : m.Current sv k) {Xs : List (Arr2 ℝ)}
    (hX : InputsOK m.fk.D P Xs) {e : Env} {p : Predicted} (hp : m.rawPredict sv e Xs = .ok p) :
    (∀ k ∈ m.fk.kernels, k.noIdentity) ∧ ∃ ex,
      m.explained sv e Xs (m.fk.activeDims.map fun g => (g.1, Arr2.of (Xs.map Arr2.rows).sum (m.gridCols g) (interpOf g.1 (m.axesOf g.1) Xs))) = .ok ex ∧
      ex.length = (Xs.map Arr2.rows).sum ∧ PredictedAs p m.fk.D (Xs.map Arr2.rows)
      (fun d i => m.meanWith k.approx.alpha d (pointOf Xs d i))
      (fun d i => max 0 (m.fk.priorVar d (pointOf Xs d i) - ex.getD (offset (Xs.map Arr2.rows) d + i) 0)) := by
  obtain ⟨ga, native, wm, ex, h1, h2, h3, h4, h5⟩ := raw_parts hp
  have hi : ∀ k ∈ m.fk.kernels, k.noIdentity := by
    by_contra hi
    rw [nativeVariance_identity h.ready hi] at h2
    cases h2
  obtain ⟨ga', g1, g2⟩ := predictMean_ok hs h hc hX
  rw [h1] at g1
  cases g1
  rw [h3] at g2
  cases g2
  have hl := (splitPrediction_lengths h5).2
  obtain ⟨p', q1, -, q3⟩ := raw_ok hs h hc hX hi e h4 hl
  rw [hp] at q1
  cases q1
  exact ⟨hi, ex, h4, hl, q3⟩

/-! ### through `predict` -/

theorem predict_raw {gp : MultiGP} {raw : List (Arr2 ℝ) → Except PyErr Predicted} {Qs : List (NDArr ℝ)} {D P : ℕ} (hQ : QueriesOK D P Qs) (hP : gp.inputDim = P)
    {r : Predicted} (h : gp.predict raw Qs = .ok r) : ∃ p, raw (padded P Qs) = .ok p := by
  subst hP
  unfold MultiGP.predict at h
  rw [padDims_dataset hQ.2, ok_bind] at h
  unfold MultiGP.predictWith at h
  split_ifs at h
  simp only [bind_ok] at h
  obtain ⟨p, hp, -⟩ := h
  exact ⟨p, hp⟩

theorem padded_lens (P : ℕ) (Qs : List (NDArr ℝ)) : (padded P Qs).map Arr2.rows = queryLens Qs := by
  unfold padded queryLens
  rw [List.map_map]
  rfl

theorem padded_inputs {D P : ℕ} {Qs : List (NDArr ℝ)} (hQ : QueriesOK D P Qs) (hw : ∀ Q ∈ Qs, Q.WF) : InputsOK D P (padded P Qs) := by
  refine ⟨by unfold padded; rw [List.length_map, hQ.1], fun X hX => ?_, fun X hX => ?_⟩
  · obtain ⟨Q, hq, rfl⟩ := List.mem_map.1 hX
    obtain ⟨n, hn⟩ := hQ.2 Q hq
    have hwf := hw Q hq
    unfold NDArr.WF at hwf
    show Q.data.length = Q.shape.headD 0 * P
    rcases hn with ⟨e, rfl⟩ | e
    · rw [hwf, e]; simp
    · rw [hwf, e]; simp
  · obtain ⟨Q, hq, rfl⟩ := List.mem_map.1 hX
    rfl

theorem pointOf_padded {P : ℕ} {Qs : List (NDArr ℝ)} {d : ℕ} (hd : d < Qs.length) (i : ℕ) : pointOf (padded P Qs) d i = queryPoint P Qs d i := by
  funext c
  unfold pointOf queryPoint padded
  rw [map_getD_lt hd _ _ ⟨[], []⟩]
  rfl

end Verif
