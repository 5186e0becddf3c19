import Verif.Proofs.Measured

/-! C113: a point that is measured often is predicted as the average of its measurements. -/

namespace Verif

open Matrix

/-- C113, the mean: with exact linear solves, in every prediction mode, the mean predicted for output `d` at a point `x` where it was measured `k` times misses the average
of these measurements by at most `√(noise / (2 k) · C)` (in the units the model works in), where `C` does not depend on `k`: it says how badly the other observations
agree with the average. So the mean tends to the average as a point is measured again and again. -/
theorem C113_mean (sv : Solvers) (hs : sv.Fit) (hx : sv.Exact) (ops : List Op) (i : ℕ) (a : LLGPArgs) (m : LLGP) (h : Held sv ops i a m)
    (hn : ∀ ad ∈ m.fk.activeDims.map Prod.fst, ad.Nodup) (d : ℕ) (hd : d < m.gp.outputDim) (x : ℕ → ℝ) (hk : 0 < (a.measuredAt m.gp.inputDim d x).card)
    (hv : 0 < m.fk.skiCov m.axesOf m.fk.extraOf d d x x) (Qs : List (NDArr ℝ)) (hQ : m.Accepts Qs) (e : Env) (he : e.Works) (r : Predicted)
    (hr : Predicts sv ops i Qs e (.ok r)) (j : ℕ) (hj : j < (queryLens Qs).getD d 0) (hxq : ∀ c < m.gp.inputDim, queryPoint m.gp.inputDim Qs d j c = x c) :
    0 < a.scaleOf d ∧ (((r.1.getD d []).getD j 0 - a.averageAt m.gp.inputDim d x) / a.scaleOf d) ^ 2 ≤
      m.fk.noise.getD d 0 / (2 * (a.measuredAt m.gp.inputDim d x).card) * a.tension m.gp.inputDim m.fk.noise (m.fk.skiCov m.axesOf m.fk.extraOf) d x := by
  obtain ⟨k, f1, f2, f3, f4, f5, f6, f7⟩ := h.facts hs
  have hp := predicts_unique hr (f7 Qs e he)
  rw [f3] at hd
  obtain ⟨s1, s2⟩ := var_scaled f1 f5 hd
  refine ⟨s1, ?_⟩
  set P := m.gp.inputDim with hP
  obtain ⟨r1, r2, r3⟩ := model_rows f5 f1
  have hda : d < a.Xs.length := by rw [r1]; exact hd
  have hXl : (m.gp.Xs.map Arr2.rows).length = a.Xs.length := by rw [r2]; unfold queryLens; rw [List.length_map]
  have hcard := card_rowsAt f5 f1 hda x
  have hT : 0 < (m.rowsAt P d x).card := by
    have : (0 : ℝ) < (m.rowsAt P d x).card := by rw [hcard]; exact_mod_cast hk
    exact_mod_cast this
  obtain ⟨s, hs'⟩ := Finset.card_pos.1 hT
  obtain ⟨o1, p1⟩ := mem_rowsAt.1 hs'
  have hlen := (MadeFrom.scale f1).2.1 d hda
  -- the average
  have hz : a.levelAt P d x = (∑ t ∈ m.rowsAt P d x, toVec (m.gp.Xs.map Arr2.rows).sum m.gp.Ys.flatten t) / (m.rowsAt P d x).card := by
    rw [hcard, sum_rowsAt f5 f1 hda x _ (fun i => (a.value d i - a.centreOf d) / a.scaleOf d) fun i hi hlt => by
      obtain ⟨_, _, q, _⟩ := r3 d hda i hi
      exact q]
    have hk' : (0 : ℝ) < (a.measuredAt P d x).card := by exact_mod_cast hk
    unfold LLGPArgs.levelAt LLGPArgs.averageAt
    rw [← Finset.sum_div, Finset.sum_sub_distrib, Finset.sum_const, nsmul_eq_mul]
    field_simp
  have hrow : ∀ t ∈ m.rowsAt P d x, ∀ u, m.fk.skiClean m.axesOf m.fk.extraOf m.gp.Xs t u = m.fk.skiClean m.axesOf m.fk.extraOf m.gp.Xs s u := fun t ht u => by
    obtain ⟨o2, p2⟩ := mem_rowsAt.1 ht
    show m.fk.skiCov _ _ (ownerOf _ t) _ _ _ = m.fk.skiCov _ _ (ownerOf _ s) _ _ _
    rw [o1, o2]
    exact skiCov_eq f5 (fun c hc => (p2 c hc).trans (p1 c hc).symm) (fun _ _ => rfl) _ _ _
  have hcol : ∀ t, m.fk.skiClean m.axesOf m.fk.extraOf m.gp.Xs t s = m.fk.skiCov m.axesOf m.fk.extraOf (ownerOf (m.gp.Xs.map Arr2.rows) t) d (rowPoint m.gp.Xs t) x := fun t => by
    show m.fk.skiCov _ _ _ (ownerOf _ s) _ _ = _
    rw [o1]
    exact skiCov_eq f5 (fun _ _ => rfl) p1 _ _ _
  have hvs : m.fk.skiClean m.axesOf m.fk.extraOf m.gp.Xs s s = m.fk.skiCov m.axesOf m.fk.extraOf d d x x := by
    rw [hcol s, o1]
    exact skiCov_eq f5 p1 (fun _ _ => rfl) _ _ _
  have key := repeated_mean (f5.clean_psd f2 hn) (noiseRows_pos f5 f2) (exact_alpha (f4 Qs hQ) hx f2 hn) (m.rowsAt P d x) hrow (ν₀ := m.fk.noise.getD d 0)
    (fun t ht => by
      unfold FK.noiseRows
      rw [(mem_rowsAt.1 ht).1]) (f2.noise d hd) hT (by rw [hvs]; exact hv) hz
  have hmean : (m.fk.skiClean m.axesOf m.fk.extraOf m.gp.Xs *ᵥ toVec (m.gp.Xs.map Arr2.rows).sum k.approx.alpha) s = ((r.1.getD d []).getD j 0 - a.centreOf d) / a.scaleOf d := by
    rw [C44_mean sv m P k Qs (f4 Qs hQ) e r hp d hd j hj, hlen.1, add_sub_cancel_right, mul_div_assoc, div_self s1.ne', mul_one]
    show (fun u => m.fk.skiClean m.axesOf m.fk.extraOf m.gp.Xs s u) ⬝ᵥ _ = _
    congr 1
    funext u
    show m.fk.skiCov _ _ (ownerOf _ s) _ _ _ = m.fk.skiCov _ _ _ _ _ _
    rw [o1]
    exact skiCov_eq f5 (fun c hc => (p1 c hc).trans (hxq c hc).symm) (fun _ _ => rfl) _ _ _
  rw [hmean, hcard, hvs] at key
  have e1 : (((r.1.getD d []).getD j 0 - a.averageAt P d x) / a.scaleOf d) ^ 2 = (a.levelAt P d x - ((r.1.getD d []).getD j 0 - a.centreOf d) / a.scaleOf d) ^ 2 := by
    unfold LLGPArgs.levelAt
    rw [← sub_div, sub_sub_sub_cancel_right, div_pow, div_pow]
    ring
  rw [e1]
  refine key.trans (le_of_eq ?_)
  unfold LLGPArgs.tension
  congr 2
  classical
  rw [sum_rows_fin _ _ (fun d' i => if d' = d ∧ i ∈ a.measuredAt P d x then 0 else ((a.value d' i - a.centreOf d') / a.scaleOf d' -
      a.levelAt P d x * m.fk.skiCov m.axesOf m.fk.extraOf d' d (queryPoint P a.Xs d' i) x / m.fk.skiCov m.axesOf m.fk.extraOf d d x x) ^ 2 / m.fk.noise.getD d' 0) fun d' hd' i hi => by
    obtain ⟨hlt, q1, q2, q3⟩ := r3 d' (by rw [← hXl]; exact hd') i (by rw [← r2]; exact hi)
    refine ⟨hlt, ?_⟩
    have hi' : i < (queryLens a.Xs).getD d' 0 := by rw [← r2]; exact hi
    have : (⟨_, hlt⟩ : Fin _) ∈ m.rowsAt P d x ↔ d' = d ∧ i ∈ a.measuredAt P d x := by
      rw [mem_rowsAt, mem_measuredAt]
      simp only [q1, q3]
      constructor
      · rintro ⟨rfl, h2⟩
        exact ⟨rfl, hi', h2⟩
      · rintro ⟨rfl, -, h2⟩
        exact ⟨rfl, h2⟩
    by_cases hm : d' = d ∧ i ∈ a.measuredAt P d x
    · rw [if_pos (this.2 hm), if_pos hm]
    · rw [if_neg fun hh => hm (this.1 hh), if_neg hm, q2, hcol]
      unfold FK.noiseRows
      simp only [q1, q3], hXl, r2]

/-- C113, the variance in `'exact'` mode: where an output was measured `k` times, its variance is at least its noise and at most `1 + 1/k` times its noise. -/
theorem C113_exact (sv : Solvers) (hs : sv.Fit) (ops : List Op) (i : ℕ) (a : LLGPArgs) (m : LLGP) (h : Held sv ops i a m) (hm : m.prediction = .exact)
    (Qs : List (NDArr ℝ)) (hQ : m.Accepts Qs) (e : Env) (he : e.Works) :
    ∃ r, Predicts sv ops i Qs e (.ok r) ∧ ∀ d < m.gp.outputDim, ∀ j < (queryLens Qs).getD d 0, ∀ k, k = (a.measuredAt m.gp.inputDim d (queryPoint m.gp.inputDim Qs d j)).card →
      0 < k → 0 < a.scaleOf d ∧ m.fk.noise.getD d 0 ≤ (r.2.getD d []).getD j 0 / a.scaleOf d ^ 2 ∧
        (r.2.getD d []).getD j 0 / a.scaleOf d ^ 2 ≤ (1 + 1 / (k : ℝ)) * m.fk.noise.getD d 0 := by
  obtain ⟨k, f1, f2, f3, f4, f5, -, f7⟩ := h.facts hs
  obtain ⟨r, r1, r2⟩ := C45_exact sv m _ k Qs (f4 Qs hQ) e hm f2
  refine ⟨r, r1 ▸ f7 Qs e he, ?_⟩
  rw [f3]
  rintro d hd j hj n hn hn0
  obtain ⟨s1, s2⟩ := var_scaled f1 f5 hd
  obtain ⟨v1, v2, -⟩ := r2 d hd j hj
  rw [v1, s2, mul_div_assoc, div_self (pow_pos s1 2).ne', mul_one]
  refine ⟨s1, v2, ?_⟩
  obtain ⟨q1, q2, q3⟩ := model_rows f5 f1
  have hda : d < a.Xs.length := by rw [q1]; exact hd
  set x := queryPoint m.gp.inputDim Qs d j with hx
  have hcard : ((m.rowsAt m.gp.inputDim d x).card : ℝ) = n := by rw [card_rowsAt f5 f1 hda x, hn]
  have hT : 0 < (m.rowsAt m.gp.inputDim d x).card := by
    have : (0 : ℝ) < (m.rowsAt m.gp.inputDim d x).card := by rw [hcard]; exact_mod_cast hn0
    exact_mod_cast this
  have key := repeated_explained (covMat_posDef f5.ready.wf f5.data.inputs.len f2.kernels f2.kappa f2.noise) (m.rowsAt m.gp.inputDim d x) hT (c := m.fk.crossCov m.gp.Xs d x)
    (v := m.fk.cov d d x x) (v₀ := m.fk.cov d d x x) (ν₀ := m.fk.noise.getD d 0) (fun t ht => by
      obtain ⟨o2, p2⟩ := mem_rowsAt.1 ht
      unfold FK.crossCov
      rw [o2, cov_congr f5.ready (fun _ _ => rfl) p2]) (fun t ht u hu => by
      obtain ⟨o2, p2⟩ := mem_rowsAt.1 ht
      obtain ⟨o3, p3⟩ := mem_rowsAt.1 hu
      show m.fk.cov (ownerOf _ t) (ownerOf _ u) (rowPoint m.gp.Xs t) (rowPoint m.gp.Xs u) + (if (t : ℕ) = u then _ else _) = _
      rw [o2, o3, cov_congr f5.ready p2 p3]
      congr 1
      by_cases e : t = u
      · rw [if_pos e, if_pos (by rw [e])]
      · rw [if_neg e, if_neg fun h => e (Fin.ext h)])
  rw [hcard] at key
  unfold FK.condVar FK.priorVar
  have : (1 + 1 / (n : ℝ)) * m.fk.noise.getD d 0 = m.fk.noise.getD d 0 + m.fk.noise.getD d 0 / n := by ring
  rw [this]
  linarith

/-- C113, the variance in `'on-the-fly'` mode: with exact linear solves, at most `1 + 1/k` times the noise, plus the error of the interpolated prior variance. -/
theorem C113_on_the_fly (sv : Solvers) (hs : sv.Fit) (hx : sv.Exact) (ops : List Op) (i : ℕ) (a : LLGPArgs) (m : LLGP) (h : Held sv ops i a m)
    (hm : m.prediction = .onTheFly) (hn : ∀ ad ∈ m.fk.activeDims.map Prod.fst, ad.Nodup) (Qs : List (NDArr ℝ)) (hQ : m.Accepts Qs) (hq : 0 < (queryLens Qs).sum) (e : Env)
    (he : e.Works) :
    ∃ r, Predicts sv ops i Qs e (.ok r) ∧ ∀ d < m.gp.outputDim, ∀ j < (queryLens Qs).getD d 0, ∀ x, x = queryPoint m.gp.inputDim Qs d j →
      ∀ k, k = (a.measuredAt m.gp.inputDim d x).card → 0 < k → 0 < a.scaleOf d ∧ 0 ≤ (r.2.getD d []).getD j 0 / a.scaleOf d ^ 2 ∧
        (r.2.getD d []).getD j 0 / a.scaleOf d ^ 2 ≤ max 0 ((1 + 1 / (k : ℝ)) * m.fk.noise.getD d 0 + (m.fk.skiCov m.axesOf m.fk.extraOf d d x x - m.fk.cov d d x x)) := by
  obtain ⟨k, f1, f2, f3, f4, f5, f6, f7⟩ := h.facts hs
  obtain ⟨r, r1, r2⟩ := C46_on_the_fly sv m _ k Qs (f4 Qs hQ) e he hm (exact_of_current hs hx f5 f6 f2 hn _) f2.plain hq
  refine ⟨r, r1 ▸ f7 Qs e he, ?_⟩
  rw [f3]
  rintro d hd j hj x hx n hn' hn0
  obtain ⟨s1, s2⟩ := var_scaled f1 f5 hd
  rw [r2 d hd j hj, s2, mul_div_assoc, div_self (pow_pos s1 2).ne', mul_one, ← hx]
  refine ⟨s1, le_max_left _ _, max_le_max le_rfl ?_⟩
  obtain ⟨q1, q2, q3⟩ := model_rows f5 f1
  have hda : d < a.Xs.length := by rw [q1]; exact hd
  have hcard : ((m.rowsAt m.gp.inputDim d x).card : ℝ) = n := by rw [card_rowsAt f5 f1 hda x, hn']
  have hT : 0 < (m.rowsAt m.gp.inputDim d x).card := by
    have : (0 : ℝ) < (m.rowsAt m.gp.inputDim d x).card := by rw [hcard]; exact_mod_cast hn0
    exact_mod_cast this
  have key := repeated_explained (f5.ski_posDef f2 hn) (m.rowsAt m.gp.inputDim d x) hT (c := m.fk.crossCov m.gp.Xs d x)
    (v := m.fk.cov d d x x) (v₀ := m.fk.skiCov m.axesOf m.fk.extraOf d d x x) (ν₀ := m.fk.noise.getD d 0) (fun t ht => by
      obtain ⟨o2, p2⟩ := mem_rowsAt.1 ht
      unfold FK.crossCov
      rw [o2, cov_congr f5.ready (fun _ _ => rfl) p2]) (fun t ht u hu => by
      obtain ⟨o2, p2⟩ := mem_rowsAt.1 ht
      obtain ⟨o3, p3⟩ := mem_rowsAt.1 hu
      show m.fk.skiCov _ _ (ownerOf _ t) (ownerOf _ u) _ _ + (if (t : ℕ) = u then _ else _) = _
      rw [o2, o3, skiCov_eq f5 p2 p3]
      congr 1
      by_cases e : t = u
      · rw [if_pos e, if_pos (by rw [e])]
      · rw [if_neg e, if_neg fun h => e (Fin.ext h)])
  rw [hcard] at key
  unfold FK.priorVar
  have : (1 + 1 / (n : ℝ)) * m.fk.noise.getD d 0 = m.fk.noise.getD d 0 + m.fk.noise.getD d 0 / n := by ring
  rw [this]
  linarith

/-- a model whose output was measured twice at the point 0, as 1 and 3, and once at the point 1, asked for both points: at 0 the square of its distance from the average 2
is at most a fourth of the noise times the disagreement with the rest, and its variance at most one and a half times the noise -/
example : ∃ (a : LLGPArgs) (m : LLGP) (r : Predicted) (C : ℝ), a.Ys = [⟨[3], [1, 3, 0]⟩] ∧ m.fk.noise = [0.1] ∧
    Predicts exactSolvers [.new a quiet] 0 [⟨[2], [0, 1]⟩] quiet (.ok r) ∧ ((r.1.getD 0 []).getD 0 0 - 2) ^ 2 ≤ 0.1 / 4 * C ∧
    C = a.tension 1 m.fk.noise (m.fk.skiCov m.axesOf m.fk.extraOf) 0 (fun _ => 0) ∧ (r.2.getD 0 []).getD 0 0 ≤ 0.15 := by
  obtain ⟨fk, m₀, hd, hf, hi, ht⟩ := exists_tiny
  have hd' := documented_with_data hd (Xs := [⟨[3], [0, 0, 1]⟩]) (Ys := [⟨[3], [1, 3, 0]⟩])
    ⟨by simp, rfl, fun d hd => by
        have : d < 1 := hd
        interval_cases d
        exact ⟨3, rfl, .inl ⟨rfl, rfl⟩⟩, fun Y hY => .inr (by
        simp only [List.mem_cons, List.not_mem_nil, or_false] at hY
        subst hY
        have hv : varOf [1, 3, 0] = 14 / 9 := by
          simp [varOf, meanOf, Finset.sum_range_succ]
          norm_num
        simp [sdOf, hv])⟩
    (fun X hX => by rw [List.mem_singleton.1 hX]; rfl) (fun Y hY => by rw [List.mem_singleton.1 hY]; exact ⟨rfl, by simp⟩) rfl
    (fun c hc => ⟨⟨3, 1, [0, 0, 1]⟩, by simp [padded], 0, by norm_num, ⟨3, 1, [0, 0, 1]⟩, by simp [padded], 2, by norm_num, by
      interval_cases c; norm_num [Arr2.get]⟩)
  obtain ⟨m, hm, f⟩ := held_new exactSolvers_fit (by norm_num) hd' (by norm_num [tinyArgs]) rfl hf ht.sound
  obtain ⟨κ, x1, x2, x3, x4, x5, -⟩ := hm.facts exactSolvers_fit
  have hP : m.gp.inputDim = 1 := same_inputDim ht.ok x5 f
  have hD : m.gp.outputDim = 1 := by rw [x3, f, ht.D]
  have hno : m.fk.noise = [0.1] := by rw [f, ht.noise]
  have hax : m.axesOf = m₀.axesOf := by
    refine made_same_axes ⟨fk, m₀, hd, hi, rfl, rfl, rfl⟩ (hP ▸ x1) ht.ok (hP ▸ x5) (by rw [f]) fun c hc L H n r => ?_
    have hc : c = 0 := by omega
    subst hc
    have hco : LLGPArgs.coords { tinyArgs fk with Xs := [⟨[3], [0, 0, 1]⟩], Ys := [⟨[3], [1, 3, 0]⟩] } 1 0 = (tinyArgs fk).coords 1 0 := by
      ext x
      constructor
      · rintro ⟨d, hd, i, hi, rfl⟩
        have hd : d < 1 := hd
        interval_cases d
        have hi : i < 3 := hi
        interval_cases i
        · exact ⟨0, by norm_num [tinyArgs], 0, by norm_num [tinyArgs, queryLens], by norm_num [tinyArgs, queryPoint]⟩
        · exact ⟨0, by norm_num [tinyArgs], 0, by norm_num [tinyArgs, queryLens], by norm_num [tinyArgs, queryPoint]⟩
        · exact ⟨0, by norm_num [tinyArgs], 1, by norm_num [tinyArgs, queryLens], by norm_num [tinyArgs, queryPoint]⟩
      · rintro ⟨d, hd, i, hi, rfl⟩
        have hd : d < 1 := hd
        interval_cases d
        have hi : i < 2 := hi
        interval_cases i
        · exact ⟨0, by norm_num, 0, by norm_num [queryLens], by norm_num [tinyArgs, queryPoint]⟩
        · exact ⟨0, by norm_num, 2, by norm_num [queryLens], by norm_num [tinyArgs, queryPoint]⟩
    obtain ⟨r1, r2, r3, -⟩ := r
    exact ⟨by rw [hco]; exact r1, by rw [hco]; exact r2, r3, fun e => absurd e (by simp [tinyArgs, GridOpt.at])⟩
  set a : LLGPArgs := { tinyArgs fk with Xs := [⟨[3], [0, 0, 1]⟩], Ys := [⟨[3], [1, 3, 0]⟩] } with ha
  have hmeas : a.measuredAt 1 0 (fun _ => 0) = {0, 1} := by
    ext i
    rw [mem_measuredAt]
    simp only [Finset.mem_insert, Finset.mem_singleton]
    constructor
    · rintro ⟨h1, h2⟩
      have h1 : i < 3 := h1
      have h2 := h2 0 (by norm_num)
      interval_cases i
      · exact .inl rfl
      · exact .inr rfl
      · norm_num [queryPoint, ha] at h2
    · rintro (rfl | rfl)
      · exact ⟨by norm_num [queryLens, ha], fun c hc => by interval_cases c; norm_num [queryPoint, ha]⟩
      · exact ⟨by norm_num [queryLens, ha], fun c hc => by interval_cases c; norm_num [queryPoint, ha]⟩
  have hc1 : ({0, 1} : Finset ℕ).card = 2 := rfl
  have hsc : a.scaleOf 0 = 1 := rfl
  have havg : a.averageAt 1 0 (fun _ => 0) = 2 := by
    unfold LLGPArgs.averageAt
    rw [hmeas, Finset.sum_pair (by norm_num), hc1]
    norm_num [LLGPArgs.value, ha]
  have hQ : m.Accepts [⟨[2], [0, 1]⟩] := ⟨by
    rw [hP, hD]
    refine ⟨rfl, fun X hX => ?_⟩
    rw [List.mem_singleton.1 hX]
    exact ⟨2, .inl ⟨rfl, rfl⟩⟩, fun X hX => by rw [List.mem_singleton.1 hX]; rfl⟩
  have hx0 : queryPoint 1 [⟨[2], [0, 1]⟩] 0 0 0 = 0 := by norm_num [queryPoint]
  obtain ⟨r, r1, r2⟩ := C113_exact exactSolvers exactSolvers_fit _ 0 a m hm (held_exact exactSolvers_fit hm rfl) _ hQ quiet quiet_calm.1
  have hme : a.measuredAt 1 0 (queryPoint 1 [⟨[2], [0, 1]⟩] 0 0) = {0, 1} := by
    rw [← hmeas]
    ext i
    rw [mem_measuredAt, mem_measuredAt]
    refine and_congr_right fun _ => forall_congr' fun c => imp_congr_right fun hc => ?_
    have : c = 0 := by omega
    subst this
    rw [hx0]
  have q := r2 0 (by rw [hD]; norm_num) 0 (by norm_num [queryLens]) 2 (by rw [hP, hme, hc1]) (by norm_num)
  rw [hsc, hno] at q
  have key := C113_mean exactSolvers exactSolvers_fit (fun _ _ _ tol h _ => exactSolvers_exact h tol) _ 0 a m hm (by
      rw [f, ht.group]
      intro ad had
      simp only [List.map_cons, List.map_nil, List.mem_cons, List.not_mem_nil, or_false] at had
      rw [had]
      decide) 0 (by rw [hD]; norm_num) (fun _ => 0) (by rw [hP, hmeas, hc1]; norm_num)
    (by
      rw [hax, f, tiny_corner ht _ rfl]
      linarith [extraOf_nonneg m₀.fk ([0], [0])]) _ hQ quiet quiet_calm.1 r r1 0 (by norm_num [queryLens]) (by
      rw [hP]
      intro c hc
      have : c = 0 := by omega
      subst this
      exact hx0)
  rw [hP, hmeas, havg, hsc, hc1] at key
  refine ⟨a, m, r, _, rfl, hno, r1, ?_, rfl, ?_⟩
  · have := key.2
    rw [hno] at this ⊢
    norm_num at this ⊢
    exact this
  · have : (r.2.getD 0 []).getD 0 0 / 1 ^ 2 ≤ (1 + 1 / ((2 : ℕ) : ℝ)) * 0.1 := q.2.2
    norm_num at this ⊢
    linarith

end Verif
