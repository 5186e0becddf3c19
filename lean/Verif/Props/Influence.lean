import Verif.Proofs.Influence
import Verif.Props.Measured

/-! C115: the influence of the observed values on predictions is bounded. -/

namespace Verif

open Matrix

theorem skiMean_sub (fk : FK) (axes : List ℕ → List (List ℝ)) (extra : List ℕ × List ℕ → ℝ) (Xs : List (Arr2 ℝ)) (Y Y' : List (List ℝ)) (d : ℕ) (x : ℕ → ℝ) :
    fk.skiMean axes extra Xs Y' d x - fk.skiMean axes extra Xs Y d x = fk.skiCross axes extra Xs d x ⬝ᵥ (fk.skiMat axes extra Xs)⁻¹ *ᵥ
      (toVec (Xs.map Arr2.rows).sum Y'.flatten - toVec (Xs.map Arr2.rows).sum Y.flatten) := by
  unfold FK.skiMean
  rw [mulVec_sub, dotProduct_sub]

/-- C115: of two models made with the same arguments except for the observed values, predicted means (in the units the models work in) differ by at most half the root of the
latent variance times the root of the sum of the squared differences of the values relative to the noise, at every point, whatever the inputs and in every prediction mode
(or both raise the same exception). -/
theorem C115_values (sv : Solvers) (hs : sv.Fit) (hx : sv.Exact) (ops ops' : List Op) (i i' : ℕ) (a a' : LLGPArgs) (m m' : LLGP) (h : Held sv ops i a m) (h' : Held sv ops' i' a' m')
    (hn : ∀ ad ∈ m.fk.activeDims.map Prod.fst, ad.Nodup) (hfk : m'.fk = m.fk) (hv : a.OtherValues a') (Qs : List (NDArr ℝ)) (hQ : m.Accepts Qs) (e e' : Env) (he : e.Works)
    (he' : e'.Works) :
    (∃ x, Predicts sv ops i Qs e (.error x) ∧ Predicts sv ops' i' Qs e' (.error x)) ∨
    ∃ r r', Predicts sv ops i Qs e (.ok r) ∧ Predicts sv ops' i' Qs e' (.ok r') ∧ ∀ d < m.gp.outputDim, ∀ j < (queryLens Qs).getD d 0, 0 < a.scaleOf d ∧ 0 < a'.scaleOf d ∧
      (((r'.1.getD d []).getD j 0 - a'.centreOf d) / a'.scaleOf d - ((r.1.getD d []).getD j 0 - a.centreOf d) / a.scaleOf d) ^ 2 ≤
        m.fk.latentBound m.gp.inputDim d (queryPoint m.gp.inputDim Qs d j) / 4 * a.changeOf a' m.fk.noise := by
  obtain ⟨k, f1, f2, f3, f4, f5, -, f7⟩ := h.facts hs
  obtain ⟨k', g1, -, g3, g4, g5, -, g7⟩ := h'.facts hs
  have hP := same_inputDim f5 g5 hfk
  have hQ' : m'.Accepts Qs := by unfold LLGP.Accepts; rw [hP, g3, hfk, ← f3]; exact hQ
  have ask' := g4 Qs hQ'
  rw [hP] at g1 ask'
  have R := hv.same f5 (hP ▸ g5) f1 g1 hfk (held_prediction hs h h' (by rw [hv]))
  have hX : a'.Xs = a.Xs := by rw [hv]
  have hD : m.fk.D = a.Xs.length := (model_rows f5 f1).1.symm
  have F := f7 Qs e he
  have G := g7 Qs e' he'
  rcases predict_same hx R (f4 Qs hQ) ask' f2 hn he he' with ⟨x, x1, x2⟩ | ⟨r, r', v, r1, r2, r3, r4⟩
  · exact .inl ⟨x, x1 ▸ F, x2 ▸ G⟩
  · refine .inr ⟨r, r', r1 ▸ F, r2 ▸ G, fun d hd j hj => ?_⟩
    rw [f3] at hd
    obtain ⟨n1, p1⟩ := (MadeFrom.scale f1).2.1 d (by rw [← hD]; exact hd)
    obtain ⟨n2, p2⟩ := (MadeFrom.scale g1).2.1 d (by rw [hX, ← hD]; exact hd)
    refine ⟨p1, p2, ?_⟩
    rw [(r3.entry d hd j hj).1, (r4.entry d hd j hj).1, n1, n2, add_sub_cancel_right, add_sub_cancel_right, mul_div_assoc, mul_div_assoc, div_self p1.ne', div_self p2.ne', mul_one, mul_one,
      skiMean_sub]
    refine (mean_bounded f5 f2 hn hd _ _).trans ?_
    simp only [Pi.sub_apply]
    rw [change_rows f5 f1 (hP ▸ g5) g1 hX R.inputs]
    refine mul_le_mul_of_nonneg_right (by have := skiCov_le f5 f2 hn hd (queryPoint m.gp.inputDim Qs d j); linarith) ?_
    refine Finset.sum_nonneg fun d' hd' => Finset.sum_nonneg fun _ _ => div_nonneg (sq_nonneg _) (f2.noise d' ?_).le
    rw [hD]
    exact Finset.mem_range.1 hd'

/-- C115: in particular, without normalisation, an observation that is replaced by any other value moves a predicted mean by at most half of the root of the latent variance over
the noise of the output of that observation, times the difference. -/
theorem C115_outlier (sv : Solvers) (hs : sv.Fit) (hx : sv.Exact) (ops ops' : List Op) (i i' : ℕ) (a a' : LLGPArgs) (m m' : LLGP) (h : Held sv ops i a m) (h' : Held sv ops' i' a' m')
    (hn : ∀ ad ∈ m.fk.activeDims.map Prod.fst, ad.Nodup) (hfk : m'.fk = m.fk) (hno : a.normalize = false) (d₀ i₀ : ℕ) (y : ℝ) (hd : d₀ < a.Xs.length)
    (hi : i₀ < (queryLens a.Xs).getD d₀ 0) (hv : a.Replaces d₀ i₀ y a') (Qs : List (NDArr ℝ)) (hQ : m.Accepts Qs) (e e' : Env) (he : e.Works) (he' : e'.Works) :
    (∃ x, Predicts sv ops i Qs e (.error x) ∧ Predicts sv ops' i' Qs e' (.error x)) ∨
    ∃ r r', Predicts sv ops i Qs e (.ok r) ∧ Predicts sv ops' i' Qs e' (.ok r') ∧ ∀ d < m.gp.outputDim, ∀ j < (queryLens Qs).getD d 0,
      |(r'.1.getD d []).getD j 0 - (r.1.getD d []).getD j 0| ≤
        Real.sqrt (m.fk.latentBound m.gp.inputDim d (queryPoint m.gp.inputDim Qs d j) / m.fk.noise.getD d₀ 0) / 2 * |y - a.value d₀ i₀| := by
  obtain ⟨k, f1, f2, f3, f4, f5, -, f7⟩ := h.facts hs
  have hno' : a'.normalize = false := by rw [hv.1]; exact hno
  have sc : ∀ {a : LLGPArgs}, a.normalize = false → ∀ d, a.scaleOf d = 1 ∧ a.centreOf d = 0 := fun {a} h d => by
    unfold LLGPArgs.scaleOf LLGPArgs.centreOf
    rw [h]
    exact ⟨rfl, rfl⟩
  have hD : m.fk.D = a.Xs.length := (model_rows f5 f1).1.symm
  have hν := f2.noise d₀ (by rw [hD]; exact hd)
  have hch : a.changeOf a' m.fk.noise = (y - a.value d₀ i₀) ^ 2 / m.fk.noise.getD d₀ 0 := by
    unfold LLGPArgs.changeOf
    have lv : ∀ d i, d < a.Xs.length → i < (queryLens a.Xs).getD d 0 → (a'.level d i - a.level d i) ^ 2 / m.fk.noise.getD d 0 =
        if d = d₀ ∧ i = i₀ then (y - a.value d₀ i₀) ^ 2 / m.fk.noise.getD d₀ 0 else 0 := fun d i h1 h2 => by
      unfold LLGPArgs.level
      rw [(sc hno d).1, (sc hno d).2, (sc hno' d).1, (sc hno' d).2, hv.2 d h1 i h2]
      split_ifs with hc
      · rw [hc.1, hc.2]
        simp
      · simp
    rw [Finset.sum_eq_single d₀, Finset.sum_eq_single i₀]
    · rw [lv d₀ i₀ hd hi, if_pos ⟨rfl, rfl⟩]
    · intro b hb hne
      rw [lv d₀ b hd (Finset.mem_range.1 hb), if_neg fun hh => hne hh.2]
    · intro hh
      exact absurd (Finset.mem_range.2 hi) hh
    · intro b hb hne
      exact Finset.sum_eq_zero fun c hc => by rw [lv b c (Finset.mem_range.1 hb) (Finset.mem_range.1 hc), if_neg fun hh => hne hh.1]
    · intro hh
      exact absurd (Finset.mem_range.2 hd) hh
  rcases C115_values sv hs hx ops ops' i i' a a' m m' h h' hn hfk hv.1 Qs hQ e e' he he' with hh | ⟨r, r', r1, r2, r3⟩
  · exact .inl hh
  · refine .inr ⟨r, r', r1, r2, fun d hd' j hj => ?_⟩
    have q := (r3 d hd' j hj).2.2
    rw [(sc hno d).1, (sc hno d).2, (sc hno' d).1, (sc hno' d).2, hch] at q
    simp only [sub_zero, div_one] at q
    have hdD : d < m.fk.D := by rw [← f3]; exact hd'
    have hL : 0 ≤ m.fk.latentBound m.gp.inputDim d (queryPoint m.gp.inputDim Qs d j) := by
      refine le_trans ?_ (skiCov_le f5 f2 hn hdD _)
      have := ski_joint f5 f2 hn hdD (queryPoint m.gp.inputDim Qs d j) 0
      simpa using this
    refine abs_le_of_sq_le_sq ?_ (by positivity)
    refine q.trans (le_of_eq ?_)
    rw [mul_pow, div_pow, Real.sq_sqrt (div_nonneg hL hν.le), sq_abs]
    ring

/-- C115: predicted means stay near the average of their output (near zero without normalisation): in the units the model works in, no further away than half the root of the latent
variance times the root of the sum of the squared values relative to the noise. -/
theorem C115_size (sv : Solvers) (hs : sv.Fit) (hx : sv.Exact) (ops : List Op) (i : ℕ) (a : LLGPArgs) (m : LLGP) (h : Held sv ops i a m)
    (hn : ∀ ad ∈ m.fk.activeDims.map Prod.fst, ad.Nodup) (Qs : List (NDArr ℝ)) (hQ : m.Accepts Qs) (e : Env) (he : e.Works) (r : Predicted) (hr : Predicts sv ops i Qs e (.ok r)) :
    ∀ d < m.gp.outputDim, ∀ j < (queryLens Qs).getD d 0, 0 < a.scaleOf d ∧
      (((r.1.getD d []).getD j 0 - a.centreOf d) / a.scaleOf d) ^ 2 ≤
        m.fk.latentBound m.gp.inputDim d (queryPoint m.gp.inputDim Qs d j) / 4 * a.strengthOf m.fk.noise := by
  obtain ⟨k, f1, f2, f3, f4, f5, -, f7⟩ := h.facts hs
  have hD : m.fk.D = a.Xs.length := (model_rows f5 f1).1.symm
  have hp := predicts_unique hr (f7 Qs e he)
  rcases predict_same hx ⟨f5, f5, rfl, rfl, rfl, rfl⟩ (f4 Qs hQ) (f4 Qs hQ) f2 hn he he with ⟨x, x1, -⟩ | ⟨r', -, v, r1, -, r3, -⟩
  · rw [hp] at x1
    cases x1
  · rw [hp] at r1
    cases r1
    intro d hd j hj
    rw [f3] at hd
    obtain ⟨n1, p1⟩ := (MadeFrom.scale f1).2.1 d (by rw [← hD]; exact hd)
    refine ⟨p1, ?_⟩
    rw [(r3.entry d hd j hj).1, n1, add_sub_cancel_right, mul_div_assoc, div_self p1.ne', mul_one]
    refine (mean_bounded f5 f2 hn hd _ _).trans ?_
    rw [strength_rows f5 f1]
    refine mul_le_mul_of_nonneg_right (by have := skiCov_le f5 f2 hn hd (queryPoint m.gp.inputDim Qs d j); linarith) ?_
    refine Finset.sum_nonneg fun d' hd' => Finset.sum_nonneg fun _ _ => div_nonneg (sq_nonneg _) (f2.noise d' ?_).le
    rw [hD]
    exact Finset.mem_range.1 hd'

/-- the squares of normalised values sum to their number -/
theorem strength_normalised {m : LLGP} {P : ℕ} {a : LLGPArgs} (hm : m.MadeFrom P a) (hno : a.normalize = true) (noise : List ℝ) :
    a.strengthOf noise = ∑ d ∈ Finset.range a.Xs.length, ((queryLens a.Xs).getD d 0 : ℝ) / noise.getD d 0 := by
  unfold LLGPArgs.strengthOf
  refine Finset.sum_congr rfl fun d hd => ?_
  have hd := Finset.mem_range.1 hd
  obtain ⟨-, p1⟩ := (MadeFrom.scale hm).2.1 d hd
  rw [← Finset.sum_div]
  congr 1
  have hsc : a.scaleOf d = sdOf (a.Ys.getD d ⟨[], []⟩).data := by unfold LLGPArgs.scaleOf; rw [hno]; rfl
  have hce : a.centreOf d = meanOf (a.Ys.getD d ⟨[], []⟩).data := by unfold LLGPArgs.centreOf; rw [hno]; rfl
  have hlen : (a.Ys.getD d ⟨[], []⟩).data.length = (queryLens a.Xs).getD d 0 := by
    obtain ⟨_, _, h, -⟩ := hm
    exact documented_lens h hd
  have hs2 : a.scaleOf d ^ 2 = varOf (a.Ys.getD d ⟨[], []⟩).data := by
    rw [hsc] at p1 ⊢
    unfold sdOf at p1 ⊢
    exact Real.sq_sqrt (Real.sqrt_pos.1 p1).le
  unfold LLGPArgs.level LLGPArgs.value
  simp only [div_pow]
  have hv : 0 < varOf (a.Ys.getD d ⟨[], []⟩).data := by rw [← hs2]; positivity
  rw [← Finset.sum_div, hs2, hce, ← hlen, div_eq_iff hv.ne']
  have hl : ((a.Ys.getD d ⟨[], []⟩).data.length : ℝ) ≠ 0 := fun h0 => by
    unfold varOf at hv
    rw [h0, div_zero] at hv
    exact lt_irrefl _ hv
  conv_rhs => unfold varOf
  field_simp

/-- C115: with normalisation, a predicted mean is within so many standard deviations of the average of the values of its output: half the root of the latent variance times the
root of the number of observations, each divided by the noise of its output. However large the values are, predictions stay on their scale. -/
theorem C115_normalised (sv : Solvers) (hs : sv.Fit) (hx : sv.Exact) (ops : List Op) (i : ℕ) (a : LLGPArgs) (m : LLGP) (h : Held sv ops i a m)
    (hn : ∀ ad ∈ m.fk.activeDims.map Prod.fst, ad.Nodup) (hno : a.normalize = true) (Qs : List (NDArr ℝ)) (hQ : m.Accepts Qs) (e : Env) (he : e.Works) (r : Predicted)
    (hr : Predicts sv ops i Qs e (.ok r)) : ∀ d < m.gp.outputDim, ∀ j < (queryLens Qs).getD d 0,
      |(r.1.getD d []).getD j 0 - meanOf (a.Ys.getD d ⟨[], []⟩).data| ≤ sdOf (a.Ys.getD d ⟨[], []⟩).data / 2 *
        Real.sqrt (m.fk.latentBound m.gp.inputDim d (queryPoint m.gp.inputDim Qs d j) * ∑ d' ∈ Finset.range a.Xs.length, ((queryLens a.Xs).getD d' 0 : ℝ) / m.fk.noise.getD d' 0) := by
  obtain ⟨k, f1, f2, f3, f4, f5, -, f7⟩ := h.facts hs
  intro d hd j hj
  obtain ⟨p, q⟩ := C115_size sv hs hx ops i a m h hn Qs hQ e he r hr d hd j hj
  rw [strength_normalised f1 hno] at q
  have hsc : a.scaleOf d = sdOf (a.Ys.getD d ⟨[], []⟩).data := by unfold LLGPArgs.scaleOf; rw [hno]; rfl
  have hce : a.centreOf d = meanOf (a.Ys.getD d ⟨[], []⟩).data := by unfold LLGPArgs.centreOf; rw [hno]; rfl
  rw [← hsc, ← hce]
  set S := m.fk.latentBound m.gp.inputDim d (queryPoint m.gp.inputDim Qs d j) * ∑ d' ∈ Finset.range a.Xs.length, ((queryLens a.Xs).getD d' 0 : ℝ) / m.fk.noise.getD d' 0 with hS
  have q' : (((r.1.getD d []).getD j 0 - a.centreOf d) / a.scaleOf d) ^ 2 ≤ S / 4 := by rw [hS]; linarith only [q]
  have hS0 : 0 ≤ S := by have := sq_nonneg (((r.1.getD d []).getD j 0 - a.centreOf d) / a.scaleOf d); linarith
  refine abs_le_of_sq_le_sq ?_ (by positivity)
  rw [mul_pow, div_pow, Real.sq_sqrt hS0]
  rw [div_pow, div_le_iff₀ (by positivity)] at q'
  linarith only [q']

/-- a model of two observations, and the same model after the second value has been mistyped: the predictions at every one of the points asked about move by no more than the bound -/
example : ∃ (a a' : LLGPArgs) (m m' : LLGP) (r r' : Predicted), a.Ys = [⟨[2], [1, 0]⟩] ∧ a'.Ys = [⟨[2], [1, 1000]⟩] ∧ m.fk.noise = [0.1] ∧ m'.fk = m.fk ∧
    Predicts exactSolvers [.new a quiet] 0 [⟨[2], [0, 1]⟩] quiet (.ok r) ∧ Predicts exactSolvers [.new a' quiet] 0 [⟨[2], [0, 1]⟩] quiet (.ok r') ∧
    ∀ j < 2, |(r'.1.getD 0 []).getD j 0 - (r.1.getD 0 []).getD j 0| ≤ Real.sqrt (m.fk.latentBound 1 0 (queryPoint 1 [⟨[2], [0, 1]⟩] 0 j) / 0.1) / 2 * 1000 := by
  obtain ⟨fk, m₀, hd, hf, hi, ht⟩ := exists_tiny
  have hd' := documented_with_data hd (Xs := [⟨[2], [0, 1]⟩]) (Ys := [⟨[2], [1, 1000]⟩])
    ⟨by simp, rfl, fun d hd => by
        have : d < 1 := hd
        interval_cases d
        exact ⟨2, rfl, .inl ⟨rfl, rfl⟩⟩, fun Y hY => .inr (by
        simp only [List.mem_cons, List.not_mem_nil, or_false] at hY
        subst hY
        have hv : varOf [1, 1000] = 998001 / 4 := by
          simp [varOf, meanOf, Finset.sum_range_succ]
          norm_num
        simp [sdOf, hv])⟩
    (fun X hX => by rw [List.mem_singleton.1 hX]; rfl) (fun Y hY => by rw [List.mem_singleton.1 hY]; exact ⟨rfl, by simp⟩) rfl
    (fun c hc => ⟨⟨2, 1, [0, 1]⟩, by simp [padded], 0, by norm_num, ⟨2, 1, [0, 1]⟩, by simp [padded], 1, by norm_num, by
      interval_cases c; norm_num [Arr2.get]⟩)
  obtain ⟨m, hm, f⟩ := held_new exactSolvers_fit (by norm_num) hd (by norm_num [tinyArgs]) rfl hf ht.sound
  obtain ⟨m', hm', f'⟩ := held_new exactSolvers_fit (by norm_num) hd' (by norm_num [tinyArgs]) rfl hf ht.sound
  obtain ⟨κ, x1, x2, x3, x4, x5, -⟩ := hm.facts exactSolvers_fit
  have hP : m.gp.inputDim = 1 := same_inputDim ht.ok x5 f
  have hD : m.gp.outputDim = 1 := by rw [x3, f, ht.D]
  have hno : m.fk.noise = [0.1] := by rw [f, ht.noise]
  have hQ : m.Accepts [⟨[2], [0, 1]⟩] := ⟨by
    rw [hP, hD]
    refine ⟨rfl, fun X hX => ?_⟩
    rw [List.mem_singleton.1 hX]
    exact ⟨2, .inl ⟨rfl, rfl⟩⟩, fun X hX => by rw [List.mem_singleton.1 hX]; rfl⟩
  have hnd : ∀ ad ∈ m.fk.activeDims.map Prod.fst, ad.Nodup := by
    rw [f, ht.group]
    simp
  have hrep : (tinyArgs fk).Replaces 0 1 1000 { tinyArgs fk with Xs := [⟨[2], [0, 1]⟩], Ys := [⟨[2], [1, 1000]⟩] } := by
    refine ⟨rfl, fun d hd i hi => ?_⟩
    have hd : d < 1 := hd
    interval_cases d
    have hi : i < 2 := hi
    interval_cases i <;> simp [LLGPArgs.value, tinyArgs]
  have hex : ∀ {ops : List Op} {a : LLGPArgs} {m : LLGP}, Held exactSolvers ops 0 a m → exactSolvers.Exact := fun _ _ _ _ tol h _ => exactSolvers_exact h tol
  rcases C115_outlier exactSolvers exactSolvers_fit (hex hm) _ _ 0 0 _ _ m m' hm hm' hnd (by rw [f, f']) rfl 0 1 1000 (by norm_num [tinyArgs]) (by norm_num [tinyArgs, queryLens]) hrep _ hQ
    quiet quiet quiet_calm.1 quiet_calm.1 with ⟨x, y, -⟩ | ⟨r, r', r1, r2, r3⟩
  · obtain ⟨r, r1, -⟩ := C113_exact exactSolvers exactSolvers_fit _ 0 _ m hm (held_exact exactSolvers_fit hm rfl) _ hQ quiet quiet_calm.1
    cases predicts_unique r1 y
  · refine ⟨_, _, m, m', r, r', rfl, rfl, hno, by rw [f, f'], r1, r2, fun j hj => ?_⟩
    have q := r3 0 (by rw [hD]; norm_num) j hj
    rw [hP, hno] at q
    have hv : (1000 : ℝ) - (tinyArgs fk).value 0 1 = 1000 := by simp [LLGPArgs.value, tinyArgs]
    rw [hv, abs_of_pos (by norm_num : (0:ℝ) < 1000)] at q
    exact q

end Verif
