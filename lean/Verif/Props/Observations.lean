import Verif.Proofs.Observations

/-! C81: what more observations do to the predicted variances. -/

namespace Verif

open Matrix

/-- C81: in `'exact'` mode, of two models with the same parameters where one has all the observed points of the other, both variances (in units of the
normalised outputs) are at least the noise and at most the prior variance, and that of the model with more points is never larger. The observed values do
not matter. -/
theorem C81_more_points (sv : Solvers) (P : ℕ) (Qs : List (NDArr ℝ)) (m m' : LLGP) (k k' : LLKernel) (h : Asked sv m P k Qs) (h' : Asked sv m' P k' Qs) (e e' : Env)
    (hm : m.prediction = .exact) (hm' : m'.prediction = .exact) (hs : m.fk.Sound) (hfk : m'.fk = m.fk) (a a' : LLGPArgs) (ha : m.MadeFrom P a)
    (ha' : m'.MadeFrom P a') (hw : a.Within P a') :
    ∃ r r', m.gp.predict (m.rawPredict sv e) Qs = .ok r ∧ m'.gp.predict (m'.rawPredict sv e') Qs = .ok r' ∧
      ∀ d < m.fk.D, ∀ i < (queryLens Qs).getD d 0, 0 < a.scaleOf d ∧ 0 < a'.scaleOf d ∧
        m.fk.noise.getD d 0 ≤ (r'.2.getD d []).getD i 0 / a'.scaleOf d ^ 2 ∧
        (r'.2.getD d []).getD i 0 / a'.scaleOf d ^ 2 ≤ (r.2.getD d []).getD i 0 / a.scaleOf d ^ 2 ∧
        (r.2.getD d []).getD i 0 / a.scaleOf d ^ 2 ≤ m.fk.priorVar d (queryPoint P Qs d i) := by
  obtain ⟨x1, s1, -⟩ := MadeFrom.scale ha
  obtain ⟨x2, s2, -⟩ := MadeFrom.scale ha'
  have hex := rows_within_padded hw.outputs hw.points
  rw [← x1, ← x2] at hex
  obtain ⟨ι, hι⟩ := hex
  obtain ⟨r, hr, H⟩ := C45_exact sv m P k Qs h e hm hs
  obtain ⟨r', hr', H'⟩ := C45_exact sv m' P k' Qs h' e' hm' (by rw [hfk]; exact hs)
  refine ⟨r, r', hr, hr', fun d hd i hi => ?_⟩
  have hl : m.gp.Xs.length = m.fk.D := h.ok.data.inputs.len
  have hl' : m'.gp.Xs.length = m.fk.D := by rw [← hfk]; exact h'.ok.data.inputs.len
  have hd1 : d < a.Xs.length := by
    have : a.Xs.length = m.gp.Xs.length := by rw [x1]; unfold padded; rw [List.length_map]
    rw [this, hl]; exact hd
  have hd2 : d < a'.Xs.length := by rw [hw.outputs]; exact hd1
  obtain ⟨n1, p1⟩ := s1 d hd1
  obtain ⟨n2, p2⟩ := s2 d hd2
  obtain ⟨v1, -, -⟩ := H d hd i hi
  obtain ⟨v2, g2, -⟩ := H' d (by rw [hfk]; exact hd) i hi
  rw [n1] at v1
  rw [n2, hfk] at v2
  rw [hfk] at g2
  have q1 := (pow_pos p1 2).ne'
  have q2 := (pow_pos p2 2).ne'
  rw [v1, v2, mul_div_assoc, mul_div_assoc, div_self q1, div_self q2, mul_one, mul_one]
  exact ⟨p1, p2, g2, condVar_within h.ok.ready hs hl hl' hι d _, condVar_le_prior h.ok.ready hs hl d _⟩

/-- C81 without normalisation: the variances themselves. -/
theorem C81_plain (sv : Solvers) (P : ℕ) (Qs : List (NDArr ℝ)) (m m' : LLGP) (k k' : LLKernel) (h : Asked sv m P k Qs) (h' : Asked sv m' P k' Qs) (e e' : Env)
    (hm : m.prediction = .exact) (hm' : m'.prediction = .exact) (hs : m.fk.Sound) (hfk : m'.fk = m.fk) (a a' : LLGPArgs) (ha : m.MadeFrom P a)
    (ha' : m'.MadeFrom P a') (hw : a.Within P a') (hn : a.normalize = false) (hn' : a'.normalize = false) :
    ∃ r r', m.gp.predict (m.rawPredict sv e) Qs = .ok r ∧ m'.gp.predict (m'.rawPredict sv e') Qs = .ok r' ∧
      ∀ d < m.fk.D, ∀ i < (queryLens Qs).getD d 0, m.fk.noise.getD d 0 ≤ (r'.2.getD d []).getD i 0 ∧
        (r'.2.getD d []).getD i 0 ≤ (r.2.getD d []).getD i 0 ∧ (r.2.getD d []).getD i 0 ≤ m.fk.priorVar d (queryPoint P Qs d i) := by
  obtain ⟨r, r', hr, hr', H⟩ := C81_more_points sv P Qs m m' k k' h h' e e' hm hm' hs hfk a a' ha ha' hw
  refine ⟨r, r', hr, hr', fun d hd i hi => ?_⟩
  obtain ⟨-, -, h1, h2, h3⟩ := H d hd i hi
  have e1 : a.scaleOf d = 1 := by unfold LLGPArgs.scaleOf; rw [hn]; rfl
  have e2 : a'.scaleOf d = 1 := by unfold LLGPArgs.scaleOf; rw [hn']; rfl
  rw [e1, one_pow, div_one] at h2 h3
  rw [e2, one_pow, div_one] at h1 h2
  exact ⟨h1, h2, h3⟩

/-- C81: where an output was observed, its variance is between one and two times its noise. -/
theorem C81_at_observations (sv : Solvers) (P : ℕ) (Qs : List (NDArr ℝ)) (m : LLGP) (k : LLKernel) (h : Asked sv m P k Qs) (e : Env) (hm : m.prediction = .exact)
    (hs : m.fk.Sound) (a : LLGPArgs) (ha : m.MadeFrom P a) : ∃ r, m.gp.predict (m.rawPredict sv e) Qs = .ok r ∧
      ∀ d < m.fk.D, ∀ i < (queryLens Qs).getD d 0, vmk P (queryPoint P Qs d i) ∈ located P a.Xs d →
        m.fk.noise.getD d 0 ≤ (r.2.getD d []).getD i 0 / a.scaleOf d ^ 2 ∧ (r.2.getD d []).getD i 0 / a.scaleOf d ^ 2 ≤ 2 * m.fk.noise.getD d 0 := by
  obtain ⟨x1, s1, -⟩ := MadeFrom.scale ha
  obtain ⟨r, hr, H⟩ := C45_exact sv m P k Qs h e hm hs
  refine ⟨r, hr, fun d hd i hi hmem => ?_⟩
  have hl : m.gp.Xs.length = m.fk.D := h.ok.data.inputs.len
  have hd1 : d < a.Xs.length := by
    have : a.Xs.length = m.gp.Xs.length := by rw [x1]; unfold padded; rw [List.length_map]
    rw [this, hl]; exact hd
  obtain ⟨n1, p1⟩ := s1 d hd1
  obtain ⟨v1, g1, -⟩ := H d hd i hi
  rw [n1] at v1
  have q1 := (pow_pos p1 2).ne'
  rw [v1, mul_div_assoc, div_self q1, mul_one]
  refine ⟨g1, ?_⟩
  unfold located at hmem
  obtain ⟨j, hj, ej⟩ := List.mem_map.1 hmem
  have hj := List.mem_range.1 hj
  have hjl : j < (m.gp.Xs.map Arr2.rows).getD d 0 := by rw [x1, padded_lens]; exact hj
  obtain ⟨ho, hlt, hp⟩ := rowPoint_offset m.gp.Xs (by rw [hl]; exact hd) hjl
  have key := condVar_at_data h.ok.ready hs hl ⟨_, hlt⟩ (queryPoint P Qs d i) (fun c hc => by
    show rowPoint m.gp.Xs (offset (m.gp.Xs.map Arr2.rows) d + j) c = _
    rw [hp, x1, pointOf_padded hd1]
    have := congrArg (fun l => l.getD c 0) ej
    beta_reduce at this
    rwa [vmk_getD_lt hc, vmk_getD_lt hc] at this)
  rwa [show ownerOf (m.gp.Xs.map Arr2.rows) ((⟨_, hlt⟩ : Fin _) : ℕ) = d from ho] at key

theorem documented_with_data {a : LLGPArgs} {P : ℕ} {fk : FK} (h : a.Documented P fk) {Xs Ys : List (NDArr ℝ)} (hd : Dataset Xs Ys P) (hX : ∀ X ∈ Xs, X.WF)
    (hY : ∀ Y ∈ Ys, Y.WF ∧ Y.data ≠ []) (hl : Xs.length = a.Xs.length)
    (hs : ∀ c < P, ∃ X ∈ padded P Xs, ∃ i < X.rows, ∃ X' ∈ padded P Xs, ∃ i' < X'.rows, X.get i c < X'.get i' c) :
    LLGPArgs.Documented { a with Xs := Xs, Ys := Ys } P fk :=
  ⟨hd, hX, fun Y h => (hY Y h).1, fun Y h => (hY Y h).2, h.kernel, h.fresh, h.wf, h.some, by rw [h.outputs]; exact hl.symm, h.valid, h.dims, h.mode, h.lo, h.hi, h.m, h.sizes,
    fun c hc => let ⟨X, h1, i, h2, h3⟩ := hs c hc; ⟨X, h1, i, h2, .inl h3⟩⟩

/-- a model of two outputs observed at two points each, and one whose first output was observed at three points, two of them those of the first, and in another order:
both are asked for the first output at a point both know and the second at two others -/
theorem exists_more_points (sv : Solvers) (hsv : sv.Fit) (mode : PredMode) : ∃ (a a' : LLGPArgs) (m m' : LLGP) (k k' : LLKernel),
    Asked sv m 2 k [⟨[1, 2], [0, 0]⟩, ⟨[2, 2], [0, 1, 1, 1]⟩] ∧ Asked sv m' 2 k' [⟨[1, 2], [0, 0]⟩, ⟨[2, 2], [0, 1, 1, 1]⟩] ∧ m.prediction = mode ∧ m'.prediction = mode ∧
      m.fk.Sound ∧ m'.fk = m.fk ∧ m.MadeFrom 2 a ∧ m'.MadeFrom 2 a' ∧ a.Within 2 a' ∧ [0, 0] ∈ located 2 a.Xs 0 := by
  obtain ⟨fk, ⟨h1, h2, h3, h4, -⟩, h⟩ := exists_documented_grid
  have hd := h mode false none (by simp)
  have hd' := documented_with_data hd (Xs := [⟨[3, 2], [1, 1, 2, 2, 0, 0]⟩, ⟨[2, 2], [0, 1, 1, 0]⟩]) (Ys := [⟨[3], [2, 4, 3]⟩, ⟨[2], [5, 7]⟩])
    ⟨by simp, rfl, fun d hd => by
        have : d < 2 := hd
        interval_cases d
        · exact ⟨3, rfl, .inr rfl⟩
        · exact ⟨2, rfl, .inr rfl⟩, fun Y hY => .inr (by
        simp only [List.mem_cons, List.not_mem_nil, or_false] at hY
        rcases hY with rfl | rfl
        · have hv : varOf [2, 4, 3] = 2 / 3 := by
            simp [varOf, meanOf, Finset.sum_range_succ]
            norm_num
          simp [sdOf, hv]
        · have hv : varOf [5, 7] = 1 := by
            simp [varOf, meanOf, Finset.sum_range_succ]
            norm_num
          simp [sdOf, hv])⟩
    (fun X hX => by
      simp only [List.mem_cons, List.not_mem_nil, or_false] at hX
      rcases hX with rfl | rfl <;> rfl)
    (fun Y hY => by
      simp only [List.mem_cons, List.not_mem_nil, or_false] at hY
      rcases hY with rfl | rfl <;> exact ⟨rfl, by simp⟩) rfl
    (fun c hc => ⟨⟨3, 2, [1, 1, 2, 2, 0, 0]⟩, by simp [padded], 0, by norm_num, ⟨3, 2, [1, 1, 2, 2, 0, 0]⟩, by simp [padded], 1, by norm_num, by
      interval_cases c <;> norm_num [Arr2.get]⟩)
  obtain ⟨m, i1, i2, i3, i4, i5, -, -, -, i6⟩ := model_of_documented hd (mode := mode) (metrics := false) rfl rfl h1 h2 h3 h4 rfl
  obtain ⟨m', j1, j2, j3, j4, j5, -, -, -, j6⟩ := model_of_documented hd' (mode := mode) (metrics := false) rfl rfl h1 h2 h3 h4 rfl
  obtain ⟨k, c1, c2⟩ := exists_current hsv i2
  obtain ⟨k', c1', c2'⟩ := exists_current hsv j2
  have hq : ∀ m0 : LLGP, m0.fk.D = 2 → QueriesOK m0.fk.D 2 [⟨[1, 2], [0, 0]⟩, ⟨[2, 2], [0, 1, 1, 1]⟩] := fun m0 e => by
    refine ⟨by rw [e]; rfl, fun X hX => ?_⟩
    simp only [List.mem_cons, List.not_mem_nil, or_false] at hX
    rcases hX with rfl | rfl
    · exact ⟨1, .inr rfl⟩
    · exact ⟨2, .inr rfl⟩
  have ha : ∀ Q ∈ ([⟨[1, 2], [0, 0]⟩, ⟨[2, 2], [0, 1, 1, 1]⟩] : List (NDArr ℝ)), Q.WF := fun X hX => by
    simp only [List.mem_cons, List.not_mem_nil, or_false] at hX
    rcases hX with rfl | rfl <;> rfl
  have hl0 : located 2 [⟨[2, 2], [0, 0, 1, 1]⟩, ⟨[2, 2], [0, 1, 1, 0]⟩] 0 = [[0, 0], [1, 1]] := by
    simp [located, queryLens, queryPoint, vmk, List.range_succ]
  have hl1 : located 2 [⟨[3, 2], [1, 1, 2, 2, 0, 0]⟩, ⟨[2, 2], [0, 1, 1, 0]⟩] 0 = [[1, 1], [2, 2], [0, 0]] := by
    simp [located, queryLens, queryPoint, vmk, List.range_succ]
  refine ⟨_, _, { m with kernel := some k }, { m' with kernel := some k' }, k, k', ⟨hsv, c2, c1, hq _ i5, ha⟩, ⟨hsv, c2', c1', hq _ j5, ha⟩, i3, j3, i4, ?_,
    ⟨fk, m, hd, i1, rfl, rfl, rfl⟩, ⟨fk, m', hd', j1, rfl, rfl, rfl⟩, ⟨rfl, fun d hd => ?_⟩, ?_⟩
  · rw [i6] at j6
    exact (Except.ok.inj j6).symm
  · have : d < 2 := hd
    interval_cases d
    · show (located 2 [⟨[2, 2], [0, 0, 1, 1]⟩, ⟨[2, 2], [0, 1, 1, 0]⟩] 0).Subperm (located 2 [⟨[3, 2], [1, 1, 2, 2, 0, 0]⟩, ⟨[2, 2], [0, 1, 1, 0]⟩] 0)
      rw [hl0, hl1]
      exact (List.Perm.swap ([1, 1] : List ℝ) [0, 0] []).subperm.trans (List.Sublist.cons₂ _ (List.Sublist.cons _ (List.Sublist.refl _))).subperm
    · exact List.Subperm.refl _
  · show [0, 0] ∈ located 2 [⟨[2, 2], [0, 0, 1, 1]⟩, ⟨[2, 2], [0, 1, 1, 0]⟩] 0
    rw [hl0]
    simp

/-- with one point more, given in another order, the variances are no larger, and at the known point they are between one and two times the noise -/
example (e e' : Env) : ∃ (a a' : LLGPArgs) (m m' : LLGP) (r r' : Predicted), m.gp.predict (m.rawPredict exactSolvers e) [⟨[1, 2], [0, 0]⟩, ⟨[2, 2], [0, 1, 1, 1]⟩] = .ok r ∧
    m'.gp.predict (m'.rawPredict exactSolvers e') [⟨[1, 2], [0, 0]⟩, ⟨[2, 2], [0, 1, 1, 1]⟩] = .ok r' ∧
    (r'.2.getD 1 []).getD 1 0 / a'.scaleOf 1 ^ 2 ≤ (r.2.getD 1 []).getD 1 0 / a.scaleOf 1 ^ 2 ∧ (r.2.getD 0 []).getD 0 0 / a.scaleOf 0 ^ 2 ≤ 2 * m.fk.noise.getD 0 0 := by
  obtain ⟨a, a', m, m', k, k', h, h', hm, hm', hs, hfk, ha, ha', hw, hmem⟩ := exists_more_points exactSolvers exactSolvers_fit .exact
  obtain ⟨r, r', hr, hr', H⟩ := C81_more_points exactSolvers 2 _ m m' k k' h h' e e' hm hm' hs hfk a a' ha ha' hw
  obtain ⟨r2, hr2, H2⟩ := C81_at_observations exactSolvers 2 _ m k h e hm hs a ha
  rw [hr] at hr2
  cases hr2
  have hD : 2 = m.fk.D := h.queries.1
  refine ⟨a, a', m, m', r, r', hr, hr', (H 1 (by omega) 1 (by simp [queryLens])).2.2.2.1, (H2 0 (by omega) 0 (by simp [queryLens]) ?_).2⟩
  have : vmk 2 (queryPoint 2 [⟨[1, 2], [0, 0]⟩, ⟨[2, 2], [0, 1, 1, 1]⟩] 0 0) = [0, 0] := by simp [queryPoint, vmk, List.range_succ]
  rw [this]
  exact hmem

end Verif
