import Verif.Proofs.Values
import Verif.Props.Uncoupled

/-! C85: how predictions depend on the observed values. -/

namespace Verif

theorem LLGPArgs.OtherValues.same {a a' : LLGPArgs} (h : a.OtherValues a') {P : ℕ} {m m' : LLGP} (hok : m.OK P) (hok' : m'.OK P) (ha : m.MadeFrom P a) (ha' : m'.MadeFrom P a')
    (hfk : m'.fk = m.fk) (hm : m'.prediction = m.prediction) : SameInputs P m m' :=
  ⟨hok, hok', hfk, hm, same_axes ha ha' h, by
    rw [(MadeFrom.scale ha).1, (MadeFrom.scale ha').1, show a'.Xs = a.Xs by rw [h]]⟩

/-- C85: of two models with the same parameters and the same arguments except for the observed values, `predict` raises the same exception in both, or returns variances that are
the same in units of the normalised outputs, in every prediction mode. (With linear solves that are exact; kernels do not read a dimension twice.) -/
theorem C85_variance (sv : Solvers) (hx : sv.Exact) (P : ℕ) (Qs : List (NDArr ℝ)) (m m' : LLGP) (k k' : LLKernel) (h : Asked sv m P k Qs) (h' : Asked sv m' P k' Qs) (e e' : Env)
    (he : e.Works) (he' : e'.Works) (hs : m.fk.Sound) (hn : ∀ ad ∈ m.fk.activeDims.map Prod.fst, ad.Nodup) (hfk : m'.fk = m.fk) (hm : m'.prediction = m.prediction)
    (a a' : LLGPArgs) (ha : m.MadeFrom P a) (ha' : m'.MadeFrom P a') (hv : a.OtherValues a') :
    (∃ x, m.gp.predict (m.rawPredict sv e) Qs = .error x ∧ m'.gp.predict (m'.rawPredict sv e') Qs = .error x) ∨
    ∃ r r', m.gp.predict (m.rawPredict sv e) Qs = .ok r ∧ m'.gp.predict (m'.rawPredict sv e') Qs = .ok r' ∧
      ∀ d < m.fk.D, ∀ i < (queryLens Qs).getD d 0, 0 < a.scaleOf d ∧ 0 < a'.scaleOf d ∧
        (r'.2.getD d []).getD i 0 / a'.scaleOf d ^ 2 = (r.2.getD d []).getD i 0 / a.scaleOf d ^ 2 := by
  have R := hv.same h.ok h'.ok ha ha' hfk hm
  have hD : m.fk.D = a.Xs.length := by
    rw [← h.ok.data.inputs.len, (MadeFrom.scale ha).1]
    unfold padded
    rw [List.length_map]
  have hX : a'.Xs = a.Xs := by rw [hv]
  rcases predict_same hx R h h' hs hn he he' with h1 | ⟨r, r', v, h1, h2, h3, h4⟩
  · exact .inl h1
  · refine .inr ⟨r, r', h1, h2, fun d hd i hi => ?_⟩
    obtain ⟨n1, p1⟩ := (MadeFrom.scale ha).2.1 d (by rw [← hD]; exact hd)
    obtain ⟨n2, p2⟩ := (MadeFrom.scale ha').2.1 d (by rw [hX, ← hD]; exact hd)
    refine ⟨p1, p2, ?_⟩
    rw [(h3.entry d hd i hi).2, (h4.entry d hd i hi).2, n1, n2, mul_div_assoc, mul_div_assoc, div_self (pow_pos p1 2).ne', div_self (pow_pos p2 2).ne']

/-- C85: without normalisation the predicted mean is linear in the observed values: when those of the third model are a combination of those of the first two, so are its means,
and all variances are the same. -/
theorem C85_linear (sv : Solvers) (hx : sv.Exact) (P : ℕ) (Qs : List (NDArr ℝ)) (m₁ m₂ m₃ : LLGP) (k₁ k₂ k₃ : LLKernel) (h₁ : Asked sv m₁ P k₁ Qs) (h₂ : Asked sv m₂ P k₂ Qs)
    (h₃ : Asked sv m₃ P k₃ Qs) (e₁ e₂ e₃ : Env) (he₁ : e₁.Works) (he₂ : e₂.Works) (he₃ : e₃.Works) (hs : m₁.fk.Sound) (hn : ∀ ad ∈ m₁.fk.activeDims.map Prod.fst, ad.Nodup)
    (hfk₂ : m₂.fk = m₁.fk) (hfk₃ : m₃.fk = m₁.fk) (hm₂ : m₂.prediction = m₁.prediction) (hm₃ : m₃.prediction = m₁.prediction) (a₁ a₂ a₃ : LLGPArgs) (ha₁ : m₁.MadeFrom P a₁)
    (ha₂ : m₂.MadeFrom P a₂) (ha₃ : m₃.MadeFrom P a₃) (hv₂ : a₁.OtherValues a₂) (hv₃ : a₁.OtherValues a₃) (hnn : a₁.normalize = false) (s t : ℝ) (hc : LLGPArgs.Combines s t a₁ a₂ a₃) :
    (∃ x, m₁.gp.predict (m₁.rawPredict sv e₁) Qs = .error x ∧ m₂.gp.predict (m₂.rawPredict sv e₂) Qs = .error x ∧ m₃.gp.predict (m₃.rawPredict sv e₃) Qs = .error x) ∨
    ∃ r₁ r₂ r₃, m₁.gp.predict (m₁.rawPredict sv e₁) Qs = .ok r₁ ∧ m₂.gp.predict (m₂.rawPredict sv e₂) Qs = .ok r₂ ∧ m₃.gp.predict (m₃.rawPredict sv e₃) Qs = .ok r₃ ∧
      r₂.2 = r₁.2 ∧ r₃.2 = r₁.2 ∧ ∀ d < m₁.fk.D, ∀ i < (queryLens Qs).getD d 0,
        (r₃.1.getD d []).getD i 0 = s * (r₁.1.getD d []).getD i 0 + t * (r₂.1.getD d []).getD i 0 := by
  have R₂ := hv₂.same h₁.ok h₂.ok ha₁ ha₂ hfk₂ hm₂
  have R₃ := hv₃.same h₁.ok h₃.ok ha₁ ha₃ hfk₃ hm₃
  have hno₂ : a₂.normalize = false := by rw [hv₂]; exact hnn
  have hno₃ : a₃.normalize = false := by rw [hv₃]; exact hnn
  have hX₂ : a₂.Xs = a₁.Xs := by rw [hv₂]
  have hX₃ : a₃.Xs = a₁.Xs := by rw [hv₃]
  have sc : ∀ {a : LLGPArgs}, a.normalize = false → ∀ d, a.scaleOf d = 1 ∧ a.centreOf d = 0 := fun {a} h d => by
    unfold LLGPArgs.scaleOf LLGPArgs.centreOf
    rw [h]
    exact ⟨rfl, rfl⟩
  have hD : m₁.fk.D = a₁.Xs.length := by
    rw [← h₁.ok.data.inputs.len, (MadeFrom.scale ha₁).1]
    unfold padded
    rw [List.length_map]
  have nrm : ∀ {m : LLGP} {a : LLGPArgs}, m.MadeFrom P a → a.normalize = false → a.Xs = a₁.Xs → ∀ d < m₁.fk.D, normOf m.gp d = (1, 0) := fun {m a} ha h hX d hd => by
    rw [((MadeFrom.scale ha).2.1 d (by rw [hX, ← hD]; exact hd)).1, (sc h d).1, (sc h d).2]
  have ys : ∀ {m : LLGP} {a : LLGPArgs}, m.MadeFrom P a → a.normalize = false → ∀ d < a.Ys.length, m.gp.Ys.getD d [] = (a.Ys.getD d ⟨[], []⟩).data := fun {m a} ha h d hd => by
    rw [ys_getD ha hd, (sc h d).1, (sc h d).2]
    simp
  have lenY : ∀ {m : LLGP} {a : LLGPArgs}, m.MadeFrom P a → a.Ys.length = a.Xs.length := fun {m a} ha => by
    obtain ⟨_, _, h, -⟩ := ha
    exact h.data.len.symm
  have lenD : ∀ {m : LLGP} {a : LLGPArgs}, m.MadeFrom P a → ∀ d < a.Xs.length, (a.Ys.getD d ⟨[], []⟩).data.length = (queryLens a.Xs).getD d 0 := fun {m a} ha d hd => by
    obtain ⟨_, _, h, -⟩ := ha
    exact documented_lens h hd
  have flat : ∀ {m : LLGP} {a : LLGPArgs}, m.OK P → m.MadeFrom P a → a.normalize = false → a.Xs = a₁.Xs → ∀ d < a₁.Xs.length, ∀ i < (queryLens a₁.Xs).getD d 0,
      m.gp.Ys.flatten.getD (offset (m₁.gp.Xs.map Arr2.rows) d + i) 0 = (a.Ys.getD d ⟨[], []⟩).data.getD i 0 := fun {m a} hok ha h hX d hd i hi => by
    have hdY : d < a.Ys.length := by rw [lenY ha, hX]; exact hd
    have e1 : m₁.gp.Xs = m.gp.Xs := by rw [(MadeFrom.scale ha₁).1, (MadeFrom.scale ha).1, hX]
    have e2 : d < m.gp.Ys.length := by rw [(MadeFrom.scale ha).2.2, List.length_mapIdx]; exact hdY
    unfold offset
    rw [e1, ← hok.data.lens, flatten_getD _ _ e2 (by rw [ys ha h d hdY, lenD ha d (by rw [hX]; exact hd), hX]; exact hi), ys ha h d hdY]
  have hmean : ∀ d x, m₁.fk.skiMean m₁.axesOf m₁.fk.extraOf m₁.gp.Xs m₃.gp.Ys d x =
      s * m₁.fk.skiMean m₁.axesOf m₁.fk.extraOf m₁.gp.Xs m₁.gp.Ys d x + t * m₁.fk.skiMean m₁.axesOf m₁.fk.extraOf m₁.gp.Xs m₂.gp.Ys d x := fun d x => by
    refine skiMean_combines (fun r hr => ?_) d x
    have ho := ownerOf_lt _ _ hr
    rw [List.length_map, h₁.ok.data.inputs.len, hD] at ho
    obtain ⟨o1, o2⟩ := offset_owner hr
    have o3 : innerIdx (m₁.gp.Xs.map Arr2.rows) r < (queryLens a₁.Xs).getD (ownerOf (m₁.gp.Xs.map Arr2.rows) r) 0 := by
      have e : ∀ d, (m₁.gp.Xs.map Arr2.rows).getD d 0 = (queryLens a₁.Xs).getD d 0 := fun d => by rw [(MadeFrom.scale ha₁).1, padded_lens]
      rwa [e] at o2
    rw [← o1, flat h₁.ok ha₁ hnn rfl _ ho _ o3, flat h₂.ok ha₂ hno₂ hX₂ _ ho _ o3, flat h₃.ok ha₃ hno₃ hX₃ _ ho _ o3]
    exact hc _ (by rw [lenY ha₁]; exact ho) _ (by rw [lenD ha₁ _ ho]; exact o3)
  rcases predict_same hx R₂ h₁ h₂ hs hn he₁ he₂ with ⟨x, x1, x2⟩ | ⟨r₁, r₂, v, x1, x2, x3, x4⟩
  · rcases predict_same hx R₃ h₁ h₃ hs hn he₁ he₃ with ⟨y, y1, y2⟩ | ⟨_, _, _, y1, _⟩
    · rw [x1] at y1
      cases y1
      exact .inl ⟨x, x1, x2, y2⟩
    · rw [x1] at y1
      cases y1
  · rcases predict_same hx R₃ h₁ h₃ hs hn he₁ he₃ with ⟨y, y1, y2⟩ | ⟨r₁', r₃, w, y1, y2, y3, y4⟩
    · rw [x1] at y1
      cases y1
    · rw [x1] at y1
      cases y1
      have key : ∀ {r r' : Predicted} {f f' g : ℕ → ℕ → ℝ} {m m' : LLGP}, PredictedAs r m₁.fk.D (queryLens Qs) f (fun d i => g d i * (normOf m.gp d).1 ^ 2) →
          PredictedAs r' m₁.fk.D (queryLens Qs) f' (fun d i => g d i * (normOf m'.gp d).1 ^ 2) → (∀ d < m₁.fk.D, normOf m.gp d = (1, 0)) → (∀ d < m₁.fk.D, normOf m'.gp d = (1, 0)) →
          r'.2 = r.2 := fun {r r' f f' g m m'} q q' n n' => by
        refine list_ext_getD (d := []) (by rw [q.len.2, q'.len.2]) fun d hd => ?_
        rw [q'.len.2] at hd
        refine list_ext_getD (d := 0) (by rw [(q.mlen d hd).2, (q'.mlen d hd).2]) fun i hi => ?_
        rw [(q'.mlen d hd).2] at hi
        rw [(q.entry d hd i hi).2, (q'.entry d hd i hi).2, n d hd, n' d hd]
      have n1 := nrm ha₁ hnn rfl
      have n2 := nrm ha₂ hno₂ hX₂
      have n3 := nrm ha₃ hno₃ hX₃
      refine .inr ⟨r₁, r₂, r₃, x1, x2, y2, key x3 x4 n1 n2, key y3 y4 n1 n3, fun d hd i hi => ?_⟩
      rw [(x3.entry d hd i hi).1, (x4.entry d hd i hi).1, (y4.entry d hd i hi).1, n1 d hd, n2 d hd, n3 d hd, hmean]
      ring

theorem documented_with_values {a : LLGPArgs} {P : ℕ} {fk : FK} (h : a.Documented P fk) {Ys : List (NDArr ℝ)} (hd : Dataset a.Xs Ys P)
    (hY : ∀ Y ∈ Ys, Y.WF ∧ Y.data ≠ []) : LLGPArgs.Documented { a with normalize := false, Ys := Ys } P fk :=
  ⟨hd, h.arraysX, fun Y h => (hY Y h).1, fun Y h => (hY Y h).2, h.kernel, h.fresh, h.wf, h.some, h.outputs, h.valid, h.dims, h.mode, h.lo, h.hi, h.m, h.sizes, h.spread⟩

/-- a model without normalisation of two outputs observed at two points each -/
theorem exists_with_values (sv : Solvers) (hsv : sv.Fit) (mode : PredMode) : ∃ (a : LLGPArgs) (fk : FK), a.normalize = false ∧ fk.D = 2 ∧ ∀ y₀ y₁ y₂ y₃ : ℝ, y₀ ≠ y₁ → y₂ ≠ y₃ → ∃ m k,
    Asked sv m 2 k [⟨[1, 2], [0, 0]⟩, ⟨[2, 2], [0, 1, 1, 1]⟩] ∧ m.fk = fk ∧ fk.Sound ∧ (∀ ad ∈ fk.activeDims.map Prod.fst, ad.Nodup) ∧ m.prediction = mode ∧
      m.MadeFrom 2 { a with Ys := [⟨[2], [y₀, y₁]⟩, ⟨[2], [y₂, y₃]⟩] } ∧ ∃ g, fk.activeDims = [g] ∧ g.1 = List.range 2 := by
  obtain ⟨fk, ⟨h1, h2, h3, h4, -⟩, h⟩ := exists_documented_grid
  have hd := h mode false none (by simp)
  obtain ⟨m₀, -, -, -, i4, i5, -, i7, -, i6⟩ := model_of_documented hd (mode := mode) (metrics := false) rfl rfl h1 h2 h3 h4 rfl
  refine ⟨⟨[⟨[2, 2], [0, 0, 1, 1]⟩, ⟨[2, 2], [0, 1, 1, 0]⟩], [], false, .none, .none, gridChoice none, false, mode.name, 15, 1e-4, some fk⟩, m₀.fk, rfl, i5,
    fun y₀ y₁ y₂ y₃ hy hy' => ?_⟩
  have hsd : ∀ u v : ℝ, u ≠ v → sdOf [u, v] ≠ 0 := fun u v huv => by
    have hv : varOf [u, v] = (u - v) ^ 2 / 4 := by
      simp [varOf, meanOf, Finset.sum_range_succ]
      ring
    unfold sdOf
    rw [hv]
    have : 0 < (u - v) ^ 2 / 4 := by
      have := sub_ne_zero.2 huv
      positivity
    exact (Real.sqrt_pos.2 this).ne'
  have hd' := documented_with_values hd (Ys := [⟨[2], [y₀, y₁]⟩, ⟨[2], [y₂, y₃]⟩]) ⟨by simp, rfl, fun d hd => by
        have : d < 2 := hd
        interval_cases d
        · exact ⟨2, rfl, .inr rfl⟩
        · exact ⟨2, rfl, .inr rfl⟩, fun Y hY => .inr (by
        simp only [List.mem_cons, List.not_mem_nil, or_false] at hY
        rcases hY with rfl | rfl
        · exact hsd _ _ hy
        · exact hsd _ _ hy')⟩
    (fun Y hY => by
      simp only [List.mem_cons, List.not_mem_nil, or_false] at hY
      rcases hY with rfl | rfl <;> exact ⟨rfl, by simp⟩)
  obtain ⟨m, j1, j2, j3, j4, j5, -, -, -, j6⟩ := model_of_documented hd' (mode := mode) (metrics := false) rfl rfl h1 h2 h3 h4 rfl
  obtain ⟨k, c1, c2⟩ := exists_current hsv j2
  have hfk : m.fk = m₀.fk := by
    rw [i6] at j6
    exact (Except.ok.inj j6).symm
  refine ⟨{ m with kernel := some k }, k, ⟨hsv, c2, c1, ⟨by show _ = m.fk.D; rw [j5]; rfl, fun X hX => ?_⟩, fun X hX => ?_⟩, hfk, i4, ?_, j3, ⟨fk, m, hd', j1, rfl, rfl, rfl⟩, _, i7, rfl⟩
  · simp only [List.mem_cons, List.not_mem_nil, or_false] at hX
    rcases hX with rfl | rfl
    · exact ⟨1, .inr rfl⟩
    · exact ⟨2, .inr rfl⟩
  · simp only [List.mem_cons, List.not_mem_nil, or_false] at hX
    rcases hX with rfl | rfl <;> rfl
  · rw [i7]
    simp

/-- three data sets, the values of the last are twice those of the first minus those of the second -/
example (mode : PredMode) : ∃ (m₁ m₂ m₃ : LLGP) (r₁ r₂ r₃ : Predicted) (Qs : List (NDArr ℝ)), m₁.prediction = mode ∧ m₁.gp.predict (m₁.rawPredict exactSolvers quiet) Qs = .ok r₁ ∧
    m₂.gp.predict (m₂.rawPredict exactSolvers quiet) Qs = .ok r₂ ∧ m₃.gp.predict (m₃.rawPredict exactSolvers quiet) Qs = .ok r₃ ∧ r₃.2 = r₁.2 ∧
    (r₃.1.getD 1 []).getD 1 0 = 2 * (r₁.1.getD 1 []).getD 1 0 + (-1) * (r₂.1.getD 1 []).getD 1 0 := by
  obtain ⟨a, fk, hnn, hD, h⟩ := exists_with_values exactSolvers exactSolvers_fit mode
  obtain ⟨m₁, k₁, x1, x2, x3, x4, x5, x6, x7⟩ := h 1 3 5 7 (by norm_num) (by norm_num)
  obtain ⟨m₂, k₂, y1, y2, -, -, y5, y6, -⟩ := h 2 0 1 4 (by norm_num) (by norm_num)
  obtain ⟨m₃, k₃, z1, z2, -, -, z5, z6, -⟩ := h 0 6 9 10 (by norm_num) (by norm_num)
  subst x2
  rcases C85_linear exactSolvers (fun K n A tol hK _ => exactSolvers_exact hK tol) 2 _ m₁ m₂ m₃ k₁ k₂ k₃ x1 y1 z1 quiet quiet quiet quiet_calm.1 quiet_calm.1 quiet_calm.1 x3 x4 y2 z2
    (by rw [x5, y5]) (by rw [x5, z5]) _ _ _ x6 y6 z6 rfl rfl hnn 2 (-1) (fun d hd i hi => by
      have hd : d < 2 := hd
      interval_cases d
      · have hi : i < 2 := hi
        interval_cases i <;> norm_num
      · have hi : i < 2 := hi
        interval_cases i <;> norm_num) with ⟨x, e1, -⟩ | ⟨r₁, r₂, r₃, e1, e2, e3, e4, e5, e6⟩
  · exfalso
    obtain ⟨r, hr⟩ := (C43_returns exactSolvers m₁ 2 k₁ _ x1 quiet quiet_calm.1).2.2 ⟨x3.plain, by
      unfold LLGP.CanPredict
      rw [x5]
      cases mode with
      | onTheFly => simp [queryLens]
      | precompute => exact x7
      | exact => exact covMat_posDef x1.ok.ready.wf x1.ok.data.inputs.len x3.kernels x3.kappa x3.noise⟩
    rw [e1] at hr
    cases hr
  · exact ⟨m₁, m₂, m₃, r₁, r₂, r₃, _, x5, e1, e2, e3, e5, e6 1 (by rw [hD]; norm_num) 1 (by simp [queryLens])⟩

end Verif
