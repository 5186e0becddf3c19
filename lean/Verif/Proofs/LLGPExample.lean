import Verif.Proofs.LLGPNew
import Verif.Proofs.LLGPRaw

/-! A documented constructor call and the model it makes, used to show that hypotheses about models can be met. -/

namespace Verif

/-- the name of a prediction method -/
def PredMode.name : PredMode → String
  | .onTheFly => "on-the-fly"
  | .precompute => "precompute"
  | .exact => "exact"

theorem init_fields {a : LLGPArgs} {m : LLGP} (h : llgpInit a = .ok m) :
    predMode a.prediction = some m.prediction ∧ m.kernel = none ∧ m.metrics = (if a.metrics then some Metrics.new else none) ∧ m.nIt = a.traceIterations ∧
      m.tol = a.tolerance ∧ multiGPNew a.Xs a.Ys a.normalize = .ok m.gp := by
  unfold llgpInit at h
  rw [bind_ok] at h
  obtain ⟨gp, h1, h⟩ := h
  cases hf : a.functionalKernel with
  | none => rw [hf] at h; cases h
  | some fk =>
    cases hp : predMode a.prediction with
    | none => rw [hf, hp] at h; cases h
    | some mode =>
      rw [hf, hp] at h
      simp only [bind_ok, pure_ok] at h
      obtain ⟨fk', -, grids, -, rfl⟩ := h
      exact ⟨rfl, rfl, rfl, rfl, rfl, h1⟩

/-- grids of the default size or with `n` cells in each of two dimensions -/
def gridChoice : Option ℕ → GridOpt
  | none => .none
  | some n => .vec [(n : ℝ), n]

/-- two outputs with two-dimensional inputs, an RBF kernel of rank two for both and a Matérn GP for each -/
theorem exists_documented_from (rand : ℕ → ℕ → ℕ → ℝ) : ∃ fk : FK, (fk.kernels = [.rbf 1 none, .scaled (.matern32 1 none) 1 none] ∧ (∀ q < fk.Q, ∀ a < fk.D, 0 ≤ (fk.coregDiags.getD q []).getD a 0) ∧
    (∀ a < fk.D, 0 < fk.noise.getD a 0) ∧ fk.D = 2 ∧ fk.numLmcTotal = 1 ∧ fk.linkedVecs = fk.numLmcTotal + fk.numSlfmTotal ∧ fk.linkedDiags = fk.numLmcTotal) ∧ ((∀ r, rand 0 r 0 * rand 0 r 1 = 0) → ∀ q < fk.Q, fk.B q 0 1 = 0 ∧ fk.B q 1 0 = 0) ∧
    ∀ (mode : PredMode) (metrics : Bool) (o : Option ℕ), o ≠ some 0 →
    LLGPArgs.Documented ⟨[⟨[2, 2], [0, 0, 1, 1]⟩, ⟨[2, 2], [0, 1, 1, 0]⟩], [⟨[2], [1, 3]⟩, ⟨[2], [5, 7]⟩], true, .none, .none, gridChoice o, metrics, mode.name, 15, 1e-4, some fk⟩ 2 fk := by
  have hdoc : (⟨some 2, some [.rbf 1 none], some [2], none, some [.scaled (.matern32 1 none) 1 none], none⟩ : FKArgs).Documented :=
    ⟨⟨2, rfl, by norm_num⟩, by simp [given], rfl, by simp [given], .inl rfl⟩
  have hin : (⟨some 2, some [.rbf 1 none], some [2], none, some [.scaled (.matern32 1 none) 1 none], none⟩ : FKArgs).InRange :=
    fun D hD => by cases hD; simp [given]
  obtain ⟨D, hD, h⟩ := (fkNew_given rand _ (by simp) (by simp)).1 hdoc hin
  have hD2 : D = 2 := by simp at hD; omega
  subst hD2
  obtain ⟨hk, -, hQ, hw, hf⟩ := C29_contents _ _ _ (by simp) (by simp) h
  refine ⟨_, ⟨hk, ?_, ?_, rfl, rfl, rfl, rfl⟩, ?_, fun mode metrics o ho => ⟨example_dataset, ?_, ?_, ?_, rfl, hf, hw, ?_, rfl, ?_, ?_, ?_, trivial, trivial, ?_, ?_, ?_⟩⟩
  · intro q hq a ha
    have hq' : q < 2 := hq
    have ha' : a < 2 := ha
    have hq2 : q = 0 ∨ q = 1 := by omega
    have ha2 : a = 0 ∨ a = 1 := by omega
    rcases hq2 with rfl | rfl <;> rcases ha2 with rfl | rfl <;> simp [given, FKArgs.idx, indexOrRange, vmk, List.range_succ] <;>
      split_ifs <;> norm_num
  · intro a ha
    show 0 < (vmk 2 fun _ => (0.1 : ℝ)).getD a 0
    rw [vmk_getD_lt (by exact ha)]
    norm_num
  · intro h0 q hq
    have hq' : q < 2 := hq
    have h0' : ∀ r, rand 0 r 1 * rand 0 r 0 = 0 := fun r => by rw [mul_comm]; exact h0 r
    interval_cases q
    · simp [FK.B, initAq, h0, h0', given, Arr2.of, Arr2.get, vmk, List.range_succ, Finset.sum_range_succ]
    · simp [FK.B, initAq, given, Arr2.zeros, Arr2.of, Arr2.get, vmk, List.range_succ]
  · intro X hX
    simp only [List.mem_cons, List.not_mem_nil, or_false] at hX
    rcases hX with rfl | rfl <;> rfl
  · intro X hX
    simp only [List.mem_cons, List.not_mem_nil, or_false] at hX
    rcases hX with rfl | rfl <;> rfl
  · intro X hX
    simp only [List.mem_cons, List.not_mem_nil, or_false] at hX
    rcases hX with rfl | rfl <;> simp
  · simp [FK.Q, given]
  · intro k hk
    simp only [given, Option.getD, List.append_nil, List.cons_append, List.nil_append, List.mem_cons, List.not_mem_nil, or_false] at hk
    rcases hk with rfl | rfl <;> simp [Kern.Valid]
  · intro k hk
    simp only [given, Option.getD, List.append_nil, List.cons_append, List.nil_append, List.mem_cons, List.not_mem_nil, or_false] at hk
    rcases hk with rfl | rfl <;> simp [dimsRead, Kern.activeDims]
  · cases mode <;> simp [PredMode.name]
  · cases o with
    | none => trivial
    | some n => rfl
  · intro c hc v hv
    cases o with
    | none => cases hv
    | some n =>
      refine ⟨n, Nat.pos_of_ne_zero fun h => ho (by rw [h]), ?_⟩
      have hv := (Option.some.inj hv).symm
      interval_cases c <;> exact hv
  · intro c hc
    refine ⟨⟨2, 2, [0, 0, 1, 1]⟩, by simp [padded], 0, by norm_num, .inl ⟨⟨2, 2, [0, 0, 1, 1]⟩, by simp [padded], 1, by norm_num, ?_⟩⟩
    interval_cases c <;> norm_num [Arr2.get]

theorem exists_documented_grid : ∃ fk : FK, (fk.kernels = [.rbf 1 none, .scaled (.matern32 1 none) 1 none] ∧ (∀ q < fk.Q, ∀ a < fk.D, 0 ≤ (fk.coregDiags.getD q []).getD a 0) ∧
    (∀ a < fk.D, 0 < fk.noise.getD a 0) ∧ fk.D = 2 ∧ fk.numLmcTotal = 1 ∧ fk.linkedVecs = fk.numLmcTotal + fk.numSlfmTotal ∧ fk.linkedDiags = fk.numLmcTotal) ∧
    ∀ (mode : PredMode) (metrics : Bool) (o : Option ℕ), o ≠ some 0 →
    LLGPArgs.Documented ⟨[⟨[2, 2], [0, 0, 1, 1]⟩, ⟨[2, 2], [0, 1, 1, 0]⟩], [⟨[2], [1, 3]⟩, ⟨[2], [5, 7]⟩], true, .none, .none, gridChoice o, metrics, mode.name, 15, 1e-4, some fk⟩ 2 fk := by
  obtain ⟨fk, h1, -, h2⟩ := exists_documented_from fun _ i j => i + j
  exact ⟨fk, h1, h2⟩

/-- one such call -/
theorem exists_documented (mode : PredMode) (metrics : Bool) : ∃ (a : LLGPArgs) (fk : FK), a.Documented 2 fk ∧ a.prediction = mode.name ∧ a.metrics = metrics ∧
    fk.kernels = [.rbf 1 none, .scaled (.matern32 1 none) 1 none] ∧ (∀ q < fk.Q, ∀ a < fk.D, 0 ≤ (fk.coregDiags.getD q []).getD a 0) ∧
    (∀ a < fk.D, 0 < fk.noise.getD a 0) ∧ fk.D = 2 ∧ a.Xs = [⟨[2, 2], [0, 0, 1, 1]⟩, ⟨[2, 2], [0, 1, 1, 0]⟩] ∧ a.traceIterations = 15 := by
  obtain ⟨fk, ⟨h1, h2, h3, h4, -⟩, h⟩ := exists_documented_grid
  exact ⟨_, fk, h mode metrics none (by simp), rfl, rfl, h1, h2, h3, h4, rfl, rfl⟩

/-- properties of any model made by such a call -/
theorem model_of_documented {a : LLGPArgs} {fk : FK} {mode : PredMode} {metrics : Bool} (hd : a.Documented 2 fk) (hmode : a.prediction = mode.name) (hmet : a.metrics = metrics)
    (hk : fk.kernels = [.rbf 1 none, .scaled (.matern32 1 none) 1 none]) (hκ : ∀ q < fk.Q, ∀ a < fk.D, 0 ≤ (fk.coregDiags.getD q []).getD a 0)
    (hn : ∀ a < fk.D, 0 < fk.noise.getD a 0) (hD : fk.D = 2) (htr : a.traceIterations = 15) :
    ∃ m : LLGP, llgpInit a = .ok m ∧ m.OK 2 ∧ m.prediction = mode ∧ m.fk.Sound ∧
    m.fk.D = 2 ∧ (m.metrics = (if metrics then some Metrics.new else none) ∧ a.prediction = mode.name ∧ a.metrics = metrics ∧ 0 < a.traceIterations) ∧
    (m.fk.activeDims = [([0, 1], [0, 1])] ∧ m.fk.numLmcTotal = fk.numLmcTotal ∧ fk.setInputDim 2 = .ok m.fk) := by
  obtain ⟨m, fk', h1, h2, h3, h4, h5⟩ := llgpInit_documented hd (by norm_num)
  obtain ⟨f1, f2, f3, -⟩ := init_fields h1
  obtain ⟨fk'', g1, g2⟩ := setInputDim_fresh fk 2 hd.fresh
  rw [h3] at g1
  cases g1
  have hQ : m.fk.Q = 2 := by rw [h4]; show fk'.kernels.length = 2; rw [g2.klen, hk]; rfl
  have hker : ∀ q < m.fk.Q, (m.fk.kernels.getD q (.identity none)).aperiodic ∧ (m.fk.kernels.getD q (.identity none)).noIdentity := by
    intro q hq
    rw [hQ] at hq
    rw [h4, g2.kern q (by rw [hk]; exact hq), hk]
    interval_cases q <;> exact ⟨trivial, trivial⟩
  refine ⟨m, h1, h2, ?_, ⟨fun q hq => C36_kernels_psd m.fk 2 h2.ready q hq (.inl (hker q hq).1), fun k hk => ?_, ?_, ?_⟩, ?_, ?_, ?_, ?_, ?_⟩
  · rw [hmode] at f1
    cases mode <;> simp [PredMode.name, predMode] at f1 <;> exact f1.symm
  · obtain ⟨q, hq, rfl⟩ := mem_getD hk (.identity none)
    exact (hker q hq).2
  · intro q hq b hb
    rw [h4, g2.same] at hb ⊢
    exact hκ q (by rw [hQ] at hq; unfold FK.Q; rw [hk]; exact hq) b hb
  · intro b hb
    rw [h4, g2.same] at hb ⊢
    exact hn b hb
  · rw [h4, g2.same]; exact hD
  · exact ⟨by rw [f3, hmet], hmode, hmet, by rw [htr]; norm_num⟩
  · have hgr : ∀ key, fk.groupOf 2 key = if key = [0, 1] then [0, 1] else [] := by
      intro key
      unfold FK.groupOf
      rw [hk]
      by_cases e : key = [0, 1]
      · subst e
        rfl
      · rw [if_neg e]
        simp [List.range_succ, dimsRead, Kern.activeDims, Ne.symm e]
    have hmem : ([0, 1], [0, 1]) ∈ m.fk.activeDims := by
      rw [h4, g2.mem, hgr]
      simp
    have hall : ∀ g ∈ m.fk.activeDims, g = ([0, 1], [0, 1]) := by
      intro g hg
      rw [h4] at hg
      have := (g2.mem g.1 g.2).1 hg
      rw [hgr] at this
      by_cases e : g.1 = [0, 1]
      · rw [if_pos e] at this
        exact Prod.ext e this.1
      · rw [if_neg e] at this
        exact absurd this.1 this.2
    have hnd := g2.nodup
    rw [← h4] at hnd
    cases hA : m.fk.activeDims with
    | nil => rw [hA] at hmem; simp at hmem
    | cons g l =>
      rw [hA] at hall hnd
      have hg := hall g (by simp)
      rw [hg]
      cases l with
      | nil => rfl
      | cons g' l =>
        have hg' := hall g' (by simp)
        rw [hg, hg'] at hnd
        simp at hnd
  · rw [h4, g2.same]
  · rw [h4]
    exact h3

/-- the model made by that call -/
theorem exists_model (mode : PredMode) (metrics : Bool) : ∃ (a : LLGPArgs) (fk : FK) (m : LLGP), a.Documented 2 fk ∧ llgpInit a = .ok m ∧ m.OK 2 ∧ m.prediction = mode ∧ m.fk.Sound ∧
    m.fk.D = 2 ∧ (m.metrics = (if metrics then some Metrics.new else none) ∧ a.prediction = mode.name ∧ a.metrics = metrics ∧ 0 < a.traceIterations) ∧ (∃ g, m.fk.activeDims = [g] ∧ g.1 = List.range 2) := by
  obtain ⟨a, fk, hd, hmode, hmet, hk, hκ, hn, hD, -, htr⟩ := exists_documented mode metrics
  obtain ⟨m, h1, h2, h3, h4, h5, h6, h7, -⟩ := model_of_documented hd hmode hmet hk hκ hn hD htr
  exact ⟨a, fk, m, hd, h1, h2, h3, h4, h5, h6, _, h7, rfl⟩

/-- every model can be brought up to date -/
theorem exists_current {sv : Solvers} (hs : sv.Fit) {m : LLGP} {P : ℕ} (h : m.OK P) : ∃ k, LLGP.Current sv { m with kernel := some k } k ∧ LLGP.OK { m with kernel := some k } P := by
  obtain ⟨K, gks, h1, h2, h3, h4, -⟩ := genGridKernel_model h
  obtain ⟨sol, hsol⟩ := exists_solvesTo hs (⟨h4, h2, h3⟩ : SquareOp K m.n _) m.tol
  obtain ⟨-, lg, s2⟩ := hsol m.y (y_length h)
  refine ⟨⟨⟨m.fk, m.y, m.lens, [], K, ⟨sol m.y, [], [], 0⟩, [], m.interp⟩, gks⟩, ⟨rfl, h1, lg, s2⟩, ⟨h.gp, h.inputDim, h.outputDim, h.ready, h.groups, h.data, h.filled, h.keys, h.grid⟩⟩

end Verif
