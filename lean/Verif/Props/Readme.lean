import Verif.Model.Readme
import Verif.Spec.Readme
import Verif.Props.BenchLmc
import Verif.Props.CalibrationDraws
import Verif.Props.Search

/-! C128: the snippet of README.md. -/

namespace Verif

/-- C128 is false of the snippet as it is written: with any number of kernels but one (it has one for each of two outputs) `FunctionalKernel` raises `ValueError`,
because the list of ranks is `[1]`, whatever the data are. -/
theorem C128_violated (rand : ℕ → ℕ → ℕ → ℝ) (nout : ℕ) (hn : nout ≠ 1) (xss yss : List (List ℝ)) (e : Env) :
    readmeSnippet rand nout [1] xss yss e = .error .valueError := by
  have h : fkNew rand (readmeKernelArgs nout [1] xss.length) = .error .valueError :=
    (fkNew_given rand _ (by simp [readmeKernelArgs]) (by simp [readmeKernelArgs])).2.2 fun d => by
      have := d.ranks
      simp only [readmeKernelArgs, given, Option.getD_some, List.length_map, List.length_range, List.length_singleton] at this
      exact hn this.symm
  unfold readmeSnippet
  rw [h]
  rfl

theorem snippet_model (rand : ℕ → ℕ → ℕ → ℝ) (nout : ℕ) (hn : 0 < nout) (ranks : List ℤ) (hr : ranks.length = nout) (hp : ∀ r ∈ ranks, 0 < r)
    (xss yss : List (List ℝ)) (h : ReadmeData xss yss) (e : Env) (he : e.Calm) (sv : Solvers) (hs : sv.Fit) :
    ∃ ops m, readmeSnippet rand nout ranks xss yss e = .ok ops ∧ ValidFrom [] ops ∧ results sv ops = [.ok (.model 0)] ∧ modelsAfter sv ops 0 = some m ∧
      m.fk.D = xss.length ∧ m.fk.Q = nout ∧ m.fk.Tunable ∧ m.fk.Sound ∧ ∀ q < m.fk.Q, (m.fk.kernels.getD q (.identity none)).aperiodic := by
  have hk : (readmeKernelArgs nout ranks xss.length).lmcKernels ≠ none := by simp [readmeKernelArgs]
  have hr' : (readmeKernelArgs nout ranks xss.length).lmcRanks ≠ none := by simp [readmeKernelArgs]
  have hdoc : (readmeKernelArgs nout ranks xss.length).Documented := by
    refine ⟨⟨xss.length, rfl, ?_⟩, ?_, ?_, ?_, ?_⟩
    · have := h.outputs
      omega
    · intro h0
      have := congrArg List.length h0
      simp [readmeKernelArgs, given] at this
      omega
    · simpa [readmeKernelArgs, given] using hr
    · simpa [readmeKernelArgs, given] using hp
    · left
      rfl
  have hrange : (readmeKernelArgs nout ranks xss.length).InRange := by
    intro D hD
    have hD' : (xss.length : ℤ) = D := by simpa [readmeKernelArgs] using hD
    subst hD'
    refine ⟨fun _ => ?_, fun d hd => ?_⟩
    · simp [readmeKernelArgs, given]
    · simp [readmeKernelArgs, given] at hd
  obtain ⟨fk, hfk⟩ := (C29_accepts_partial rand _ hk hr').2 ⟨hdoc, hrange⟩
  obtain ⟨c1, c2, c3, c4, c5⟩ := C29_contents rand _ fk hk hr' hfk
  have hD : fk.D = xss.length := by
    have : (some (xss.length : ℤ)) = some (fk.D : ℤ) := c2
    have := Option.some.inj this
    omega
  have hQ : fk.Q = nout := by simpa [readmeKernelArgs, given] using c3
  have hkern : ∀ k ∈ fk.kernels, k = .rbf 1 none := by
    intro k hk
    rw [c1] at hk
    simp only [readmeKernelArgs, given, Option.getD_some, Option.getD_none, List.append_nil, List.mem_map] at hk
    obtain ⟨_, -, rfl⟩ := hk
    rfl
  have hd : (readmeModelArgs xss yss fk).Documented 1 fk := by
    refine ⟨⟨?_, ?_, fun d hd => ?_, ?_⟩, ?_, ?_, ?_, rfl, c5, c4, ?_, ?_, ?_, ?_, ?_, trivial, trivial, trivial, ?_, ?_⟩
    · intro h0
      have := congrArg List.length h0
      simp [readmeModelArgs] at this
      have h1 := h.outputs
      rw [this] at h1
      exact absurd h1 (by simp)
    · simp [readmeModelArgs, h.both]
    · have hd' : d < xss.length := by simpa [readmeModelArgs] using hd
      have hy' : d < yss.length := h.both ▸ hd'
      have := h.pairs d hd'
      simp only [List.getD_eq_getElem _ _ hd', List.getD_eq_getElem _ _ hy'] at this
      refine ⟨(xss[d]).length, ?_, .inl ⟨?_, rfl⟩⟩
      · simp [readmeModelArgs, hy', this]
      · simp [readmeModelArgs, hd']
    · intro Y hY
      obtain ⟨y, hy, rfl⟩ := List.mem_map.1 hY
      exact .inr (h.vary y hy)
    · intro X hX
      obtain ⟨x, -, rfl⟩ := List.mem_map.1 hX
      simp [NDArr.WF]
    · intro X hX
      obtain ⟨x, -, rfl⟩ := List.mem_map.1 hX
      simp [NDArr.WF]
    · intro Y hY h0
      obtain ⟨y, hy, rfl⟩ := List.mem_map.1 hY
      have h0 : y = [] := h0
      subst h0
      exact h.vary _ hy (by simp [sdOf, varOf])
    · rw [hQ]
      exact hn
    · simp [readmeModelArgs, hD]
    · intro k hk
      rw [hkern k hk]
      exact one_pos
    · intro k hk
      rw [hkern k hk]
      exact ⟨.inl rfl, fun c hc => List.mem_range.1 hc⟩
    · simp [readmeModelArgs]
    · intro c _ v hv
      cases hv
    · intro c hc
      obtain ⟨x, hx, a, ha, x', hx', b, hb, hab⟩ := h.differ
      obtain ⟨i, hi, rfl⟩ := List.mem_iff_getElem.1 ha
      obtain ⟨j, hj, rfl⟩ := List.mem_iff_getElem.1 hb
      obtain rfl : c = 0 := by omega
      refine ⟨⟨x.length, 1, x⟩, ?_, i, hi, .inl ⟨⟨x'.length, 1, x'⟩, ?_, j, hj, ?_⟩⟩
      · simp only [padded, readmeModelArgs, List.map_map, List.mem_map]
        exact ⟨x, hx, rfl⟩
      · simp only [padded, readmeModelArgs, List.map_map, List.mem_map]
        exact ⟨x', hx', rfl⟩
      · simpa [Arr2.get, List.getD_eq_getElem, hi, hj] using hab
  obtain ⟨m₀, fk', i1, i2, i3, i4, i5⟩ := llgpInit_documented hd one_pos
  have hready : fk'.Ready 1 := i4 ▸ i2.ready
  obtain ⟨hso, ht, hap⟩ := new_sound rand _ hk hr' fk fk' hfk 1 i3 hready (by
    intro k hk
    rw [hkern k (c1 ▸ hk)]
    exact ⟨trivial, trivial⟩)
  have hpd : (fk'.covMat (padded 1 (readmeModelArgs xss yss fk).Xs)).PosDef := by
    have := sound_posDef i2 (i4 ▸ hso)
    rw [i4, i5] at this
    exact this
  obtain ⟨fk'', g1, g2⟩ := setInputDim_fresh fk 1 c5
  rw [i3] at g1
  cases g1
  obtain ⟨m, k, ca, n1, n2, n3, n4, n5⟩ := new_completes hs one_pos hd (by norm_num [readmeModelArgs]) i3 he (fun _ => hpd) true World.start
  refine ⟨[.new (readmeModelArgs xss yss fk) e], m, ?_, ⟨1, fk, fk', one_pos, hd, by norm_num [readmeModelArgs], i3, hso, he, trivial⟩, ?_, ?_, ?_, ?_, ?_, ?_, ?_⟩
  · unfold readmeSnippet
    rw [hfk]
    rfl
  · show [(execOp true sv (.new (readmeModelArgs xss yss fk) e) World.start).1] = _
    rw [n1]
    rfl
  · show (execOp true sv (.new (readmeModelArgs xss yss fk) e) World.start).2.heap 0 = _
    rw [n1]
    rfl
  · rw [n3, ← hD]
    have := congrArg FK.D g2.same
    exact this
  · rw [n3, ← hQ]
    exact g2.klen
  · rw [n3]
    exact ht
  · rw [n3]
    exact hso
  · rw [n3]
    exact hap

/-- C128, the part that holds: with one positive rank for every kernel (in particular with one kernel and the list `[1]`), and any data, the snippet makes a
functional kernel with these kernels and a model, on which all parameters can be tuned. Missing: the list of ranks in the snippet, with which the claim
is false (`C128_violated`). -/
theorem C128_snippet_partial (rand : ℕ → ℕ → ℕ → ℝ) (nout : ℕ) (hn : 0 < nout) (ranks : List ℤ) (hr : ranks.length = nout) (hp : ∀ r ∈ ranks, 0 < r)
    (xss yss : List (List ℝ)) (h : ReadmeData xss yss) (e : Env) (he : e.Calm) (sv : Solvers) (hs : sv.Fit) :
    ∃ ops m, readmeSnippet rand nout ranks xss yss e = .ok ops ∧ ValidFrom [] ops ∧ results sv ops = [.ok (.model 0)] ∧ modelsAfter sv ops 0 = some m ∧
      m.fk.D = xss.length ∧ m.fk.Q = nout ∧ m.fk.Tunable ∧ m.fk.Sound := by
  obtain ⟨ops, m, h1, h2, h3, h4, h5, h6, h7, h8, -⟩ := snippet_model rand nout hn ranks hr hp xss yss h e he sv hs
  exact ⟨ops, m, h1, h2, h3, h4, h5, h6, h7, h8⟩

/-- C128, the next line of the snippet: `optimize()` on this model returns, whatever the optimiser asks for, and leaves the model with the parameters that the
optimiser returns. Missing, as before: the list of ranks in the snippet. -/
theorem C128_optimize_partial (rand : ℕ → ℕ → ℕ → ℝ) (nout : ℕ) (hn : 0 < nout) (ranks : List ℤ) (hr : ranks.length = nout) (hp : ∀ r ∈ ranks, 0 < r)
    (xss yss : List (List ℝ)) (h : ReadmeData xss yss) (e : Env) (he : e.Calm) (sv : Solvers) (hs : sv.Fit) (es : ℕ → Env) (hes : ∀ k, (es k).Calm) (c : Search) (hk : c.Keeps) (n : ℕ) :
    ∃ ops m m' vs, readmeSnippet rand nout ranks xss yss e = .ok ops ∧ modelsAfter sv ops 0 = some m ∧
      (searchM true sv es 0 c n (history true sv ops World.start).2).1 = .ok () ∧ (searchM true sv es 0 c n (history true sv ops World.start).2).2.heap 0 = some m' ∧
      m'.fk = m.fk.setOptimizerArray (c.point m.fk.optimizerArray vs) ∧ vs.length ≤ n ∧ (vs.length = n ∨ c.next m.fk.optimizerArray vs = none) := by
  obtain ⟨ops, m, h1, h2, h3, h4, h5, h6, h7, h8, h9⟩ := snippet_model rand nout hn ranks hr hp xss yss h e he sv hs
  obtain ⟨ys, vs, g1, g2, g3, g4, g5, m', g6, g7⟩ := C129_search sv hs ops h2 0 m h4 h7 es hes c hk (fun _ y _ => periods_ok h9 y) n
  refine ⟨ops, m, m', vs, h1, h4, by rw [g1], ?_, g7, by rw [g3.1]; exact g4, by rw [g3.1]; exact g5⟩
  rw [g1]
  exact g6

/-- data of two outputs with two inputs each: the kernels of the snippet with its ranks are refused, with a rank each they are not -/
example (rand : ℕ → ℕ → ℕ → ℝ) : ReadmeData [[0, 1], [2, 3]] [[0, 1], [5, 7]] ∧
    readmeSnippet rand 2 [1] [[0, 1], [2, 3]] [[0, 1], [5, 7]] quiet = .error .valueError ∧
    ∃ ops m, readmeSnippet rand 2 [1, 1] [[0, 1], [2, 3]] [[0, 1], [5, 7]] quiet = .ok ops ∧ results exactSolvers ops = [.ok (.model 0)] ∧
      modelsAfter exactSolvers ops 0 = some m ∧ m.fk.Q = 2 := by
  have hd : ReadmeData [[0, 1], [2, 3]] [[0, 1], [5, 7]] := by
    refine ⟨by simp, rfl, fun d hd => ?_, fun y hy => ?_, ⟨[0, 1], by simp, 0, by simp, [0, 1], by simp, 1, by simp, by norm_num⟩⟩
    · have hd : d < 2 := hd
      interval_cases d <;> rfl
    · simp only [List.mem_cons, List.not_mem_nil, or_false] at hy
      rcases hy with rfl | rfl <;> exact sd_pair (by norm_num)
  obtain ⟨ops, m, h1, -, h3, h4, -, h6, -⟩ := C128_snippet_partial rand 2 (by norm_num) [1, 1] rfl (by simp) _ _ hd quiet quiet_calm exactSolvers exactSolvers_fit
  exact ⟨hd, C128_violated rand 2 (by norm_num) _ _ _, ops, m, h1, h3, h4, h6⟩

end Verif
