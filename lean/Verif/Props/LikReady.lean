import Verif.Props.Grid2
import Verif.Props.Likelihood

/-! The hypotheses of C35-C37 are met by every constructed kernel; concrete cases. -/

namespace Verif

theorem setActiveDims_facts (k : Kern) (ad : Option (List ℕ)) : (k.setActiveDims ad).activeDims = ad ∧ (k.Valid → (k.setActiveDims ad).Valid) ∧
    (k.setActiveDims ad).doc = k.doc ∧ (k.aperiodic → (k.setActiveDims ad).aperiodic) := by
  cases k <;> simp [Kern.setActiveDims, Kern.activeDims, Kern.Valid, Kern.aperiodic] <;> funext r <;> simp [Kern.doc]

/-- After `set_input_dim(P)` a constructed kernel is ready for inputs of dimension `P`. -/
theorem ready_of_setInputDim (fk fk' : FK) (hf : fk.Fresh) (hw : fk.WF) (P : ℕ) (hP : 0 < P) (h : fk.setInputDim P = .ok fk')
    (hQ : 0 < fk.Q) (hv : ∀ k ∈ fk.kernels, k.Valid) (hd : ∀ k ∈ fk.kernels, ∀ c ∈ dimsRead P k, c < P) : fk'.Ready P := by
  obtain ⟨fk'', h', g⟩ := setInputDim_fresh fk P hf
  rw [h] at h'; cases h'
  have kmem : ∀ k ∈ fk'.kernels, ∃ i, i < fk.kernels.length ∧ k = (fk.kernels.getD i (.identity none)).setActiveDims
      (some (dimsRead P (fk.kernels.getD i (.identity none)))) := by
    intro k hk
    obtain ⟨i, hi, rfl⟩ := List.getElem_of_mem hk
    have hi' : i < fk.kernels.length := by rw [← g.klen]; exact hi
    refine ⟨i, hi', ?_⟩
    rw [← g.kern i hi', List.getD_eq_getElem _ _ hi]
  have gm : ∀ i < fk.kernels.length, fk.kernels.getD i (.identity none) ∈ fk.kernels := fun i hi => by
    rw [List.getD_eq_getElem _ _ hi]; exact List.getElem_mem _
  refine ⟨wf_of_setInputDim fk fk' hf hw P h, by rw [show fk'.Q = fk.Q from g.klen]; exact hQ, by rw [g.same], hP, ?_, ?_, ?_⟩
  · intro k hk
    obtain ⟨i, hi, rfl⟩ := kmem k hk
    exact (setActiveDims_facts _ _).2.1 (hv _ (gm i hi))
  · intro k hk
    obtain ⟨i, hi, rfl⟩ := kmem k hk
    refine ⟨_, (setActiveDims_facts _ _).1, List.mem_map.2 ⟨(_, fk.groupOf P _), (g.mem _ _).2 ⟨rfl, ?_⟩, rfl⟩⟩
    apply List.ne_nil_of_mem (a := i)
    unfold FK.groupOf
    rw [List.mem_filter, List.mem_range]
    exact ⟨hi, decide_eq_true rfl⟩
  · intro ad had c hc
    obtain ⟨x, hx, rfl⟩ := List.mem_map.1 had
    obtain ⟨h1, h2⟩ := (g.mem x.1 x.2).1 hx
    obtain ⟨i, hi⟩ := List.exists_mem_of_ne_nil _ h2
    rw [h1] at hi
    unfold FK.groupOf at hi
    rw [List.mem_filter, List.mem_range] at hi
    have := hi.2
    simp only [decide_eq_true_eq] at this
    exact hd _ (gm i hi.1) c (by rw [this]; exact hc)

/-- a model with two outputs, an LMC kernel of rank two and an independent GP, on a line -/
theorem exists_ready : ∃ fk : FK, fk.Ready 1 ∧ fk.D = 2 ∧ fk.Q = 2 ∧ (∀ q < fk.Q, (fk.kernels.getD q (.identity none)).aperiodic) ∧
    (∀ q < fk.Q, ∀ a < fk.D, 0 ≤ (fk.coregDiags.getD q []).getD a 0) ∧ (∀ a < fk.D, 0 < fk.noise.getD a 0) ∧
    (fk.coregVecs.getD 0 ⟨0, 0, []⟩).get 1 1 = 2 := by
  have hdoc : (⟨some 2, some [.rbf 1 none], some [2], none, some [.scaled (.matern32 1 none) 1 none], none⟩ : FKArgs).Documented :=
    ⟨⟨2, rfl, by norm_num⟩, by simp [given], rfl, by simp [given], .inl rfl⟩
  have hin : (⟨some 2, some [.rbf 1 none], some [2], none, some [.scaled (.matern32 1 none) 1 none], none⟩ : FKArgs).InRange :=
    fun D hD => by cases hD; simp [given]
  obtain ⟨D, hD, h⟩ := (fkNew_given (fun q i j => i + j) _ (by simp) (by simp)).1 hdoc hin
  have hD2 : D = 2 := by simp at hD; omega
  subst hD2
  obtain ⟨hk, -, hQ, hw, hf⟩ := C29_contents _ _ _ (by simp) (by simp) h
  obtain ⟨fk', h', g⟩ := setInputDim_fresh _ 1 hf
  have hr := ready_of_setInputDim _ fk' hf hw 1 one_pos h' (by simp [FK.Q, given]) ?_ ?_
  · refine ⟨fk', hr, by rw [g.same], by rw [show fk'.Q = _ from g.klen]; rfl, ?_, ?_, ?_, ?_⟩
    · intro q hq
      have hq' : q < 2 := by rw [show fk'.Q = _ from g.klen] at hq; exact hq
      rw [g.kern q hq']
      apply (setActiveDims_facts _ _).2.2.2
      have : q = 0 ∨ q = 1 := by omega
      rcases this with rfl | rfl <;> simp [given, Kern.aperiodic]
    · rw [g.same]
      intro q hq a ha
      have hq' : q < 2 := by rw [← show fk'.Q = 2 from g.klen]; exact hq
      have ha' : a < 2 := ha
      have hq2 : q = 0 ∨ q = 1 := by omega
      have ha2 : a = 0 ∨ a = 1 := by omega
      rcases hq2 with rfl | rfl <;> rcases ha2 with rfl | rfl <;> simp [given, FKArgs.idx, indexOrRange, vmk, List.range_succ] <;>
        split_ifs <;> norm_num
    · rw [g.same]
      intro a ha
      show 0 < (vmk 2 fun _ => (0.1 : ℝ)).getD a 0
      rw [vmk_getD_lt (by exact ha)]
      norm_num
    · rw [g.same]
      simp only [given, initAq]
      rw [vmk_getD_lt (by norm_num)]
      norm_num
      rw [Arr2.of_get (by norm_num) (by norm_num)]
      norm_num
  · intro k hk
    simp only [given, Option.getD, List.append_nil, List.cons_append, List.nil_append, List.mem_cons, List.not_mem_nil, or_false] at hk
    rcases hk with rfl | rfl <;> simp [Kern.Valid]
  · intro k hk c hc
    simp only [given, Option.getD, List.append_nil, List.cons_append, List.nil_append, List.mem_cons, List.not_mem_nil, or_false] at hk
    rcases hk with rfl | rfl <;> simpa [dimsRead, Kern.activeDims] using hc

/-- inputs for two outputs on a line, two points for the first output and none for the second -/
theorem example_inputs {D : ℕ} (hD : D = 2) : InputsOK D 1 [Arr2.of 2 1 fun i _ => (i : ℝ), Arr2.of 0 1 fun _ _ => 0] := by
  refine ⟨hD.symm, ?_, ?_⟩ <;> intro X hX <;> simp only [List.mem_cons, List.not_mem_nil, or_false] at hX <;> rcases hX with rfl | rfl
  · exact Arr2.of_wf _ _ _
  · exact Arr2.of_wf _ _ _
  · rfl
  · rfl

theorem example_data {D : ℕ} (hD : D = 2) : DataOK D 1 [Arr2.of 2 1 fun i _ => (i : ℝ), Arr2.of 1 1 fun _ _ => 0] [[1, 2], [3]] := by
  refine ⟨⟨hD.symm, ?_, ?_⟩, rfl⟩ <;> intro X hX <;> simp only [List.mem_cons, List.not_mem_nil, or_false] at hX <;> rcases hX with rfl | rfl
  · exact Arr2.of_wf _ _ _
  · exact Arr2.of_wf _ _ _
  · rfl
  · rfl

/-- C35 and C36 apply to a model with correlated outputs -/
example : ∃ fk : FK, ∃ Xs Ys l, fk.Ready 1 ∧ DataOK fk.D 1 Xs Ys ∧ exactLMCNew fk Xs Ys = .ok l ∧ l.K.rows = 3 := by
  obtain ⟨fk, h, hD, hQ, ha, hκ, hn, -⟩ := exists_ready
  have hd := example_data hD
  obtain ⟨l, h1, -, -⟩ := C36_positive_definite fk 1 h _ _ hd (fun q hq => C36_kernels_psd fk 1 h q hq (.inl (ha q hq))) hκ hn
  exact ⟨fk, _, _, l, h, hd, h1, (C35_exact_K fk 1 h _ _ hd l h1).1⟩

example : ∃ fk : FK, ∃ Xs Zs, fk.Ready 1 ∧ InputsOK fk.D 1 Xs ∧ InputsOK fk.D 1 Zs ∧ Xs ≠ Zs := by
  obtain ⟨fk, h, hD, -⟩ := exists_ready
  refine ⟨fk, _, _, h, example_inputs hD, (example_data hD).inputs, ?_⟩
  intro e
  simp [Arr2.of] at e

end Verif
