import Verif.Model.BenchRun
import Verif.Spec.BenchRun
import Verif.Proofs.Setters
import Verif.Proofs.LLGPNew
import Verif.Props.Bench
import Verif.Props.FK

/-! The set-up of the benchmark program. -/

namespace Verif

theorem assignAll_wf : ∀ (ps : List (Target × NDArr ℝ)) (fk fk' : FK), (∀ p ∈ ps, fk.has p.1 ∧ BroadcastsTo p.2.shape (fk.shapeAt p.1)) →
    fk.assignAll ps = (.ok (), fk') → ∀ q, (fk.coregVecs.getD q ⟨0, 0, []⟩).WF → (fk'.coregVecs.getD q ⟨0, 0, []⟩).WF
  | [], fk, fk', _, h, q, hq => by cases h; exact hq
  | p :: ps, fk, fk', h, he, q, hq => by
    obtain ⟨h1, h2⟩ := h p (by simp)
    obtain ⟨fk₁, g1, g2, -, g4⟩ := assign_ok h1 h2
    unfold FK.assignAll at he
    rw [g1] at he
    exact assignAll_wf ps fk₁ fk' (fun p' hp' => ⟨(g2.has _).2 (h p' (by simp [hp'])).1, by rw [g2.2.2.2]; exact (h p' (by simp [hp'])).2⟩) he q (g4 q hq)

theorem applyAll_wf : ∀ (ss : List Setting) (fk fk' : FK), (∀ s ∈ ss, s.Fits fk) → fk.applyAll ss = (.ok (), fk') →
    ∀ q, (fk.coregVecs.getD q ⟨0, 0, []⟩).WF → (fk'.coregVecs.getD q ⟨0, 0, []⟩).WF
  | [], fk, fk', _, h, q, hq => by cases h; exact hq
  | s :: ss, fk, fk', h, he, q, hq => by
    obtain ⟨fk₁, g1, g2, -⟩ := apply_ok (h s (by simp))
    unfold FK.applyAll at he
    rw [g1] at he
    exact applyAll_wf ss fk₁ fk' (fun s' hs' => g2.fits (h s' (by simp [hs']))) he q (assignAll_wf _ _ _ (pairs_fit (h s (by simp))) g1 q hq)

theorem logspace01_le (q : ℕ) : ∀ x ∈ logspace01 q, x ≤ 10 := by
  intro x hx
  unfold logspace01 at hx
  obtain ⟨i, hi, rfl⟩ := mem_vmk_iff.1 hx
  conv_rhs => rw [← Real.rpow_one (10 : ℝ)]
  refine Real.rpow_le_rpow_of_exponent_le (by norm_num) ?_
  refine div_le_one_of_le₀ ?_ (by positivity)
  exact_mod_cast (by omega : i ≤ q - 1)

theorem benchMix_mem {q : ℕ} {k : Kern} (h : k ∈ (genKernels q).getD 3 []) : BenchKernel "mix" k := by
  have h : k ∈ (if q < ((logspace01 (max (q / 3) 1)).flatMap fun gamma => benchKernFuncs.map fun kfunc => kfunc gamma).length then
      ((logspace01 (max (q / 3) 1)).flatMap fun gamma => benchKernFuncs.map fun kfunc => kfunc gamma).take q
      else ((logspace01 (max (q / 3) 1)).flatMap fun gamma => benchKernFuncs.map fun kfunc => kfunc gamma) ++
        (List.replicate (q - ((logspace01 (max (q / 3) 1)).flatMap fun gamma => benchKernFuncs.map fun kfunc => kfunc gamma).length) (Kern.rbf 1 none))) := h
  have key : ∀ k ∈ (logspace01 (max (q / 3) 1)).flatMap fun gamma => benchKernFuncs.map fun kfunc => kfunc gamma, BenchKernel "mix" k := by
    intro k hk
    obtain ⟨g, hg, hk⟩ := List.mem_flatMap.1 hk
    have h1 := logspace01_pos _ g hg
    have h2 := logspace01_le _ g hg
    simp only [benchKernFuncs, List.map_cons, List.map_nil, List.mem_cons, List.not_mem_nil, or_false] at hk
    rcases hk with rfl | rfl | rfl
    · exact ⟨g, none, h1, h2, .inl ⟨by simp, rfl⟩⟩
    · exact ⟨g, none, h1, h2, .inr (.inl ⟨by simp, rfl⟩)⟩
    · exact ⟨g, none, h1, h2, .inr (.inr ⟨by simp, rfl⟩)⟩
  split_ifs at h with hl
  · exact key k (List.mem_of_mem_take h)
  · rcases List.mem_append.1 h with h | h
    · exact key k h
    · rw [(List.mem_replicate.1 h).2]
      exact ⟨1, none, le_rfl, by norm_num, .inl ⟨by simp, rfl⟩⟩

/-- the kernels of each type -/
theorem benchKernels {q : ℕ} {kern : String} (h : kern ∈ ["rbf", "periodic", "matern", "mix"]) :
    ∃ ks, dictIdx (["rbf", "periodic", "matern", "mix"].zip (genKernels q)) kern = .ok ks ∧ ks ∈ genKernels q ∧ (∀ k ∈ ks, BenchKernel kern k) ∧
      ∀ k ∈ ks, k.activeDims = none := by
  have e : genKernels q = [(logspace01 q).map fun g => .rbf g none, (logspace01 q).map fun p => .stdPeriodic 1 p none, (logspace01 q).map fun g => .matern32 g none,
      (genKernels q).getD 3 []] := rfl
  have act : ∀ kern k, BenchKernel kern k → (∃ ks ∈ genKernels q, k ∈ ks) → k.activeDims = none := by
    rintro kern k - ⟨ks, hks, hk⟩
    have key : ∀ f ∈ benchKernFuncs, ∀ g, (f g).activeDims = none := by
      intro f hf g
      simp only [benchKernFuncs, List.mem_cons, List.not_mem_nil, or_false] at hf
      rcases hf with rfl | rfl | rfl <;> rfl
    have keyM : ∀ k ∈ (logspace01 (max (q / 3) 1)).flatMap fun gamma => benchKernFuncs.map fun kfunc => kfunc gamma, k.activeDims = none := by
      intro k hk
      obtain ⟨g, hg, hk⟩ := List.mem_flatMap.1 hk
      obtain ⟨f, hf, rfl⟩ := List.mem_map.1 hk
      exact key f hf g
    unfold genKernels at hks
    simp only [List.mem_append, List.mem_map, List.mem_singleton] at hks
    rcases hks with ⟨f, hf, rfl⟩ | rfl
    · obtain ⟨g, -, rfl⟩ := List.mem_map.1 hk
      exact key f hf g
    · split_ifs at hk with hl
      · exact keyM k (List.mem_of_mem_take hk)
      · rcases List.mem_append.1 hk with hk | hk
        · exact keyM k hk
        · rw [(List.mem_replicate.1 hk).2]; rfl
  have fin : ∀ ks ∈ genKernels q, (∀ k ∈ ks, BenchKernel kern k) → dictIdx (["rbf", "periodic", "matern", "mix"].zip (genKernels q)) kern = .ok ks →
      ∃ ks, dictIdx (["rbf", "periodic", "matern", "mix"].zip (genKernels q)) kern = .ok ks ∧ ks ∈ genKernels q ∧ (∀ k ∈ ks, BenchKernel kern k) ∧
      ∀ k ∈ ks, k.activeDims = none := fun ks h1 h2 h3 => ⟨ks, h3, h1, h2, fun k hk => act kern k (h2 k hk) ⟨ks, h1, hk⟩⟩
  simp only [List.mem_cons, List.not_mem_nil, or_false] at h
  rcases h with rfl | rfl | rfl | rfl
  · refine fin ((logspace01 q).map fun g => .rbf g none) (by rw [e]; simp) ?_ (by rw [e]; rfl)
    intro k hk
    obtain ⟨g, hg, rfl⟩ := List.mem_map.1 hk
    exact ⟨g, none, logspace01_pos _ g hg, logspace01_le _ g hg, .inl ⟨by simp, rfl⟩⟩
  · refine fin ((logspace01 q).map fun g => .stdPeriodic 1 g none) (by rw [e]; simp) ?_ (by rw [e]; rfl)
    intro k hk
    obtain ⟨g, hg, rfl⟩ := List.mem_map.1 hk
    exact ⟨g, none, logspace01_pos _ g hg, logspace01_le _ g hg, .inr (.inl ⟨by simp, rfl⟩)⟩
  · refine fin ((logspace01 q).map fun g => .matern32 g none) (by rw [e]; simp) ?_ (by rw [e]; rfl)
    intro k hk
    obtain ⟨g, hg, rfl⟩ := List.mem_map.1 hk
    exact ⟨g, none, logspace01_pos _ g hg, logspace01_le _ g hg, .inr (.inr ⟨by simp, rfl⟩)⟩
  · exact fin ((genKernels q).getD 3 []) (by rw [e]; simp) (fun k hk => benchMix_mem hk) (by rw [e]; rfl)

/-- values of the right shapes for every array -/
theorem applyAll_full {fk : FK} (hw : fk.WF) {r : ℕ} (hr : ∀ q < fk.Q, (fk.coregVecs.getD q ⟨0, 0, []⟩).rows = r) (N : ℕ → ℝ) (A : ℕ → ℕ → ℕ → ℝ) (κ : ℕ → ℕ → ℝ) :
    fk.applyAll [.noise (NDArr.vec (vmk fk.D N)), .vecs (vmk fk.Q fun k => (Arr2.of r fk.D (A k)).nd), .diags (vmk fk.Q fun k => NDArr.vec (vmk fk.D (κ k)))] =
      (.ok (), { fk with noise := vmk fk.D N, coregVecs := vmk fk.Q fun k => Arr2.of r fk.D (A k), coregDiags := vmk fk.Q fun k => vmk fk.D (κ k) }) := by
  have hvec : ∀ q < fk.Q, fk.shapeAt (.vec q) = [r, fk.D] := fun q hq => by
    show [_, _] = _
    rw [hr q hq, (hw.vec q hq).2.1]
  have hdiag : ∀ q < fk.Q, fk.shapeAt (.diag q) = [fk.D] := fun q hq => by
    show [_] = _
    rw [hw.diag q hq]
  have hnoise : fk.shapeAt .noise = [fk.D] := by
    show [_] = _
    rw [hw.noise]
  have gv : ∀ {α : Type} (n : ℕ) (f : ℕ → α) (q : ℕ) (x : α), (vmk n f)[q]? = some x ↔ q < n ∧ f q = x := by
    intro α n f q x
    unfold vmk
    by_cases h : q < n <;> simp [h]
  have b1 : ∀ n : ℕ, BroadcastsTo [n] [n] := fun n => ⟨.inr rfl, trivial⟩
  have b2 : ∀ n m : ℕ, BroadcastsTo [n, m] [n, m] := fun n m => ⟨.inr rfl, .inr rfl, trivial⟩
  have fits : ∀ s ∈ [Setting.noise (NDArr.vec (vmk fk.D N)), .vecs (vmk fk.Q fun k => (Arr2.of r fk.D (A k)).nd), .diags (vmk fk.Q fun k => NDArr.vec (vmk fk.D (κ k)))],
      s.Fits fk := by
    intro s hs
    simp only [List.mem_cons, List.not_mem_nil, or_false] at hs
    rcases hs with rfl | rfl | rfl
    · intro t v ht hv
      cases t with
      | noise =>
        cases hv
        rw [hnoise]
        simpa [NDArr.vec] using b1 fk.D
      | vec q => cases hv
      | diag q => cases hv
    · intro t v ht hv
      cases t with
      | noise => cases hv
      | vec q =>
        obtain ⟨h1, rfl⟩ := (gv _ _ _ _).1 hv
        rw [hvec q h1]
        exact b2 r fk.D
      | diag q => cases hv
    · intro t v ht hv
      cases t with
      | noise => cases hv
      | vec q => cases hv
      | diag q =>
        obtain ⟨h1, rfl⟩ := (gv _ _ _ _).1 hv
        rw [hdiag q h1]
        simpa [NDArr.vec] using b1 fk.D
  obtain ⟨fk', h1, h2, h3⟩ := applyAll_ok _ fk fits
  have hwf := applyAll_wf _ fk fk' fits h1
  rw [h1]
  congr 1
  have e1 : fk'.noise = vmk fk.D N := by
    have hl : fk'.noise.length = fk.D := by rw [(List.cons.inj (h2.2.2.2 .noise)).1, hw.noise]
    refine list_ext_getD 0 (by rw [hl, vmk_length]) fun i hi => ?_
    rw [hl] at hi
    have := h3 .noise [i] (by rw [hnoise]; exact .cons hi .nil)
    rw [show fk'.noise.getD i 0 = fk'.entry .noise [i] from rfl, this]
    show NDArr.spread _ _ = _
    unfold NDArr.spread NDArr.vec
    simp only [List.reverse_cons, List.reverse_nil, List.nil_append, readPos, vmk_length]
    by_cases h : fk.D = 1
    · rw [if_pos h, show i = 0 by omega]; simp
    · rw [if_neg h]; simp
  have e2 : fk'.coregVecs = vmk fk.Q fun k => Arr2.of r fk.D (A k) := by
    have hl : fk'.coregVecs.length = fk.Q := by rw [h2.2.1, hw.vecs]; rfl
    refine list_ext_getD ⟨0, 0, []⟩ (by rw [hl, vmk_length]) fun q hq => ?_
    rw [hl] at hq
    rw [vmk_getD_lt hq]
    have hs := h2.2.2.2 (.vec q)
    rw [hvec q hq] at hs
    have hr' : (fk'.coregVecs.getD q ⟨0, 0, []⟩).rows = r := (List.cons.inj hs).1
    have hc' : (fk'.coregVecs.getD q ⟨0, 0, []⟩).cols = fk.D := (List.cons.inj (List.cons.inj hs).2).1
    rw [← Arr2.of_self (hwf q (hw.vec q hq).1), hr', hc']
    refine Arr2.of_congr fun i hi j hj => ?_
    have := h3 (.vec q) [i, j] (by rw [hvec q hq]; exact .cons hi (.cons hj .nil))
    rw [show (fk'.coregVecs.getD q ⟨0, 0, []⟩).get i j = fk'.entry (.vec q) [i, j] from rfl, this]
    have hg : lastGiven [Setting.noise (NDArr.vec (vmk fk.D N)), .vecs (vmk fk.Q fun k => (Arr2.of r fk.D (A k)).nd), .diags (vmk fk.Q fun k => NDArr.vec (vmk fk.D (κ k)))]
        (.vec q) = some (Arr2.of r fk.D (A q)).nd := by
      show ((none : Option (NDArr ℝ)).or _).or _ = _
      rw [show Setting.value (.vecs (vmk fk.Q fun k => (Arr2.of r fk.D (A k)).nd)) (.vec q) = some (Arr2.of r fk.D (A q)).nd from (gv _ _ _ _).2 ⟨hq, rfl⟩]
      rfl
    rw [hg]
    show NDArr.spread _ _ = _
    rw [← Arr2.of_get (f := A q) hi hj]
    unfold NDArr.spread Arr2.nd Arr2.get
    simp only [List.reverse_cons, List.reverse_nil, List.nil_append, List.cons_append, readPos]
    congr 1
    show (if fk.D = 1 then 0 else j) + fk.D * ((if r = 1 then 0 else i) + _) = i * fk.D + j
    have hj' : (if fk.D = 1 then 0 else j) = j := by split_ifs with h <;> omega
    have hi' : (if r = 1 then 0 else i) = i := by split_ifs with h <;> omega
    rw [hj', hi']
    ring
  have e3 : fk'.coregDiags = vmk fk.Q fun k => vmk fk.D (κ k) := by
    have hl : fk'.coregDiags.length = fk.Q := by rw [h2.2.2.1, hw.diags]; rfl
    refine list_ext_getD [] (by rw [hl, vmk_length]) fun q hq => ?_
    rw [hl] at hq
    rw [vmk_getD_lt hq]
    have hl : (fk'.coregDiags.getD q []).length = fk.D := by rw [(List.cons.inj (h2.2.2.2 (.diag q))).1, hw.diag q hq]
    refine list_ext_getD 0 (by rw [hl, vmk_length]) fun i hi => ?_
    rw [hl] at hi
    have := h3 (.diag q) [i] (by rw [hdiag q hq]; exact .cons hi .nil)
    rw [show (fk'.coregDiags.getD q []).getD i 0 = fk'.entry (.diag q) [i] from rfl, this]
    have hg : lastGiven [Setting.noise (NDArr.vec (vmk fk.D N)), .vecs (vmk fk.Q fun k => (Arr2.of r fk.D (A k)).nd), .diags (vmk fk.Q fun k => NDArr.vec (vmk fk.D (κ k)))]
        (.diag q) = some (NDArr.vec (vmk fk.D (κ q))) := by
      show (((none : Option (NDArr ℝ)).or (Setting.value (.diags (vmk fk.Q fun k => NDArr.vec (vmk fk.D (κ k)))) (.diag q))).or _).or _ = _
      rw [show Setting.value (.diags (vmk fk.Q fun k => NDArr.vec (vmk fk.D (κ k)))) (.diag q) = some (NDArr.vec (vmk fk.D (κ q))) from (gv _ _ _ _).2 ⟨hq, rfl⟩]
      rfl
    rw [hg]
    show NDArr.spread _ _ = _
    unfold NDArr.spread NDArr.vec
    simp only [List.reverse_cons, List.reverse_nil, List.nil_append, readPos, vmk_length]
    by_cases h : fk.D = 1
    · rw [if_pos h, show i = 0 by omega]; simp
    · rw [if_neg h]; simp
  rw [h2.1, e1, e2, e3]

/-- the kernel of the benchmark before `set_input_dim` -/
noncomputable def benchFK (a : BenchArgs) (r : BenchDraws) (ks : List Kern) : FK where
  D := a.d.toNat
  kernels := ks
  coregVecs := vmk a.q.toNat fun k => Arr2.of a.rq.toNat a.d.toNat (r.vecs k)
  coregDiags := vmk a.q.toNat fun k => vmk a.d.toNat fun i => (r.gammaDiags k i)⁻¹
  noise := vmk a.d.toNat fun i => (r.gammaNoise i)⁻¹
  linkedVecs := a.q.toNat
  linkedDiags := a.q.toNat
  numLmcTotal := a.q.toNat
  numSlfmTotal := 0
  P := none
  activeDims := []
  numLmc := []
  numSlfm := []
  numIndep := []

theorem benchChecks_ok {a : BenchArgs} {c : String × ℕ × String} (h : benchChecks a = .ok c) :
    7 < a.nO ∧ 0 < a.d ∧ 0 < a.rq ∧ a.rq ≤ a.d ∧ 0 < a.q ∧ c.1 ∈ ["rbf", "periodic", "matern", "mix"] ∧ c.2.2 ∈ ["inv", "opt"] := by
  unfold benchChecks at h
  simp only at h
  split_ifs at h with h1 h2 h3 h4 h5 h6 h7 h8
  cases h
  exact ⟨h1, h2, h3, h4, h5, h7, h8⟩

theorem benchFK_made {a : BenchArgs} {c : String × ℕ × String} (h : benchChecks a = .ok c) (r : BenchDraws) {ks : List Kern} (hks : ks ∈ genKernels a.q.toNat) :
    ∃ fk, fkNew r.init ⟨some a.d, some ks, some (vmk a.q.toNat fun _ => a.rq), none, none, none⟩ = .ok fk ∧
      fk.applyAll [.noise (NDArr.vec (vmk a.d.toNat fun i => (r.gammaNoise i)⁻¹)), .vecs (vmk a.q.toNat fun k => (Arr2.of a.rq.toNat a.d.toNat (r.vecs k)).nd),
        .diags (vmk a.q.toNat fun k => NDArr.vec (vmk a.d.toNat fun i => (r.gammaDiags k i)⁻¹))] = (.ok (), benchFK a r ks) := by
  obtain ⟨h1, h2, h3, h4, h5, -⟩ := benchChecks_ok h
  have hlen : ks.length = a.q.toNat := ((C79_gen_kernels a.q.toNat).2 ks hks).1
  obtain ⟨d, hd⟩ : ∃ d : ℕ, a.d = d := ⟨a.d.toNat, by omega⟩
  have hdoc : (⟨some a.d, some ks, some (vmk a.q.toNat fun _ => a.rq), none, none, none⟩ : FKArgs).Documented := by
    refine ⟨⟨a.d, rfl, h2⟩, ?_, ?_, ?_, .inl rfl⟩
    · intro e
      simp only [given, Option.getD_some, Option.getD_none, List.append_nil] at e
      rw [e] at hlen
      simp at hlen
      omega
    · simp [given, hlen]
    · intro x hx
      obtain ⟨i, -, rfl⟩ := mem_vmk_iff.1 hx
      exact h3
  have hin : (⟨some a.d, some ks, some (vmk a.q.toNat fun _ => a.rq), none, none, none⟩ : FKArgs).InRange := by
    intro D hD
    cases hD
    simp [given]
    omega
  obtain ⟨D, hD, he⟩ := (fkNew_given r.init ⟨some a.d, some ks, some (vmk a.q.toNat fun _ => a.rq), none, none, none⟩ (by simp) (by simp)).1 hdoc hin
  have hDd : D = a.d.toNat := by
    have : a.d = D := Option.some.inj hD
    omega
  subst hDd
  refine ⟨_, he, ?_⟩
  obtain ⟨-, -, -, hw, -⟩ := C29_contents _ _ _ (by simp) (by simp) he
  have hQ : ∀ fk : FK, fk.kernels = ks ++ [] ++ [] → fk.Q = a.q.toNat := fun fk h => by
    show fk.kernels.length = _
    rw [h]; simpa using hlen
  have := applyAll_full hw (r := a.rq.toNat) (by
    intro q hq
    rw [hQ _ rfl] at hq
    simp only [given, Option.getD_some, Option.getD_none, List.length_nil]
    unfold initAq
    rw [vmk_getD_lt (by simpa using hq), vmk_length, if_pos hq, vmk_getD_lt hq]
    rfl) (fun i => (r.gammaNoise i)⁻¹) r.vecs (fun k i => (r.gammaDiags k i)⁻¹)
  rw [hQ _ rfl] at this
  refine this.trans ?_
  congr 1
  unfold benchFK
  simp [given, hlen]

theorem benchFK_wf {a : BenchArgs} {c : String × ℕ × String} (h : benchChecks a = .ok c) (r : BenchDraws) {ks : List Kern} (hks : ks ∈ genKernels a.q.toNat) :
    (benchFK a r ks).WF ∧ (benchFK a r ks).Fresh ∧ (benchFK a r ks).Q = a.q.toNat := by
  obtain ⟨h1, h2, h3, h4, h5, -⟩ := benchChecks_ok h
  have hlen : ks.length = a.q.toNat := ((C79_gen_kernels a.q.toNat).2 ks hks).1
  refine ⟨⟨by show 0 < a.d.toNat; omega, ?_, ?_, ?_, ?_, ?_, ?_, ?_, ?_, ?_⟩, ⟨rfl, rfl, rfl, rfl, rfl, ?_⟩, hlen⟩
  · show (vmk _ _).length = ks.length
    rw [vmk_length, hlen]
  · show (vmk _ _).length = ks.length
    rw [vmk_length, hlen]
  · exact vmk_length _ _
  · show a.q.toNat + 0 ≤ ks.length
    omega
  · intro q hq
    have hq : q < a.q.toNat := by rw [← hlen]; exact hq
    show (Arr2.WF ((vmk _ _).getD q _)) ∧ _
    rw [show (benchFK a r ks).coregVecs.getD q ⟨0, 0, []⟩ = Arr2.of a.rq.toNat a.d.toNat (r.vecs q) from vmk_getD_lt hq, vmk_getD_lt hq]
    exact ⟨Arr2.of_wf _ _ _, rfl, by show 0 < a.rq.toNat; omega⟩
  · intro q hq
    have hq : q < a.q.toNat := by rw [← hlen]; exact hq
    show List.length ((vmk _ _).getD q _) = _
    rw [vmk_getD_lt hq, vmk_length]
    rfl
  · intro q hq1 hq2
    have hq1 : a.q.toNat ≤ q := hq1
    have hq2 : q < a.q.toNat + 0 := hq2
    omega
  · intro q hq1 hq2
    have hq1 : a.q.toNat ≤ q := hq1
    have hq2 : q < a.q.toNat + 0 := hq2
    omega
  · intro q hq i j
    have hq : a.q.toNat + 0 ≤ q := hq
    show Arr2.get ((vmk _ _).getD q _) i j = 0
    rw [List.getD_eq_default _ _ (by rw [vmk_length]; omega)]
    rfl
  · show a.q.toNat + 0 ≤ ks.length
    omega

/-- all kernels read the only input -/
theorem benchFK_dims {a : BenchArgs} {c : String × ℕ × String} (h : benchChecks a = .ok c) (r : BenchDraws) {ks : List Kern} (hks : ks ∈ genKernels a.q.toNat)
    (hact : ∀ k ∈ ks, k.activeDims = none) : ∃ fk, (benchFK a r ks).setInputDim 1 = .ok fk ∧ Grouped (benchFK a r ks) 1 fk ∧
      fk.activeDims = [([0], List.range a.q.toNat)] ∧ fk.kernels = ks.map fun k => k.setActiveDims (some [0]) := by
  obtain ⟨h1, h2, h3, h4, h5, -⟩ := benchChecks_ok h
  obtain ⟨hw, hf, hQ⟩ := benchFK_wf h r hks
  have hlen : ks.length = a.q.toNat := hQ
  obtain ⟨fk, f1, g⟩ := setInputDim_fresh _ 1 hf
  have hd : ∀ i < ks.length, dimsRead 1 (ks.getD i (.identity none)) = [0] := fun i hi => by
    unfold dimsRead
    rw [hact _ (getD_mem_of_lt hi _)]
    rfl
  have hgrp : ∀ key, (benchFK a r ks).groupOf 1 key = if key = [0] then List.range a.q.toNat else [] := by
    intro key
    show (List.range ks.length).filter _ = _
    rw [hlen]
    split_ifs with hk
    · rw [List.filter_eq_self]
      intro i hi
      rw [List.mem_range, ← hlen] at hi
      simp only [decide_eq_true_eq]
      rw [hk]
      exact hd i hi
    · rw [List.filter_eq_nil_iff]
      intro i hi
      rw [List.mem_range, ← hlen] at hi
      simp only [decide_eq_true_eq]
      intro e
      exact hk (e.symm.trans (hd i hi))
  have hne : List.range a.q.toNat ≠ [] := by
    rw [Ne, List.range_eq_nil]
    omega
  refine ⟨fk, f1, g, ?_, ?_⟩
  · have hmem : ([0], List.range a.q.toNat) ∈ fk.activeDims := (g.mem _ _).2 ⟨by rw [hgrp, if_pos rfl], hne⟩
    have hall : ∀ x ∈ fk.activeDims, x = ([0], List.range a.q.toNat) := by
      rintro ⟨key, idxs⟩ hx
      obtain ⟨e1, e2⟩ := (g.mem key idxs).1 hx
      rw [hgrp] at e1
      by_cases hk : key = [0]
      · rw [if_pos hk] at e1
        rw [hk, e1]
      · rw [if_neg hk] at e1
        exact absurd e1 e2
    have hn := g.nodup
    match hl : fk.activeDims with
    | [] => rw [hl] at hmem; cases hmem
    | [x] => rw [hall x (by rw [hl]; simp)]
    | x :: y :: l =>
      rw [hl] at hn
      have e1 := hall x (by rw [hl]; simp)
      have e2 := hall y (by rw [hl]; simp)
      simp [e1, e2] at hn
  · refine list_ext_getD (.identity none) (by rw [g.klen, List.length_map]; rfl) fun i hi => ?_
    rw [g.klen] at hi
    have hi' : i < ks.length := hi
    rw [g.kern i hi, map_getD_lt hi' _ _ (.identity none)]
    show (ks.getD i (.identity none)).setActiveDims (some (dimsRead 1 (ks.getD i (.identity none)))) = _
    rw [hd i hi']

/-- `prep` computes the grid of the model with one input dimension -/
theorem benchPrep_eq {Xs : List (Arr2 ℝ)} (hc : ∀ X ∈ Xs, X.cols = 1) (hw : ∀ X ∈ Xs, X.WF) {g : GroupGrid} (hg : generateGrid Xs .none .none .none [0] = .ok g)
    (hok : g.OK [0] Xs) : benchPrep Xs = .ok (g.dists, g.W, g.WT) := by
  have hXa : (Xs.map fun X => Arr2.of X.rows [0].length fun i k => X.get i (([0] : List ℕ).getD k 0)) = Xs := by
    conv_rhs => rw [← List.map_id Xs]
    refine List.map_congr_left fun X hX => ?_
    show _ = X
    conv_rhs => rw [← Arr2.of_self (hw X hX), hc X hX]
    refine Arr2.of_congr fun i hi j hj => ?_
    have : j = 0 := by
      simp only [List.length_singleton] at hj
      omega
    rw [this]
    rfl
  unfold generateGrid at hg
  simp only [wrapOpt, ok_bind] at hg
  rw [takeCols_all hc (by simp), ok_bind, hXa] at hg
  simp only [bind_ok, pure_ok] at hg
  obtain ⟨r, r1, dd, r2, W, r3, rfl⟩ := hg
  have hlen := hok.axes
  simp only [List.length_singleton] at hlen
  obtain ⟨grid, hgr⟩ := List.length_eq_one_iff.1 hlen
  have h4 := hok.size grid (by rw [hgr]; simp)
  obtain ⟨g0, hh, hpos, heq⟩ := hok.spacing grid (by rw [hgr]; simp)
  have hgood := hok.good
  have hd := hok.dists
  simp only at hgr hd r3
  rw [gridDists_eq hgood, hgr] at hd
  rw [hgr] at r3
  have hdd : dd = NDArr.vec (grid.map fun x => x - grid.getD 0 0) := by
    rw [← Except.ok.inj hd]
    unfold NDArr.vec
    congr 1
    · simp
    · refine list_ext_getD 0 (by simp) fun i hi => ?_
      simp only [vmk_length, List.map_cons, List.map_nil, List.prod_cons, List.prod_nil, mul_one] at hi
      rw [vmk_getD_lt (by simpa using hi), map_getD_lt hi _ _ 0]
      simp only [List.length_singleton, Finset.sum_range_one, List.getD_cons_zero, List.map_cons, List.map_nil, unravel, List.prod_nil, Nat.div_one]
      rw [Real.sqrt_sq]
      rw [heq i hi, heq 0 (by omega)]
      have : (0:ℝ) ≤ i * hh := by positivity
      push_cast
      linarith
  unfold benchPrep
  rw [r1, ok_bind, hgr]
  simp only
  cases grid with
  | nil => simp at h4
  | cons x l =>
    simp only
    rw [show [NDArr.vec (x :: l)] = [x :: l].map NDArr.vec from rfl, r3, ok_bind, hdd]
    rfl

/-- what the set-up of the benchmark is -/
structure BenchBuilt (a : BenchArgs) (r : BenchDraws) (c : String × ℕ × String) (b : BenchSetup) : Prop where
  testtype : b.testtype = c.2.2
  Xs : b.Xs = vmk a.d.toNat fun i => Arr2.of a.nO.toNat 1 fun j _ => r.xs i j
  Ys : b.Ys = vmk a.d.toNat fun i => vmk a.nO.toNat (r.ys i)
  fk : ∃ ks ∈ genKernels a.q.toNat, (∀ k ∈ ks, BenchKernel c.1 k) ∧ (∀ k ∈ ks, k.activeDims = none) ∧ (benchFK a r ks).setInputDim 1 = .ok b.fkern ∧
    Grouped (benchFK a r ks) 1 b.fkern ∧ b.fkern.activeDims = [([0], List.range a.q.toNat)] ∧ b.fkern.kernels = ks.map fun k => k.setActiveDims (some [0])
  grid : ∃ g, generateGrid b.Xs .none .none .none [0] = .ok g ∧ g.OK [0] b.Xs ∧ b.gridDists = g.dists ∧ b.W = g.W ∧ b.WT = g.WT

theorem bench_built {a : BenchArgs} {c : String × ℕ × String} (h : benchChecks a = .ok c) {r : BenchDraws} (hu : r.Usual a) :
    ∃ b, benchMain a r = .ok b ∧ BenchBuilt a r c b := by
  obtain ⟨h1, h2, h3, h4, h5, h6, -⟩ := benchChecks_ok h
  obtain ⟨ks, k1, k2, k3, k4⟩ := benchKernels (q := a.q.toNat) h6
  obtain ⟨fk0, f1, f2⟩ := benchFK_made h r k2
  obtain ⟨fk, g1, g2, g3, g4⟩ := benchFK_dims h r k2 k4
  have hc : ∀ X ∈ vmk a.d.toNat fun i => Arr2.of a.nO.toNat 1 fun j _ => r.xs i j, X.cols = 1 := by
    intro X hX
    obtain ⟨i, -, rfl⟩ := mem_vmk_iff.1 hX
    rfl
  have hr : ∀ X ∈ vmk a.d.toNat fun i => Arr2.of a.nO.toNat 1 fun j _ => r.xs i j, X.rows = a.nO.toNat := by
    intro X hX
    obtain ⟨i, -, rfl⟩ := mem_vmk_iff.1 hX
    rfl
  have hwf : ∀ X ∈ vmk a.d.toNat fun i => Arr2.of a.nO.toNat 1 fun j _ => r.xs i j, X.WF := by
    intro X hX
    obtain ⟨i, -, rfl⟩ := mem_vmk_iff.1 hX
    exact Arr2.of_wf _ _ _
  obtain ⟨g, gg1, gg2⟩ := generateGrid_ok (Xs := vmk a.d.toNat fun i => Arr2.of a.nO.toNat 1 fun j _ => r.xs i j) (P := 1) (lo := .none) (hi := .none) (m := .none)
    (ad := [0]) (by
      intro e
      have := congrArg List.length e
      rw [vmk_length] at this
      simp at this
      omega) (fun X hX => ⟨by rw [hr X hX]; omega, hc X hX⟩) (by intro o ho v hv; simp at ho; rw [ho] at hv; cases hv) (by intro o ho v hv; simp at ho; rw [ho] at hv; cases hv)
      (.inl rfl) (by simp) (by intro c _ v hv; cases hv) (by
        intro c hc
        have : c = 0 := by omega
        subst this
        obtain ⟨i, hi, j, hj, i', hi', j', hj', hlt⟩ := hu.spread
        refine ⟨_, mem_vmk_iff.2 ⟨i, hi, rfl⟩, j, hj, .inl ⟨_, mem_vmk_iff.2 ⟨i', hi', rfl⟩, j', hj', ?_⟩⟩
        rw [Arr2.of_get hj Nat.one_pos, Arr2.of_get hj' Nat.one_pos]
        exact hlt)
  refine ⟨⟨fk, _, _, g.dists, g.W, g.WT, c.2.2⟩, ?_, rfl, rfl, rfl, ⟨ks, k2, k3, k4, g1, g2, g3, g4⟩, g, gg1, gg2, rfl, rfl, rfl⟩
  unfold benchMain
  rw [h, ok_bind]
  simp only
  rw [benchPrep_eq hc hwf gg1 gg2, ok_bind, k1, ok_bind, f1, ok_bind, f2]
  simp only
  rw [g1]
  rfl

namespace BenchBuilt

variable {a : BenchArgs} {r : BenchDraws} {c : String × ℕ × String} {b : BenchSetup}

theorem D (hb : BenchBuilt a r c b) : b.fkern.D = a.d.toNat := by
  obtain ⟨ks, -, -, -, -, g, -⟩ := hb.fk
  rw [g.same]; rfl

theorem Q (hb : BenchBuilt a r c b) : b.fkern.Q = a.q.toNat := by
  obtain ⟨ks, k2, -, -, -, g, -⟩ := hb.fk
  exact g.klen.trans ((C79_gen_kernels a.q.toNat).2 ks k2).1

theorem vecs (hb : BenchBuilt a r c b) : b.fkern.coregVecs = vmk a.q.toNat fun k => Arr2.of a.rq.toNat a.d.toNat (r.vecs k) := by
  obtain ⟨ks, -, -, -, -, g, -⟩ := hb.fk
  rw [g.same]; rfl

theorem diags (hb : BenchBuilt a r c b) : b.fkern.coregDiags = vmk a.q.toNat fun k => vmk a.d.toNat fun i => (r.gammaDiags k i)⁻¹ := by
  obtain ⟨ks, -, -, -, -, g, -⟩ := hb.fk
  rw [g.same]; rfl

theorem noise (hb : BenchBuilt a r c b) : b.fkern.noise = vmk a.d.toNat fun i => (r.gammaNoise i)⁻¹ := by
  obtain ⟨ks, -, -, -, -, g, -⟩ := hb.fk
  rw [g.same]; rfl

theorem lmc (hb : BenchBuilt a r c b) : b.fkern.numLmcTotal = a.q.toNat ∧ b.fkern.numSlfmTotal = 0 ∧ b.fkern.P = some 1 := by
  obtain ⟨ks, -, -, -, -, g, -⟩ := hb.fk
  rw [g.same]; exact ⟨rfl, rfl, rfl⟩

theorem same (hb : BenchBuilt a r c b) : b.fkern.setInputDim 1 = .ok b.fkern := by
  unfold FK.setInputDim
  rw [if_pos hb.lmc.2.2]

/-- the model with the same data and kernel -/
theorem model (hc : benchChecks a = .ok c) (hu : r.Usual a) (hb : BenchBuilt a r c b) (metrics : Bool) {prediction : String}
    (hp : prediction ∈ ["on-the-fly", "precompute", "exact"]) (nIt : ℕ) (tol : ℝ) : ∃ m, llgpInit (b.args metrics prediction nIt tol) = .ok m ∧ m.OK 1 ∧ m.fk = b.fkern ∧
      m.gp.Xs = b.Xs ∧ m.gp.Ys = b.Ys ∧ m.dists = [([0], b.gridDists)] ∧ m.interp = [([0], (b.W, b.WT))] := by
  obtain ⟨h1, h2, h3, h4, h5, h6, -⟩ := benchChecks_ok hc
  obtain ⟨ks, k2, k3, k4, f1, g, g3, g4⟩ := hb.fk
  obtain ⟨gg, e1, e2, e3, e4, e5⟩ := hb.grid
  obtain ⟨hw, hf, hQ⟩ := benchFK_wf hc r k2
  have hX : ∀ X ∈ b.Xs, X.rows = a.nO.toNat ∧ X.cols = 1 ∧ X.WF := by
    intro X hX
    rw [hb.Xs] at hX
    obtain ⟨i, -, rfl⟩ := mem_vmk_iff.1 hX
    exact ⟨rfl, rfl, Arr2.of_wf _ _ _⟩
  have hlX : b.Xs.length = a.d.toNat := by rw [hb.Xs, vmk_length]
  have hlY : b.Ys.length = a.d.toNat := by rw [hb.Ys, vmk_length]
  have hpad : padded 1 (b.Xs.map Arr2.nd) = b.Xs := by
    unfold padded
    rw [List.map_map]
    conv_rhs => rw [← List.map_id b.Xs]
    refine List.map_congr_left fun X hx => ?_
    show (⟨X.rows, 1, X.data⟩ : Arr2 ℝ) = X
    rw [← (hX X hx).2.1]
  have hds : Dataset (b.Xs.map Arr2.nd) (b.Ys.map NDArr.vec) 1 := by
    refine ⟨?_, by simp [hlX, hlY], fun d hd => ?_, ?_⟩
    · intro e
      have := congrArg List.length e
      rw [List.length_map, hlX] at this
      simp at this
      omega
    · rw [List.length_map] at hd
      have hd' : d < a.d.toNat := by rw [← hlX]; exact hd
      refine ⟨a.nO.toNat, ?_, .inr ?_⟩
      · rw [map_getD_lt (by rw [hlY]; exact hd') _ _ [], hb.Ys, vmk_getD_lt hd']
        simp [NDArr.vec]
      · rw [map_getD_lt hd _ _ ⟨0, 0, []⟩, hb.Xs, vmk_getD_lt hd']
        rfl
    · intro Y hY
      obtain ⟨y, hy, rfl⟩ := List.mem_map.1 hY
      rw [hb.Ys] at hy
      obtain ⟨i, hi, rfl⟩ := mem_vmk_iff.1 hy
      exact .inr (hu.observations i hi)
  have hdoc : ({ b.args metrics prediction nIt tol with functionalKernel := some (benchFK a r ks) } : LLGPArgs).Documented 1 (benchFK a r ks) := by
    have hkd : ∀ k ∈ ks, dimsRead 1 k = [0] := fun k hk => by
      unfold dimsRead
      rw [k4 k hk]
      rfl
    refine ⟨hds, ?_, ?_, ?_, rfl, hf, hw, ?_, ?_, ((C79_gen_kernels a.q.toNat).2 ks k2).2, fun k hk => by rw [hkd k hk]; simp, hp, trivial, trivial, trivial,
      fun c _ v hv => (by cases hv), fun c hc => ?_⟩
    · intro X hx
      obtain ⟨Y, hY, rfl⟩ := List.mem_map.1 hx
      have := (hX Y hY).2.2
      unfold Arr2.WF at this
      unfold NDArr.WF Arr2.nd
      simpa using this
    · intro X hx
      obtain ⟨Y, hY, rfl⟩ := List.mem_map.1 hx
      simp [NDArr.WF, NDArr.vec]
    · intro Y hY
      obtain ⟨y, hy, rfl⟩ := List.mem_map.1 hY
      rw [hb.Ys] at hy
      obtain ⟨i, hi, rfl⟩ := mem_vmk_iff.1 hy
      intro e
      have := congrArg List.length e
      simp [NDArr.vec] at this
      omega
    · rw [hQ]; omega
    · show a.d.toNat = (b.Xs.map Arr2.nd).length
      rw [List.length_map, hlX]
    · have : c = 0 := by omega
      subst this
      obtain ⟨i, hi, j, hj, i', hi', j', hj', hlt⟩ := hu.spread
      show ∃ X ∈ padded 1 (b.Xs.map Arr2.nd), ∃ i < X.rows, (∃ X' ∈ padded 1 (b.Xs.map Arr2.nd), _) ∨ _
      rw [hpad, hb.Xs]
      refine ⟨_, mem_vmk_iff.2 ⟨i, hi, rfl⟩, j, hj, .inl ⟨_, mem_vmk_iff.2 ⟨i', hi', rfl⟩, j', hj', ?_⟩⟩
      rw [Arr2.of_get hj Nat.one_pos, Arr2.of_get hj' Nat.one_pos]
      exact hlt
  obtain ⟨m, fk', m1, m2, m3, m4, m5⟩ := llgpInit_documented hdoc Nat.one_pos
  rw [f1] at m3
  cases m3
  obtain ⟨norms, hgp, -⟩ := (C42_validation_partial (b.Xs.map Arr2.nd) (b.Ys.map NDArr.vec) (fun X hx => by
    obtain ⟨Y, hY, rfl⟩ := List.mem_map.1 hx; simp [Arr2.nd]) (fun X hx => by
    obtain ⟨Y, hY, rfl⟩ := List.mem_map.1 hx; simp [NDArr.vec]) false).2.2 1 hds
  have hpad' : ((b.Xs.map Arr2.nd).map fun X => (⟨X.shape.headD 0, 1, X.data⟩ : Arr2 ℝ)) = b.Xs := hpad
  obtain ⟨mode, hmode⟩ : ∃ mode, predMode prediction = some mode := by
    simp only [List.mem_cons, List.not_mem_nil, or_false] at hp
    rcases hp with e | e | e <;> rw [e] <;> simp [predMode]
  have hgen : ∀ f : FK, (f.setInputDim 1 = .ok b.fkern) → llgpInit { b.args metrics prediction nIt tol with functionalKernel := some f } =
      .ok ⟨⟨1, (b.Xs.map Arr2.nd).length, norms, (b.Ys.map NDArr.vec).map NDArr.data, b.Xs⟩, b.fkern, [([0], gg)], mode, nIt, tol,
        if metrics then some Metrics.new else none, none, none⟩ := by
    intro f hf
    unfold llgpInit
    rw [show multiGPNew ({ b.args metrics prediction nIt tol with functionalKernel := some f } : LLGPArgs).Xs
      ({ b.args metrics prediction nIt tol with functionalKernel := some f } : LLGPArgs).Ys
      ({ b.args metrics prediction nIt tol with functionalKernel := some f } : LLGPArgs).normalize = _ from hgp]
    simp only [ok_bind]
    rw [show predMode (b.args metrics prediction nIt tol).prediction = some mode from hmode]
    simp only
    rw [hf, ok_bind, hpad']
    unfold generateGrids
    rw [g3]
    show (mapExcept (fun ad => do let g ← generateGrid b.Xs .none .none .none ad; return (ad, g)) [[0]] >>= _) = _
    rw [show mapExcept (fun ad => do let g ← generateGrid b.Xs .none .none .none ad; return (ad, g)) [[0]] = .ok [([0], gg)] from by
      unfold mapExcept
      rw [e1]
      rfl]
    rfl
  have hm := hgen _ f1
  rw [hm] at m1
  cases m1
  refine ⟨_, hgen b.fkern hb.same, m2, rfl, rfl, ?_, ?_, ?_⟩
  · show (b.Ys.map NDArr.vec).map NDArr.data = b.Ys
    rw [List.map_map]
    exact List.map_id _
  · show [([0], gg.dists)] = _
    rw [e3]
  · show [([0], (gg.W, gg.WT))] = _
    rw [e4, e5]

end BenchBuilt

end Verif
