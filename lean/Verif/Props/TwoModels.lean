import Verif.Props.GpyLMC
import Verif.Props.Reached

/-! C102: `InterpolatedLLGP` and `GPyLMC` agree on one-dimensional inputs. -/

namespace Verif

theorem jittered_wf {fk : FK} (hwf : fk.WF) : fk.jittered.WF :=
  ⟨hwf.Dpos, hwf.vecs, hwf.diags, by show (fk.noise.map _).length = _; rw [List.length_map]; exact hwf.noise, hwf.counts, hwf.vec,
    hwf.diag, hwf.slfm, hwf.slfmRank, hwf.indep⟩

theorem jittered_regular {fk : FK} {P : ℕ} (h : fk.Regular P) : fk.jittered.Regular P := by
  refine ⟨⟨jittered_wf h.ready.wf, h.ready.kernel, h.ready.input, h.ready.Ppos, h.ready.valid, h.ready.dims, h.ready.bound⟩,
    ⟨h.groups.P, h.groups.nodup, h.groups.group, h.groups.lmc, h.groups.indep, h.groups.members⟩,
    ⟨h.sound.kernels, h.sound.plain, h.sound.kappa, fun a ha => ?_⟩, h.nodup, h.clean⟩
  have ha' : a < fk.D := ha
  rw [jittered_noise fk (by rw [h.ready.wf.noise]; exact ha')]
  have := h.sound.noise a ha'
  have : 0 < gpyJitter := by unfold gpyJitter; positivity
  linarith

/-- with kernels of one dimension and one-dimensional inputs there is one group -/
theorem one_group {Xs Ys : List (NDArr ℝ)} {kernels : List Kern} {ranks : List ℕ} {o : GPyLMC} (h : o.From Xs Ys kernels ranks)
    (hk : ∀ k ∈ kernels, ∀ c ∈ k.activeDims.getD [0], c < 1) {fk : FK} (hr : fk.Regular 1) (hs : fk.SameAs o) :
    ∃ g, fk.activeDims = [g] ∧ g.1 = List.range 1 := by
  have hkey : ∀ g ∈ fk.activeDims, g.1 = [0] := by
    intro g hg
    obtain ⟨h1, -, h3⟩ := hr.groups.group g hg
    obtain ⟨q, hq⟩ := List.exists_mem_of_ne_nil _ h1
    have hqQ := h3 q hq
    have hm := (hr.groups.members g hg q hqQ).1 hq
    have hqo : q < o.terms.length := by rw [← hs.terms]; exact hqQ
    have hd := hs.dims q _ (List.getElem?_eq_getElem hqo)
    unfold FK.kdims at hd
    rw [hm] at hd
    obtain ⟨k, hkm, e1, c, e2⟩ := ((from_terms h).2 _ (List.getElem_mem hqo)).column
    have : c < 1 := hk k hkm c (by rw [← e1, e2]; exact List.mem_singleton_self c)
    have hd : g.1 = o.terms[q].kern.columns := hd
    rw [hd, e2]
    congr 1; omega
  have hnd := hr.groups.nodup
  obtain ⟨ad, -, had⟩ := hr.ready.dims (fk.kernels[0]'hr.ready.kernel) (List.getElem_mem _)
  match hl : fk.activeDims, hkey, hnd, had with
  | [], _, _, had => cases had
  | [g], hkey, _, _ => exact ⟨g, rfl, hkey g (by simp)⟩
  | g :: g' :: l, hkey, hnd, _ =>
    have e1 := hkey g (by simp)
    have e2 := hkey g' (by simp)
    simp only [List.map_cons, List.nodup_cons, List.mem_cons, not_or] at hnd
    exact absurd (e1.trans e2.symm) hnd.1.1

section
variable {Xs Ys : List (NDArr ℝ)} {kernels : List Kern} {ranks : List ℕ} {o : GPyLMC}

/-- the variance of the exact process with `1e-8` more noise and that of GPy differ by `1e-8`, up to `1e-15` -/
theorem gpyVar_near {fk : FK} (hr : fk.Regular 1) {Xs : List (Arr2 ℝ)} (hX : Xs.length = fk.D) {d : ℕ} (hd : d < fk.D) (x : ℕ → ℝ) :
    |fk.jittered.condVar Xs d x - (fk.gpyVar Xs d x + 1 / 10 ^ 8)| ≤ 1 / 10 ^ 15 := by
  have hj := jittered_regular hr
  have h1 := condVar_ge hj.ready.wf (Xs := Xs) hX hj.sound (d := d) hd x
  have e : fk.jittered.condVar Xs d x = fk.cov d d x x - fk.crossCov Xs d x ⬝ᵥ (fk.jittered.covMat Xs)⁻¹.mulVec (fk.crossCov Xs d x) + (fk.noise.getD d 0 + 1 / 10 ^ 8) := by
    unfold FK.condVar FK.priorVar
    rw [jittered_noise fk (by rw [hr.ready.wf.noise]; exact hd)]
    show fk.cov d d x x + (fk.noise.getD d 0 + 1 / 10 ^ 8) - fk.crossCov Xs d x ⬝ᵥ (fk.jittered.covMat Xs)⁻¹.mulVec (fk.crossCov Xs d x) = _
    ring
  rw [jittered_noise fk (by rw [hr.ready.wf.noise]; exact hd), e] at h1
  have h1 : fk.noise.getD d 0 + 1 / 10 ^ 8 ≤ _ := h1
  rw [e]
  unfold FK.gpyVar
  set L := fk.cov d d x x - fk.crossCov Xs d x ⬝ᵥ (fk.jittered.covMat Xs)⁻¹.mulVec (fk.crossCov Xs d x)
  have hL : 0 ≤ L := by linarith
  rw [abs_le]
  constructor
  · rcases max_cases L (1 / 10 ^ 15) with ⟨h, -⟩ | ⟨h, -⟩ <;> rw [h] <;> norm_num at * <;> linarith
  · linarith [le_max_left L (1 / 10 ^ 15), (by positivity : (0 : ℝ) ≤ 1 / 10 ^ 15)]

/-- C102: for given one-dimensional data, a `GPyLMC` object of any parameter values and every `ε` there is a number of grid cells from which on every
`InterpolatedLLGP`, of whatever program, that was made without normalisation from the same data, with grids of at least that many cells, and has the parameters
of the `GPyLMC` object (and `1e-8` more noise), agrees with it: the log likelihoods and, between the smallest and the largest input, the means within `ε`, the
variances within `ε + 1e-15` of a difference of `1e-8`; in all prediction modes, with exact linear solves. -/
theorem C102_agree (hD : Dataset Xs Ys 1) (hw : ∀ X ∈ Xs, X.WF) (h : o.From Xs Ys kernels ranks) (hk : ∀ k ∈ kernels, ∀ c ∈ k.activeDims.getD [0], c < 1) (hp : o.Proper)
    (fk : FK) (hr : fk.Regular 1) (hs : fk.SameAs o) (lo hi : GridOpt) (ε : ℝ) (hε : 0 < ε) :
    ∃ N, 0 < N ∧ ∀ sv : Solvers, sv.Fit → sv.Exact → ∀ ops i a m, Held sv ops i a m → a.Xs = Xs → a.Ys = Ys → a.normalize = false → a.lo = lo → a.hi = hi → a.Cells 1 N →
      m.fk = fk.jittered →
      (∀ e : Env, e.Works → ∃ v, results sv (ops ++ [.ask i .logLikelihood e]) = results sv ops ++ [.ok (.extended (some v))] ∧ |v - o.logLikelihood| ≤ ε) ∧
      ∀ (ppf : ℝ → ℝ) (Qs : List (NDArr ℝ)), m.Accepts Qs → ∀ e : Env, e.Works → ∀ r, Predicts sv ops i Qs e (.ok r) →
        ∃ p, o.predict ppf Qs = .ok p ∧ ∀ d < Ys.length, ∀ j < (queryLens Qs).getD d 0, a.Surrounds 1 (queryPoint 1 Qs d j) →
          |(r.1.getD d []).getD j 0 - (p.1.getD d []).getD j 0| ≤ ε ∧
          |(r.2.getD d []).getD j 0 - ((p.2.getD d []).getD j 0 + 1 / 10 ^ 8)| ≤ ε + 1 / 10 ^ 15 := by
  obtain ⟨N, hN, H⟩ := C72_program 1 one_pos fk.jittered (jittered_regular hr) Xs Ys false lo hi ε hε
  refine ⟨N, hN, fun sv hs1 hs2 ops i a m hm h1 h2 h3 h4 h5 h6 h7 => ?_⟩
  obtain ⟨c1, c2⟩ := H sv hs1 hs2 ops i a m hm h1 h2 h3 h4 h5 h6 h7
  obtain ⟨k, f1, f2, f3, f4, f5, f6, f7⟩ := hm.facts hs1
  have hP : m.gp.inputDim = 1 := by
    have := f5.ready.input
    rw [h7] at this
    exact (Option.some.inj (hr.ready.input.symm.trans this)).symm
  rw [hP] at f1
  obtain ⟨x1, x2, x3⟩ := MadeFrom.scale f1
  have hsc : ∀ d, a.scaleOf d = 1 ∧ a.centreOf d = 0 := fun d => by
    unfold LLGPArgs.scaleOf LLGPArgs.centreOf
    rw [h3]
    exact ⟨rfl, rfl⟩
  have hX : m.gp.Xs = padded 1 Xs := by rw [x1, h1]
  have hY : m.gp.Ys = Ys.map NDArr.data := by
    rw [x3, h2]
    refine List.ext_getElem (by simp) fun n _ _ => ?_
    simp [(hsc n).1, (hsc n).2]
  have hlen := sameAs_D hr.ready.wf h hs
  refine ⟨fun e he => ?_, fun ppf Qs hQ e he r hpr => ?_⟩
  · obtain ⟨v, v1, v2⟩ := c1 e he
    refine ⟨v, v1, ?_⟩
    rw [C101_likelihood_partial hD hw h hk fk hr.ready.wf hs, ← hX, ← hY]
    exact v2
  · have hq := hQ.1
    rw [f3, h7, hP] at hq
    have hq1 : Qs.length = fk.D := hq.1
    have hXl : Xs.length = fk.D := by rw [hlen, hD.len]
    obtain ⟨-, p, p1, p2⟩ := C101_predict_partial ppf hD hw h hk hp fk hr.ready.wf hs Qs (by
      intro e0
      rw [e0] at hq1
      have := hr.ready.wf.Dpos
      simp at hq1; omega) (by omega) hq.2 hQ.2
    refine ⟨p, p1, fun d hd j hj hsur => ?_⟩
    have hdD : d < fk.D := by rw [hlen]; exact hd
    have hg : ∃ g, fk.jittered.activeDims = [g] ∧ g.1 = List.range 1 := by
      obtain ⟨g, g1, g2⟩ := one_group h hk hr hs
      exact ⟨g, g1, g2⟩
    obtain ⟨m1, m2⟩ := c2 Qs hQ (fun _ => hg) e he r hpr d hdD j hj hsur
    obtain ⟨q1, q2⟩ := p2.entry d (by omega) j hj
    have hn : normOf m.gp d = (1, 0) := by
      rw [(x2 d (by rw [h1, hXl]; exact hdD)).1, (hsc d).1, (hsc d).2]
    rw [hn, hX, hY] at m1
    rw [hn, hX] at m2
    simp only [mul_one, add_zero, one_pow] at m1 m2
    refine ⟨by rw [q1]; exact m1, ?_⟩
    have hv := gpyVar_near hr (Xs := padded 1 Xs) (by simp [padded, hXl]) hdD (queryPoint 1 Qs d j)
    rw [q2]
    rw [abs_le] at *
    constructor <;> linarith [m2.1, m2.2, hv.1, hv.2]

/-- C102: there are such models. For every `GPyLMC` object with positive ranks, whatever `optimize` did, there are parameters of the kind C102 asks for, and
`InterpolatedLLGP`s with these parameters in every mode and with any number of grid cells (provided two inputs differ). -/
theorem C102_exists (hD : Dataset Xs Ys 1) (hw : ∀ X ∈ Xs, X.WF) (hwY : ∀ Y ∈ Ys, Y.WF) (hfY : ∀ Y ∈ Ys, Y.data ≠ []) (h : o.From Xs Ys kernels ranks)
    (hk : ∀ k ∈ kernels, ∀ c ∈ k.activeDims.getD [0], c < 1) (hr : ∀ r ∈ ranks, 0 < r) (hp : o.Proper) (hne : o.terms ≠ [])
    (hsp : ∃ X ∈ padded 1 Xs, ∃ i < X.rows, ∃ X' ∈ padded 1 Xs, ∃ i' < X'.rows, X.get i 0 < X'.get i' 0) :
    ∃ fk : FK, fk.Regular 1 ∧ fk.SameAs o ∧ ∀ (sv : Solvers), sv.Fit → ∀ (mode : PredMode) (N : ℕ), 0 < N → ∃ a m, Held sv [.new a quiet] 0 a m ∧ a.Xs = Xs ∧ a.Ys = Ys ∧
      a.normalize = false ∧ a.lo = .none ∧ a.hi = .none ∧ a.m = .scalar N ∧ a.Cells 1 N ∧ a.prediction = mode.name ∧ m.fk = fk.jittered := by
  obtain ⟨f0, d1, d2, d3, d4, d5⟩ := gpy_described hD h hk hr hp hne
  have hlen := sameAs_D d1.wf h d3
  have hXl : Xs.length = f0.D := by rw [hlen, hD.len]
  have hcol : ∀ t ∈ o.terms, t.kern.columns = [0] := by
    intro t ht
    obtain ⟨k, hkm, e1, c, e2⟩ := ((from_terms h).2 t ht).column
    have : c < 1 := hk k hkm c (by rw [← e1, e2]; exact List.mem_singleton_self c)
    rw [e2]
    congr 1; omega
  have hact : ∀ q < f0.Q, (f0.kernels.getD q (.identity none)).activeDims = some [0] := by
    intro q hq
    have hqo : q < o.terms.length := by rw [← d3.terms]; exact hq
    have hd := d3.dims q _ (List.getElem?_eq_getElem hqo)
    rw [hcol _ (List.getElem_mem hqo)] at hd
    have hm : f0.kernels.getD q (.identity none) ∈ f0.kernels := by
      rw [List.getD_eq_getElem _ _ hq]
      exact List.getElem_mem _
    obtain ⟨ad, e, -⟩ := d1.dims _ hm
    unfold FK.kdims at hd
    rw [e] at hd ⊢
    exact congrArg some hd
  have hactm : ∀ k ∈ f0.kernels, k.activeDims = some [0] := by
    intro k hkm
    obtain ⟨q, hq, rfl⟩ := mem_getD hkm (.identity none)
    exact hact q hq
  have hread : ∀ k ∈ f0.kernels, dimsRead 1 k = [0] := by
    intro k hkm
    unfold dimsRead
    rw [hactm k hkm]
    rfl
  have hj := jittered_wf d1.wf
  -- what the user passes to the constructor
  obtain ⟨f1, hf1⟩ : ∃ f1 : FK, f1 = { f0.jittered with P := none, activeDims := [], numLmc := [], numSlfm := [], numIndep := [] } := ⟨_, rfl⟩
  have hfr : f1.Fresh := by
    rw [hf1]
    exact ⟨rfl, rfl, rfl, rfl, rfl, d1.wf.counts⟩
  have hwf1 : f1.WF := by
    rw [hf1]
    exact ⟨hj.Dpos, hj.vecs, hj.diags, hj.noise, hj.counts, hj.vec, hj.diag, hj.slfm, hj.slfmRank, hj.indep⟩
  have hker1 : f1.kernels = f0.kernels := by rw [hf1]; rfl
  have hdoc : ∀ (mode : PredMode) (N : ℕ), 0 < N → LLGPArgs.Documented ⟨Xs, Ys, false, .none, .none, .scalar N, false, mode.name, 15, 1e-4, some f1⟩ 1 f1 := by
    intro mode N hN
    refine ⟨hD, hw, hwY, hfY, rfl, hfr, hwf1, ?_, ?_, ?_, ?_, ?_, trivial, trivial, ?_, ?_, ?_⟩
    · unfold FK.Q
      rw [hker1]
      exact d1.kernel
    · rw [hf1]
      exact hXl.symm
    · rw [hker1]
      exact d1.valid
    · rw [hker1]
      intro k hkm
      rw [hread k hkm]
      simp
    · cases mode <;> simp [PredMode.name]
    · show ∀ k ∈ f1.kernels, (dimsRead 1 k).length = 1
      rw [hker1]
      intro k hkm
      rw [hread k hkm]
      rfl
    · intro c hc v hv
      exact ⟨N, hN, (Option.some.inj hv).symm⟩
    · intro c hc
      obtain ⟨X, hX, i, hi, X', hX', i', hi', e⟩ := hsp
      have : c = 0 := by omega
      subst this
      exact ⟨X, hX, i, hi, .inl ⟨X', hX', i', hi', e⟩⟩
  obtain ⟨f2, g1, g2⟩ := setInputDim_fresh f1 1 hfr
  obtain ⟨m0, f2', i1, i2, i3, i4, -⟩ := llgpInit_documented (hdoc .exact 1 one_pos) one_pos
  rw [g1] at i3
  cases i3
  have hker2 : f2.kernels = f0.kernels := by
    refine List.ext_getElem (by rw [g2.klen, hker1]) fun q h1 h2 => ?_
    have := g2.kern q (by rw [hker1]; exact h2)
    rw [hker1, hread _ (by rw [List.getD_eq_getElem _ _ h2]; exact List.getElem_mem _), List.getD_eq_getElem _ _ h1, List.getD_eq_getElem _ _ h2] at this
    rw [this]
    have e := hactm _ (List.getElem_mem h2)
    generalize f0.kernels[q] = k at e
    cases k <;> simp_all [Kern.setActiveDims, Kern.activeDims]
  have hsame : f2 = { f1 with P := some 1, kernels := f2.kernels, activeDims := f2.activeDims, numLmc := f2.numLmc, numSlfm := f2.numSlfm, numIndep := f2.numIndep } := g2.same
  have hD2 : f2.D = f0.D := by rw [hsame, hf1]; rfl
  have hv2 : f2.coregVecs = f0.coregVecs := by rw [hsame, hf1]; rfl
  have hd2 : f2.coregDiags = f0.coregDiags := by rw [hsame, hf1]; rfl
  have hn2 : f2.noise = f0.noise.map (· + 1 / 10 ^ 8) := by rw [hsame, hf1]; rfl
  have hl2 : f2.numLmcTotal = f0.Q := by rw [hsame, hf1]; exact d4
  have hs2 : f2.numSlfmTotal = 0 := by rw [hsame, hf1]; exact d5
  have hQ2 : f2.Q = f0.Q := by unfold FK.Q; rw [hker2]
  have hrd : f2.Ready 1 := i4 ▸ i2.ready
  have hgr : f2.GroupsOK := i4 ▸ i2.groups
  obtain ⟨fk, hfk⟩ : ∃ fk : FK, fk = { f2 with noise := f0.noise } := ⟨_, rfl⟩
  have hjj : fk.jittered = f2 := by
    rw [hfk]
    unfold FK.jittered
    rw [← hn2]
  have hkd : ∀ q, fk.kdims q = f0.kdims q := fun q => by
    unfold FK.kdims
    rw [hfk]
    show ((f2.kernels.getD q _).activeDims).getD _ = _
    rw [hker2]
  have hso : fk.Sound := by
    rw [hfk]
    refine ⟨fun q hq => ?_, ?_, ?_, ?_⟩
    · have hq0 : q < f0.Q := by rw [← hQ2]; exact hq
      have := d2.kernels q hq0
      unfold FK.KernelPSD FK.kdims at this ⊢
      show _
      simp only
      rw [hker2]
      exact this
    · show ∀ k ∈ f2.kernels, _
      rw [hker2]
      exact d2.plain
    · show ∀ q < f2.Q, ∀ a < f2.D, 0 ≤ (f2.coregDiags.getD q []).getD a 0
      rw [hQ2, hD2, hd2]
      exact d2.kappa
    · show ∀ a < f2.D, 0 < f0.noise.getD a 0
      rw [hD2]
      exact d2.noise
  have hwfk : fk.WF := by
    rw [hfk]
    have w := hrd.wf
    exact ⟨w.Dpos, w.vecs, w.diags, by show f0.noise.length = f2.D; rw [hD2]; exact d1.wf.noise, w.counts, w.vec, w.diag, w.slfm, w.slfmRank, w.indep⟩
  have hkeys : ∀ g ∈ fk.activeDims, g.1 = [0] := by
    rw [hfk]
    intro g hg
    have hg : g ∈ f2.activeDims := hg
    obtain ⟨h1, -, h3⟩ := hgr.group g hg
    obtain ⟨q, hq⟩ := List.exists_mem_of_ne_nil _ h1
    have hm := (hgr.members g hg q (h3 q hq)).1 hq
    rw [hker2, hact q (by rw [← hQ2]; exact h3 q hq)] at hm
    exact (Option.some.inj hm).symm
  have hreg : fk.Regular 1 := by
    refine ⟨?_, ?_, hso, fun g hg => by rw [hkeys g hg]; simp, fun g hg => ?_⟩
    · have hwfk' := hwfk
      rw [hfk] at hwfk' ⊢
      exact ⟨hwfk', hrd.kernel, hrd.input, hrd.Ppos, hrd.valid, hrd.dims, hrd.bound⟩
    · rw [hfk]
      exact ⟨hgr.P, hgr.nodup, hgr.group, hgr.lmc, hgr.indep, hgr.members⟩
    · rw [hfk] at hg ⊢
      have hg : g ∈ f2.activeDims := hg
      obtain ⟨h1, -, h3⟩ := hgr.group g hg
      obtain ⟨q, hq⟩ := List.exists_mem_of_ne_nil _ h1
      have := h3 q hq
      rw [hQ2] at this
      rintro ⟨-, e | e⟩
      · have e : f2.numLmcTotal + f2.numSlfmTotal ≤ q := e q hq
        omega
      · have e : f2.numLmcTotal ≤ q ∧ _ := e q hq
        omega
  refine ⟨fk, hreg, ?_, fun sv hs mode N hN => ?_⟩
  · have hkf : fk.kernels = f0.kernels := by rw [hfk]; exact hker2
    have hvf : fk.coregVecs = f0.coregVecs := by rw [hfk]; exact hv2
    have hdf : fk.coregDiags = f0.coregDiags := by rw [hfk]; exact hd2
    refine ⟨?_, ?_, ?_, ?_, ?_, by rw [hfk]; exact d3.noise⟩
    · rw [← d3.terms]
      unfold FK.Q
      rw [hkf]
    · rw [hkf]
      exact d3.func
    · intro q t hq
      rw [hkd]
      exact d3.dims q t hq
    · rw [hvf]
      exact d3.vecs
    · rw [hdf]
      exact d3.kappa
  · obtain ⟨m, hm, e⟩ := held_new hs one_pos (hdoc mode N hN) (by norm_num) rfl g1 (by rw [← hjj]; exact (jittered_regular hreg).sound)
    refine ⟨_, m, hm, rfl, rfl, rfl, rfl, rfl, rfl, ?_, rfl, by rw [hjj]; exact e⟩
    intro c hc n hn
    have hn : (N : ℝ) = n := hn
    exact le_of_eq (by exact_mod_cast hn)

end

/-- two outputs on the line, kernels of different kinds: however small `ε`, in every mode there is an `InterpolatedLLGP` whose prediction for the first output at 1/2
is within `ε` of that of a `GPyLMC` -/
example (mode : PredMode) (ε : ℝ) (hε : 0 < ε) : ∃ (o : GPyLMC) (a : LLGPArgs) (r p : Predicted),
    o.From [⟨[2], [0, 1]⟩, ⟨[2, 1], [0, 3]⟩] planeYs [.rbf 2 none, .stdPeriodic 1 2 (some [0])] [1, 2] ∧ a.prediction = mode.name ∧
      Predicts exactSolvers [.new a quiet] 0 [⟨[1], [1 / 2]⟩, ⟨[0], []⟩] quiet (.ok r) ∧ o.predict id [⟨[1], [1 / 2]⟩, ⟨[0], []⟩] = .ok p ∧
      |(r.1.getD 0 []).getD 0 0 - (p.1.getD 0 []).getD 0 0| ≤ ε := by
  have hD : Dataset [⟨[2], [0, 1]⟩, ⟨[2, 1], [0, 3]⟩] planeYs 1 := by
    refine ⟨by simp, rfl, fun d hd => ?_, plane_dataset.spread⟩
    have hd' : d < 2 := hd
    interval_cases d
    · exact ⟨2, rfl, .inl ⟨rfl, rfl⟩⟩
    · exact ⟨2, rfl, .inr rfl⟩
  have hw : ∀ X ∈ ([⟨[2], [0, 1]⟩, ⟨[2, 1], [0, 3]⟩] : List (NDArr ℝ)), X.WF := by
    intro X hX
    simp only [List.mem_cons, List.not_mem_nil, or_false] at hX
    rcases hX with rfl | rfl <;> rfl
  have hwY : ∀ Y ∈ planeYs, Y.WF ∧ Y.data ≠ [] := by
    intro X hX
    simp only [planeYs, List.mem_cons, List.not_mem_nil, or_false] at hX
    rcases hX with rfl | rfl <;> exact ⟨rfl, by simp⟩
  have hk : ∀ k ∈ ([.rbf 2 none, .stdPeriodic 1 2 (some [0])] : List Kern), ∀ c ∈ k.activeDims.getD [0], c < 1 := by
    intro k hk c hc
    simp only [List.mem_cons, List.not_mem_nil, or_false] at hk
    rcases hk with rfl | rfl <;> simp [Kern.activeDims] at hc <;> omega
  obtain ⟨o, -, h1, h2, h3⟩ := C101_constructs (kernels := [.rbf 2 none, .stdPeriodic 1 2 (some [0])]) (ranks := [1, 2]) ⟨fun _ _ _ => 1, 1 / 2, 1⟩ (by norm_num) one_pos hD hw (by
    intro k hk
    simp only [List.mem_cons, List.not_mem_nil, or_false] at hk
    rcases hk with rfl | rfl
    · exact (by norm_num : (0 : ℝ) < 2)
    · refine ⟨one_pos, ?_⟩
      have := Real.exp_lt_one_iff.2 (show (-200 : ℝ) < 0 by norm_num)
      linarith) (by
    intro k hk
    simp only [List.mem_cons, List.not_mem_nil, or_false] at hk
    rcases hk with rfl | rfl <;> exact ⟨_, rfl⟩) (by simp) rfl
  obtain ⟨fk, f1, f2, f3⟩ := C102_exists hD hw (fun Y hY => (hwY Y hY).1) (fun Y hY => (hwY Y hY).2) h1 hk (by simp) h2 (by
    intro e
    rw [e] at h3
    simp at h3) ⟨⟨2, 1, [0, 1]⟩, by simp [padded], 0, by norm_num, ⟨2, 1, [0, 1]⟩, by simp [padded], 1, by norm_num, by norm_num [Arr2.get]⟩
  obtain ⟨N, hN, H⟩ := C102_agree hD hw h1 hk h2 fk f1 f2 .none .none ε hε
  obtain ⟨a, m, hm, a1, a2, a3, a4, a5, -, a7, a8, a9⟩ := f3 exactSolvers exactSolvers_fit mode N hN
  obtain ⟨-, H2⟩ := H exactSolvers exactSolvers_fit (fun K n A tol hK _ => exactSolvers_exact hK tol) _ 0 a m hm a1 a2 a3 a4 a5 a7 a9
  obtain ⟨k, g1, g2, g3, g4, g5, g6, g7⟩ := hm.facts exactSolvers_fit
  have hP : m.gp.inputDim = 1 := by
    have := g5.ready.input
    rw [a9] at this
    exact (Option.some.inj (f1.ready.input.symm.trans this)).symm
  have hDD : m.gp.outputDim = 2 := by
    rw [g3, a9]
    exact sameAs_D f1.ready.wf h1 f2
  have hQ : m.Accepts [⟨[1], [1 / 2]⟩, ⟨[0], []⟩] := by
    unfold LLGP.Accepts
    rw [hP, hDD]
    refine ⟨⟨rfl, fun X hX => ?_⟩, fun X hX => ?_⟩
    · simp only [List.mem_cons, List.not_mem_nil, or_false] at hX
      rcases hX with rfl | rfl
      · exact ⟨1, .inl ⟨rfl, rfl⟩⟩
      · exact ⟨0, .inl ⟨rfl, rfl⟩⟩
    · simp only [List.mem_cons, List.not_mem_nil, or_false] at hX
      rcases hX with rfl | rfl <;> rfl
  have hask := g4 _ hQ
  rw [hP] at hask
  have hcan : m.CanPredict 1 [⟨[1], [1 / 2]⟩, ⟨[0], []⟩] := by
    unfold LLGP.CanPredict
    cases m.prediction with
    | onTheFly => simp [queryLens]
    | precompute =>
      obtain ⟨g, e1, e2⟩ := one_group h1 hk f1 f2
      exact ⟨g, by rw [a9]; exact e1, e2⟩
    | exact => exact covMat_posDef g5.ready.wf g5.data.inputs.len g2.kernels g2.kappa g2.noise
  obtain ⟨c1, c2⟩ := C43_returns _ m 1 k _ hask quiet quiet_calm.1
  obtain ⟨r, hpr⟩ := c2.2 ⟨g2.plain, hcan⟩
  have hpr' := g7 [⟨[1], [1 / 2]⟩, ⟨[0], []⟩] quiet quiet_calm.1
  rw [hpr] at hpr'
  obtain ⟨p, p1, p2⟩ := H2 id _ hQ quiet quiet_calm.1 r hpr'
  refine ⟨o, a, r, p, h1, a8, hpr', p1, (p2 0 (by decide) 0 (by simp [queryLens]) ?_).1⟩
  intro c hc
  have : c = 0 := by omega
  subst this
  rw [a1, a4, a5]
  refine ⟨⟨0, .inl ⟨⟨2, 1, [0, 1]⟩, by simp [padded], 0, by norm_num, by norm_num [Arr2.get]⟩, by norm_num [queryPoint]⟩,
    ⟨1, .inl ⟨⟨2, 1, [0, 1]⟩, by simp [padded], 1, by norm_num, by norm_num [Arr2.get]⟩, by norm_num [queryPoint]⟩⟩

end Verif
