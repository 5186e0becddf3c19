import Verif.Spec.ValueGradient
import Verif.Props.Search
import Verif.Props.OptimizerGrad
import Verif.Props.Continuity
import Verif.Props.Documented

/-! C130: whether the values and gradients an optimiser is given belong to one function. -/

namespace Verif

open Matrix

theorem frame_extra {fk fk' : FK} (h : fk.Frame fk') : fk'.extraOf = fk.extraOf := by
  funext g
  have hQ : fk'.Q = fk.Q := h.count
  have hch : chooseKType fk' g.1 = chooseKType fk g.1 := by
    unfold chooseKType FK.totalRank FK.assertP
    rw [hQ, h.D, h.P, h.lmcTotal, h.slfmTotal, h.groups, h.lmc, h.indep]
    simp only [h.rows]
  have : Spoiled fk' g ↔ Spoiled fk g := by
    unfold Spoiled FK.IsIndep FK.IsSlfm
    rw [hch, h.lmcTotal, h.slfmTotal]
  unfold FK.extraOf
  by_cases hS : Spoiled fk g
  · rw [if_pos hS, if_pos (this.2 hS)]
  · rw [if_neg hS, if_neg fun h => hS (this.1 h)]

/-- models made with the same arguments have the same data and grids -/
theorem madeFrom_same {m m' : LLGP} {P P' : ℕ} {a : LLGPArgs} (h : m.MadeFrom P a) (h' : m'.MadeFrom P' a) : m'.gp = m.gp ∧ m'.axesOf = m.axesOf := by
  obtain ⟨_, m0, -, g2, g3, g4, -⟩ := h
  obtain ⟨_, m0', -, k2, k3, k4, -⟩ := h'
  rw [g2] at k2
  cases k2
  refine ⟨k3.trans g3.symm, ?_⟩
  funext ad
  unfold LLGP.axesOf
  rw [k4, g4]

/-- C130, what an optimiser is given. With exact linear solves, for any model of kernels that are not periodic: the value at a point does not depend on the probes, and is the negative
log marginal likelihood with the interpolated covariance plus half the difference of the log determinants of the exact and the interpolated one. The gradients average to the gradient
of the first term only. -/
theorem C130_objective (sv : Solvers) (hs : sv.Fit) (hx : sv.Exact) (ops : List Op) (i : ℕ) (a : LLGPArgs) (m : LLGP) (h : Held sv ops i a m) (ht : m.fk.Tunable)
    (hap : ∀ q < m.fk.Q, (m.fk.kernels.getD q (.identity none)).aperiodic) (hn : ∀ ad ∈ m.fk.activeDims.map Prod.fst, ad.Nodup) (e : Env) (he : e.Calm) :
    ∃ V G, Objective sv ops i e m.fk.optimizerArray.length m.nIt m.n V G ∧
      (∀ y, y.length = m.fk.optimizerArray.length → V y = m.objectiveAt m.fk.extraOf y + m.gapAt y) ∧
      ∀ x, x.length = m.fk.optimizerArray.length → ∀ k < x.length, AverageGradientOf (m.objectiveAt m.fk.extraOf) G x k := by
  have hlen : m.fk.optimizerArray.length = m.fk.slots.length := List.length_map _
  obtain ⟨fks, hh, hext⟩ := valid_extend hs ops [] World.start (healthy_start sv) h.valid
  have hm : (history true sv ops World.start).2.heap i = some m := h.model
  have hP : ∃ P k, m.OK P ∧ 0 < m.nIt ∧ m.Current sv k ∧ m.fk.Sound := hh.at hm
  obtain ⟨P, -, q1, q2, -, q4⟩ := hP
  obtain ⟨-, made, -⟩ := h.facts hs
  have hst : Standing sv i m.fk ops := ⟨h.valid, m, h.model, FK.Like.refl _, ht⟩
  have hcalm : ∀ z : Fin m.nIt → Fin m.n → Bool, ({ e with z := tableBits z } : Env).Calm := fun z => he
  -- the value at a point
  have key : ∀ y, y.length = m.fk.slots.length → ∀ z : Fin m.nIt → Fin m.n → Bool, ∃ g,
      (objGradsAt true sv { e with z := tableBits z } i y (history true sv ops World.start).2).1 = .ok (m.objectiveAt m.fk.extraOf y + m.gapAt y, g) ∧
      (gradsAt true sv { e with z := tableBits z } i y (history true sv ops World.start).2).1 = .ok g := by
    intro y hy z
    obtain ⟨m', v, s1, s2, s3, s4, s5⟩ := standing_eval hs hst (hcalm z) hy (periods_ok hap y)
    obtain ⟨t1, t2, t3⟩ := tuned_valid q1.ready q4 ht hy (periods_ok hap y)
    obtain ⟨m'', hm'', -⟩ := held_set hs h t1 t2 (hcalm z)
    have : m'' = m' := by
      have := hm''.model
      rw [s2] at this
      exact (Option.some.inj this).symm
    subst this
    obtain ⟨-, made', -⟩ := hm''.facts hs
    obtain ⟨e1, e2⟩ := madeFrom_same made made'
    have hfr := setOptimizerArray_frame m.fk y
    obtain ⟨l, a1, a2, -⟩ := ((C104_answers sv hs _ i a m'' hm'' _ (hcalm z).1).2.2 hx (by rw [s3, hfr.groups]; exact hn)).2
    have hl : l = v := by
      have := tells_unique a1 s4
      simpa using this
    subst hl
    refine ⟨m''.objectiveGrads, ?_, ?_⟩
    · have hex := frame_extra hfr
      have hdens : ∀ K, m''.densityWith K = gaussLogDensity (m.gp.Xs.map Arr2.rows).sum K m.gp.Ys.flatten := fun K => by
        unfold LLGP.densityWith LLGP.n LLGP.y
        rw [e1]
      rw [hdens, s3, hex, e2, e1] at a2
      have hv : -l = m.objectiveAt m.fk.extraOf y + m.gapAt y := by
        unfold LLGP.objectiveAt LLGP.gapAt FK.skiLogLik
        linarith only [a2]
      rw [s5, hv]
    · obtain ⟨m₁, -, r2, -, -, m₀, r4, r5, r6⟩ := standing_set hs hst (hcalm z) hy (periods_ok hap y)
      rw [s2] at r2
      cases r2
      unfold gradsAt
      rw [py_bind, modify_run r4]
      simp only
      rw [r5, py_bind, r6]
      simp only
      rw [py_bind, self_run s2]
      rfl
  refine ⟨fun y => m.objectiveAt m.fk.extraOf y + m.gapAt y,
    fun y z => match (gradsAt true sv { e with z := tableBits z } i y (history true sv ops World.start).2).1 with | .ok g => g | .error _ => [], fun y hy z => ?_, fun _ _ => rfl,
    fun x hxl k hk => ?_⟩
  · obtain ⟨g, g1, g2⟩ := key y (hy.trans hlen) z
    rw [g1]
    simp only [g2]
  · obtain ⟨g, g1, g2⟩ := C91_gradient sv hs m P q1 q2 q4 ht hn x hxl (periods_ok hap x) (fun K gks hK => by
      obtain ⟨t1, t2, -⟩ := tuned_valid q1.ready q4 ht (hxl.trans hlen) (periods_ok hap x)
      have hok := q1.retuned t1
      obtain ⟨K', gks', g1, g2, g3, g4, -⟩ := genGridKernel_model hok
      have g1' : genGridKernel (m.fk.setOptimizerArray x) m.dists m.interp m.lens = .ok (K', gks') := g1
      rw [hK] at g1'
      cases g1'
      refine hx _ _ _ _ ⟨g4, g2, g3⟩ ((Matrix.isUnit_iff_isUnit_det _).1 (hok.ski_posDef t2 ?_).isUnit)
      show ∀ ad ∈ (m.fk.setOptimizerArray x).activeDims.map Prod.fst, ad.Nodup
      rw [t1.groups]
      exact hn) e he.1 he.2 true (history true sv ops World.start).2 i hm
    have := g2 k hk
    rw [frame_extra (setOptimizerArray_frame m.fk x)] at this
    unfold AverageGradientOf
    simp only [fun z => (g1 z).1]
    exact this

/-- C130, the part that holds: if every observed point is a point of the grids, and no group of kernels is of the kind described in C33, the gradients are on average those of the
values. -/
theorem C130_on_grid_partial (sv : Solvers) (hs : sv.Fit) (hx : sv.Exact) (ops : List Op) (i : ℕ) (a : LLGPArgs) (m : LLGP) (h : Held sv ops i a m) (ht : m.fk.Tunable)
    (hap : ∀ q < m.fk.Q, (m.fk.kernels.getD q (.identity none)).aperiodic) (hn : ∀ ad ∈ m.fk.activeDims.map Prod.fst, ad.Nodup) (hc : ∀ g ∈ m.fk.activeDims, ¬ Spoiled m.fk g)
    (hg : ∀ r < m.n, m.fk.OnGrid m.axesOf (rowPoint m.gp.Xs r)) (e : Env) (he : e.Calm) :
    ∃ V G, Objective sv ops i e m.fk.optimizerArray.length m.nIt m.n V G ∧ ∀ x, x.length = m.fk.optimizerArray.length → ∀ k < x.length, AverageGradientOf V G x k := by
  have hlen : m.fk.optimizerArray.length = m.fk.slots.length := List.length_map _
  obtain ⟨V, G, h1, h2, h3⟩ := C130_objective sv hs hx ops i a m h ht hap hn e he
  obtain ⟨k, -, f2, -, -, f5, -⟩ := h.facts hs
  have hgap : ∀ y, y.length = m.fk.optimizerArray.length → m.gapAt y = 0 := by
    intro y hy
    obtain ⟨t1, t2, -⟩ := tuned_valid f5.ready f2 ht (hy.trans hlen) (periods_ok hap y)
    have hok := f5.retuned t1
    have hfr := setOptimizerArray_frame m.fk y
    have hex := frame_extra hfr
    have hext : ∀ g ∈ (m.fk.setOptimizerArray y).activeDims, ¬ Spoiled (m.fk.setOptimizerArray y) g := by
      intro g hg' hS
      rw [t1.groups] at hg'
      have := congrFun hex g
      unfold FK.extraOf at this
      rw [if_pos hS, if_neg (hc g hg')] at this
      exact one_ne_zero this
    have hon : ∀ r < m.n, (m.fk.setOptimizerArray y).OnGrid m.axesOf (rowPoint m.gp.Xs r) := by
      intro r hr
      have := hg r hr
      unfold FK.OnGrid at this ⊢
      rw [t1.groups]
      exact this
    have hK := fun r hr s hs => skiFull_on_grid hok hext hon r s hr hs
    have hM : (m.fk.setOptimizerArray y).skiMat m.axesOf m.fk.extraOf m.gp.Xs = (m.fk.setOptimizerArray y).covMat m.gp.Xs := by
      rw [← hex]
      exact fnMatrix_congr hK
    unfold LLGP.gapAt
    rw [hM, sub_self, zero_div]
  refine ⟨V, G, h1, fun x hxl k hk => ?_⟩
  have := h3 x hxl k hk
  unfold AverageGradientOf at this ⊢
  refine this.congr_of_eventuallyEq (Filter.Eventually.of_forall fun t => ?_)
  show V (x.set k t) = _
  have hl : (x.set k t).length = m.fk.optimizerArray.length := by rw [List.length_set]; exact hxl
  rw [h2 _ hl, hgap _ hl, add_zero]

theorem small_tunable {mode : PredMode} {x1 x2 : ℝ} {fk : FK} (h : fkNew (fun _ _ _ => 1) ⟨some 1, some [], some [], some [.rbf 100 none], none, none⟩ = .ok fk) {m : LLGP}
    (hm : Held exactSolvers [.new (smallArgs mode x1 x2 fk) quiet] 0 (smallArgs mode x1 x2 fk) m) (c5 : m.fk.kernels = [.rbf 100 (some [0])]) :
    (∀ q < m.fk.Q, (m.fk.kernels.getD q (.identity none)).aperiodic) ∧ m.fk.Tunable ∧ m.fk.numLmcTotal = 0 := by
  have hap : ∀ q < m.fk.Q, (m.fk.kernels.getD q (.identity none)).aperiodic := by
    intro q hq
    unfold FK.Q at hq
    rw [c5] at hq ⊢
    have : q < 1 := hq
    interval_cases q
    trivial
  refine ⟨hap, ?_⟩
  obtain ⟨P, fk₁, fk', v1, v2, v3, v4, v5, -⟩ := hm.valid
  have hk : some fk = some fk₁ := v2.kernel
  cases hk
  obtain ⟨-, -, m₁, n1, n2⟩ := new_program exactSolvers_fit v1 v2 v3 rfl v4 v5
  have hmm : m₁ = m := by
    have := hm.model
    rw [n1] at this
    exact Option.some.inj this
  subst hmm
  rw [n2] at hap ⊢
  obtain ⟨l1, l2⟩ := C90_constructed _ _ (by simp) (by simp) fk fk' h P v4
  have hfresh := (C29_contents _ _ fk (by simp) (by simp) h).2.2.2.2
  obtain ⟨fk'', w1, w2⟩ := setInputDim_fresh fk P hfresh
  rw [v4] at w1
  cases w1
  refine ⟨⟨l1, l2, fun q hq => .inl (hap q hq)⟩, ?_⟩
  rw [w2.same]
  show fk.numLmcTotal = 0
  obtain ⟨d, r⟩ := (C29_accepts_partial _ _ (by simp) (by simp)).1 ⟨fk, h⟩
  obtain ⟨D, -, h2⟩ := (fkNew_given _ _ (by simp) (by simp)).1 d r
  rw [h2] at h
  cases h
  rfl

/-- hypotheses of C130, and of the part that holds: two observations at grid points -/
example (mode : PredMode) : ∃ (a : LLGPArgs) (m : LLGP), Held exactSolvers [.new a quiet] 0 a m ∧ m.n = 2 ∧ 0 < m.fk.optimizerArray.length ∧
    ∃ V G, Objective exactSolvers [.new a quiet] 0 quiet m.fk.optimizerArray.length m.nIt m.n V G ∧
      ∀ x, x.length = m.fk.optimizerArray.length → ∀ k < x.length, AverageGradientOf V G x k := by
  obtain ⟨fk, h, m, hm, c1, c2, c3, c4, c5, c6, c7, c8, c9, c10, c11⟩ := small_model mode (x1 := 3) (x2 := 7) (by norm_num) (by norm_num) (by norm_num)
  obtain ⟨k₀, -, -, -, -, f5, -, -⟩ := hm.facts exactSolvers_fit
  obtain ⟨hap, ht, -⟩ := small_tunable h hm c5
  have hn2 : m.n = 2 := by unfold LLGP.n; rw [c10]; rfl
  have hmem : Slot.noise 0 ∈ m.fk.slots := mem_slots.2 (by show 0 < m.fk.noise.length; rw [c4]; simp)
  refine ⟨_, m, hm, hn2, by rw [show m.fk.optimizerArray.length = m.fk.slots.length from List.length_map _]; exact List.length_pos_of_mem hmem,
    C130_on_grid_partial exactSolvers exactSolvers_fit (fun K n A tol hK _ => exactSolvers_exact hK tol) _ 0 _ m hm ht hap (by rw [c7]; simp) ?_ ?_ quiet quiet_calm⟩
  · rw [c7]
    intro g hg
    rw [List.mem_singleton] at hg
    rw [hg]
    exact (small_facts (c11 ▸ f5) c2 c4 c5 c6 c7 c8 c9 c10).plain
  · rw [hn2]
    intro r hr g hg t ht
    rw [c7, List.mem_singleton] at hg
    subst hg
    obtain rfl : t = 0 := by simpa using ht
    rw [c9, c10]
    interval_cases r
    · exact ⟨3, by simp [vmk_length], by simp [rowPoint, ownerOf, innerIdx, pointOf, Arr2.get, offset, vmk, List.range_succ]⟩
    · exact ⟨7, by simp [vmk_length], by simp [rowPoint, ownerOf, innerIdx, pointOf, Arr2.get, offset, vmk, List.range_succ]⟩

/-! ### where they do not -/

theorem noise_shift {fk : FK} {ν s : ℝ} (hn : fk.noise = [ν]) {Xs : List (Arr2 ℝ)} {r : ℕ} (hr : ownerOf (Xs.map Arr2.rows) r = 0) (axes : List ℕ → List (List ℝ))
    (extra : List ℕ × List ℕ → ℝ) (c : ℕ) :
    ({ fk with noise := [s] } : FK).skiFull axes extra Xs r c = fk.skiFull axes extra Xs r c + (if r = c then s - ν else 0) ∧
    ({ fk with noise := [s] } : FK).fullCov Xs r c = fk.fullCov Xs r c + (if r = c then s - ν else 0) := by
  constructor
  · show fk.skiCov _ _ _ _ _ _ + _ = fk.skiCov _ _ _ _ _ _ + _ + _
    rw [hr, hn]
    split_ifs <;> simp
  · show fk.cov _ _ _ _ + _ = fk.cov _ _ _ _ + _ + _
    rw [hr, hn]
    split_ifs <;> simp

/-- the derivative of the difference of the log determinants in the noise -/
theorem small_gap_deriv {d f o u v : ℝ} (h1 : 0.6 < d) (h2 : d < 0.8) (h3 : 0.6 < f) (h4 : f < 0.8) (hS : 0 < d * f - o * o) (h5 : 0 < u) (h6 : u ≤ 1 / 51) (h7 : 0 < v)
    (h8 : v ≤ 1 / 51) : ∃ g < 0, HasDerivAt (fun s : ℝ => (Real.log ((1.1 + (s - 0.1)) * (1.1 + (s - 0.1)) - u * v) - Real.log ((d + (s - 0.1)) * (f + (s - 0.1)) - o * o)) / 2) g 0.1 := by
  have huv := mul_le_mul h6 h8 h7.le (by norm_num)
  have hid : ∀ c : ℝ, HasDerivAt (fun s : ℝ => c + (s - 0.1)) 1 0.1 := fun c => ((hasDerivAt_id' (0.1 : ℝ)).sub_const 0.1).const_add c
  have hE : 0 < (1.1 : ℝ) * 1.1 - u * v := by norm_num at huv ⊢; linarith
  have e1 := (((hid 1.1).mul (hid 1.1)).sub_const (u * v)).log (by simpa using hE.ne')
  have e2 := (((hid d).mul (hid f)).sub_const (o * o)).log (by simpa using hS.ne')
  refine ⟨_, ?_, (e1.sub e2).div_const 2⟩
  simp only [Pi.mul_apply, sub_self, add_zero, one_mul, mul_one]
  have a1 : (1.1 + 1.1 : ℝ) / (1.1 * 1.1 - u * v) < 2 := by
    rw [div_lt_iff₀ hE]
    norm_num at huv ⊢
    linarith
  have a2 : 2 < (f + d) / (d * f - o * o) := by
    rw [lt_div_iff₀ hS]
    nlinarith [sq_nonneg o, mul_pos (sub_pos.2 h2) (sub_pos.2 h3), mul_pos (sub_pos.2 h4) (sub_pos.2 h1)]
  linarith

/-- C130 is false: a program that makes a model as documented, in any prediction mode, with two observations half way between grid points. The values and gradients `optimize()` is given
where it starts do not belong together: the gradient is not, on average, the gradient of the values. -/
theorem C130_violated (mode : PredMode) : ∃ (fk : FK) (a : LLGPArgs) (m : LLGP) (V : List ℝ → ℝ) (G : List ℝ → (Fin m.nIt → Fin m.n → Bool) → List ℝ) (k : ℕ),
    fkNew (fun _ _ _ => 1) ⟨some 1, some [], some [], some [.rbf 100 none], none, none⟩ = .ok fk ∧ a = smallArgs mode (5 / 2) (13 / 2) fk ∧
    Held exactSolvers [.new a quiet] 0 a m ∧ m.fk.Tunable ∧ (∀ g ∈ m.fk.activeDims, g.1.Nodup ∧ ¬ Spoiled m.fk g) ∧
    Objective exactSolvers [.new a quiet] 0 quiet m.fk.optimizerArray.length m.nIt m.n V G ∧ k < m.fk.optimizerArray.length ∧
    ¬ AverageGradientOf V G m.fk.optimizerArray k := by
  obtain ⟨fk, h, m, hm, c1, c2, c3, c4, c5, c6, c7, c8, c9, c10, c11⟩ := small_model mode (x1 := 5 / 2) (x2 := 13 / 2) (by norm_num) (by norm_num) (by norm_num)
  obtain ⟨k₀, f1, -, -, -, f5, -, -⟩ := hm.facts exactSolvers_fit
  have hpd : (m.fk.skiMat m.axesOf m.fk.extraOf m.gp.Xs).PosDef := f5.ski_posDef c2 (by rw [c7]; simp)
  obtain ⟨s00, s11, s01, s10, e00, e11, e01, e10⟩ := small_halves c4 c5 c6 c7 c8 c9 c10 hpd
  have hn2 : m.n = 2 := by unfold LLGP.n; rw [c10]; rfl
  obtain ⟨hap, ht, hl0⟩ := small_tunable h hm c5
  obtain ⟨V, G, g1, g2, g3⟩ := C130_objective exactSolvers exactSolvers_fit (fun K n A tol hK _ => exactSolvers_exact hK tol) _ 0 _ m hm ht hap (by rw [c7]; simp) quiet quiet_calm
  have hlen : m.fk.optimizerArray.length = m.fk.slots.length := List.length_map _
  have hmem : Slot.noise 0 ∈ m.fk.slots := mem_slots.2 (by show 0 < m.fk.noise.length; rw [c4]; simp)
  obtain ⟨k, hk, hks⟩ := List.getElem_of_mem hmem
  have hk' : k < m.fk.optimizerArray.length := hlen ▸ hk
  refine ⟨fk, _, m, V, G, k, h, rfl, hm, ht, ?_, g1, hk', fun hV => ?_⟩
  · rw [c7]
    intro g hg
    rw [List.mem_singleton] at hg
    rw [hg]
    exact ⟨by simp, (small_facts (c11 ▸ f5) c2 c4 c5 c6 c7 c8 c9 c10).plain⟩
  have hread : m.fk.optimizerArray.getD k 0 = (Slot.noise 0).encode 0.1 := by
    rw [List.getD_eq_getElem _ _ hk', show m.fk.optimizerArray[k] = m.fk.slots[k].encode (m.fk.read m.fk.slots[k]) from List.getElem_map _, hks]
    show (Slot.noise 0).encode (m.fk.noise.getD 0 0) = _
    rw [c4]
    rfl
  have hdec : (Slot.noise 0).decode (m.fk.optimizerArray.getD k 0) = 0.1 := by
    rw [hread]
    exact decode_encode fun _ => by norm_num
  have hround : m.fk.setOptimizerArray m.fk.optimizerArray = m.fk := by
    refine C90_round_trip m.fk _ f5.ready ht fun s hs hl => ?_
    cases s with
    | kern q j =>
      obtain ⟨x1, x2⟩ := mem_slots.1 hs
      rw [c5] at x1 x2
      have : q < 1 := x1
      interval_cases q
      have : j < 1 := x2
      interval_cases j
      show 0 < ((m.fk.kernels.getD 0 (.identity none)).linked).getD 0 0
      rw [c5]
      show (0 : ℝ) < 100
      norm_num
    | vec q i j => cases hl
    | diag q i =>
      have := (mem_slots.1 hs).1
      rw [ht.diags, hl0] at this
      exact absurd this (Nat.not_lt_zero _)
    | noise i =>
      have x1 : i < m.fk.noise.length := mem_slots.1 hs
      show 0 < m.fk.noise.getD i 0
      rw [c4] at x1 ⊢
      have : i < 1 := x1
      interval_cases i
      norm_num
  have hset : ∀ t, m.fk.setOptimizerArray (m.fk.optimizerArray.set k t) = { m.fk with noise := [(Slot.noise 0).decode t] } := by
    intro t
    rw [setOptimizerArray_set hlen hk, hks, hround]
    show ({ m.fk with noise := m.fk.noise.set 0 ((Slot.noise 0).decode t) } : FK) = _
    rw [c4]
    rfl
  have hS := hpd.det_pos
  have dS : (m.fk.skiMat m.axesOf m.fk.extraOf m.gp.Xs).det = _ := det_two hn2 _
  rw [dS, s10] at hS
  have hgap : ∀ t, m.gapAt (m.fk.optimizerArray.set k t) =
      (fun s : ℝ => (Real.log ((1.1 + (s - 0.1)) * (1.1 + (s - 0.1)) - m.fk.fullCov m.gp.Xs 0 1 * m.fk.fullCov m.gp.Xs 1 0) -
        Real.log ((m.fk.skiFull m.axesOf m.fk.extraOf m.gp.Xs 0 0 + (s - 0.1)) * (m.fk.skiFull m.axesOf m.fk.extraOf m.gp.Xs 1 1 + (s - 0.1)) -
          m.fk.skiFull m.axesOf m.fk.extraOf m.gp.Xs 0 1 * m.fk.skiFull m.axesOf m.fk.extraOf m.gp.Xs 0 1)) / 2) ((Slot.noise 0).decode t) := by
    intro t
    have o0 : ownerOf (m.gp.Xs.map Arr2.rows) 0 = 0 := by rw [c10]; simp [ownerOf]
    have o1 : ownerOf (m.gp.Xs.map Arr2.rows) 1 = 0 := by rw [c10]; simp [ownerOf]
    unfold LLGP.gapAt
    rw [hset]
    generalize (Slot.noise 0).decode t = s
    have d1 : (({ m.fk with noise := [s] } : FK).skiMat m.axesOf m.fk.extraOf m.gp.Xs).det = _ := det_two hn2 _
    have d2 : (({ m.fk with noise := [s] } : FK).covMat m.gp.Xs).det = _ := det_two hn2 _
    rw [d1, d2, (noise_shift c4 o0 _ _ 0).1, (noise_shift c4 o0 _ _ 1).1, (noise_shift c4 o1 _ _ 0).1, (noise_shift c4 o1 _ _ 1).1,
      (noise_shift c4 o0 m.axesOf m.fk.extraOf 0).2, (noise_shift c4 o0 m.axesOf m.fk.extraOf 1).2, (noise_shift c4 o1 m.axesOf m.fk.extraOf 0).2,
      (noise_shift c4 o1 m.axesOf m.fk.extraOf 1).2, e00, e11, s10]
    simp
  obtain ⟨g, hg0, hg⟩ := small_gap_deriv s00.1 s00.2 s11.1 s11.2 hS e01.1 e01.2 e10.1 e10.2
  generalize hF : (fun s : ℝ => (Real.log ((1.1 + (s - 0.1)) * (1.1 + (s - 0.1)) - m.fk.fullCov m.gp.Xs 0 1 * m.fk.fullCov m.gp.Xs 1 0) -
    Real.log ((m.fk.skiFull m.axesOf m.fk.extraOf m.gp.Xs 0 0 + (s - 0.1)) * (m.fk.skiFull m.axesOf m.fk.extraOf m.gp.Xs 1 1 + (s - 0.1)) -
      m.fk.skiFull m.axesOf m.fk.extraOf m.gp.Xs 0 1 * m.fk.skiFull m.axesOf m.fk.extraOf m.gp.Xs 0 1)) / 2) = F at hg hgap
  rw [← hdec] at hg
  have hd := hg.comp (m.fk.optimizerArray.getD k 0) (hasDerivAt_decode (.noise 0) (m.fk.optimizerArray.getD k 0))
  have hO := g3 m.fk.optimizerArray rfl k hk'
  unfold AverageGradientOf at hV hO
  have hz := (hV.sub hO).congr_of_eventuallyEq (f₁ := fun t => m.gapAt (m.fk.optimizerArray.set k t)) (Filter.Eventually.of_forall fun t => by
    show _ = V _ - m.objectiveAt _ _
    rw [g2 _ (by rw [List.length_set])]
    ring)
  have hd' := hd.congr_of_eventuallyEq (f₁ := fun t => m.gapAt (m.fk.optimizerArray.set k t)) (Filter.Eventually.of_forall fun t => hgap t)
  have := hz.unique hd'
  rw [sub_self, hdec] at this
  have hf : 0 < (Slot.noise 0).factor 0.1 1 := by
    unfold Slot.factor
    simp only [Slot.logexp, if_true, one_mul, sub_pos]
    rw [Real.exp_lt_one_iff]
    norm_num
  exact absurd this.symm (mul_neg_of_neg_of_pos hg0 hf).ne

end Verif
