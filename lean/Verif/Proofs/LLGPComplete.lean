import Verif.Proofs.ApproxGrad
import Verif.Proofs.LLGPHistory

/-! Updates of sound models complete. -/

namespace Verif

open Matrix

section
variable {fk : FK} {P : ℕ} {Xs : List (Arr2 ℝ)} {Ys : List (List ℝ)} {l : ExactLMC}

/-- the exact likelihood has the operators that the gradients need -/
theorem exact_opsFor (h : fk.Ready P) (hX : InputsOK fk.D P Xs) (hc : ExactContents fk Xs Ys l) :
    ∃ fs Dv, OpsFor l.ops fk (ownerOf (Xs.map Arr2.rows)) (fun q f r s => fk.kAt Xs f q r s) fs Dv := by
  have hlen : (Xs.map Arr2.rows).length = fk.D := by rw [List.length_map, hX.len]
  have hgl : l.grads.length = fk.kernels.length := hc.grads.length_eq.symm
  have : ∀ q, ∃ fs : List (ℝ → ℝ), q < fk.Q → l.grads.getD q [] = (fs.map fun f => .arr ⟨[(npVstack Xs).rows, (npVstack Xs).rows],
      (distArrOf (npVstack Xs) (npVstack Xs) (fk.kdims q)).data.map f⟩) ∧ fs.length = (fk.kernels.getD q (.identity none)).params.length := by
    intro q
    by_cases hq : q < fk.Q
    · obtain ⟨fs, f1, f2, -⟩ : GradsOf (npVstack Xs) (fk.kernels.getD q (.identity none)) (l.grads.getD q []) := by
        have := (List.forall₂_iff_get.1 hc.grads).2 q hq (by rw [hgl]; exact hq)
        rw [List.getD_eq_getElem _ _ hq, List.getD_eq_getElem _ _ (by rw [hgl]; exact hq)]
        exact this
      exact ⟨fs, fun _ => ⟨f1, f2⟩⟩
    · exact ⟨[], fun h => absurd h hq⟩
  choose fs hfs using this
  refine ⟨fs, fun f => (1 / 2) * ((((fk.covMat Xs)⁻¹ *ᵥ toVec _ Ys.flatten) ⬝ᵥ (fnMatrix (Xs.map Arr2.rows).sum (Xs.map Arr2.rows).sum f) *ᵥ
        ((fk.covMat Xs)⁻¹ *ᵥ toVec _ Ys.flatten)) -
        ∑ r, ∑ s, fnMatrix (Xs.map Arr2.rows).sum (Xs.map Arr2.rows).sum f r s * (fk.covMat Xs)⁻¹ r s), fun A _ _ _ q hq => ?_, fun A _ _ _ q hq => ?_, fun i hi => ?_,
    fun q hq => (hfs q hq).2⟩
  · rw [dKdA_ok h hX hc A hq, ok_bind]
    exact value_eq hc _
  · have hdK : l.ops.dKq A q = .ok ((fs q).map fun f => Arr2.of (Xs.map Arr2.rows).sum (Xs.map Arr2.rows).sum fun r s =>
        A.get (ownerOf (Xs.map Arr2.rows) r) (ownerOf (Xs.map Arr2.rows) s) * fk.kAt Xs f q r s) := by
      unfold ExactLMC.ops
      simp only
      rw [(hfs q hq).1, mapExcept_map, hc.kern, hc.lens]
      refine mapExcept_ok fun f _ => ?_
      rw [kvalArr2_ok, ok_bind]
      exact scale_at h hX A f hq
    rw [hdK, ok_bind, mapExcept_map]
    exact mapExcept_ok fun f _ => value_eq hc _
  · have e : l.ops.dKEps (vmk fk.D fun j => if j = i then 1 else 0) = .ok (Arr2.of (Xs.map Arr2.rows).sum (Xs.map Arr2.rows).sum fun r s =>
        if r = s then (if ownerOf (Xs.map Arr2.rows) r = i then 1 else 0) else 0) := by
      unfold ExactLMC.ops
      simp only
      rw [hc.lens, npDiag_get _ (Xs.map Arr2.rows).sum (npRepeat_length _ _ (by rw [vmk_length, hlen]))]
      congr 1
      refine Arr2.of_congr fun r hr s hs => ?_
      rw [npRepeat_getD _ _ _ (by rw [vmk_length, hlen]) hr, vmk_getD_lt (hlen ▸ ownerOf_lt _ r hr)]
    rw [e, ok_bind]
    exact value_eq hc _

end

section
variable {m : LLGP} {P : ℕ}

theorem approxFirst_ok {sv : Solvers} (hs : sv.Fit) {e : Env} (he : e.Works) (h : m.OK P) {K : MatObj} {A : ℕ → ℕ → ℝ} (hK : SquareOp K m.n A) :
    ∃ ks d x, approxFirst sv e m K = .ok (ks, d, x) ∧
      (∃ vals, m.fk.evalKernels (m.dists.map fun kd => (kd.1, .arr kd.2)) = .ok vals ∧ mapExcept kvalBttb vals = .ok ks) ∧
      d.alpha.length = m.n ∧ d.nIt = m.nIt ∧ (∀ r ∈ d.rs, r.length = m.n) ∧ ∀ r ∈ d.invRs, r.length = m.n := by
  obtain ⟨sol, h1, m', h2, -⟩ := generate_contents sv hs (m.service e) m.metrics e.z hK (y_length h) (he _)
  obtain ⟨Ks, k1, -⟩ := kvalBttb_model h
  have hsol : ∀ b, b.length = m.n → (sol b).length = m.n := fun b hb => by
    obtain ⟨lg, hlg⟩ := h1 b hb
    exact solve_length hs hK hb hlg
  have hrows : ∀ r ∈ signRows (m.service e).nIt m.n e.z, r.length = m.n := by
    intro r hr
    unfold signRows vmk at hr
    obtain ⟨k, -, rfl⟩ := List.mem_map.1 hr
    simp
  have hYs : m.gp.Ys ≠ [] := by
    intro e0
    have := h.data.lens
    rw [e0] at this
    have h0 := model_n_pos h
    unfold LLGP.n at h0
    rw [← this] at h0
    simp at h0
  refine ⟨vmk m.fk.Q Ks, ⟨sol m.y, signRows (m.service e).nIt m.n e.z, (signRows (m.service e).nIt m.n e.z).map sol, (m.service e).nIt⟩, m', ?_, ⟨_, evalKernels_model h, k1⟩, hsol _ (y_length h), rfl, hrows, fun r hr => ?_⟩
  · unfold approxFirst
    rw [if_neg hYs, evalKernels_model h, ok_bind, k1, ok_bind, h2]
    rfl
  · obtain ⟨b, hb, rfl⟩ := List.mem_map.1 hr
    exact hsol b (hrows b hb)

theorem dense_ok (h : m.OK P) (hp : (m.fk.covMat m.gp.Xs).PosDef) : ∃ l, m.dense = .ok l ∧ ExactContents m.fk m.gp.Xs m.gp.Ys l :=
  (exactLMC_contents h.ready h.data).1 hp

theorem Reads.liftOk {α : Type} {i : ℕ} {m : LLGP} {x : Except PyErr α} {a : α} (h : x = .ok a) : Reads i m (PyM.lift x) (.ok a) := h ▸ Reads.lift x

theorem reads_logLik {i : ℕ} {m : LLGP} : Reads i m (logLikelihoodM false i) (do let l ← m.dense; m.logLikelihoodOf l) :=
  (Reads.cached _ _ _ i m).bind fun _ => Reads.selfBind (Reads.lift _)

theorem reads_debug {i : ℕ} {m : LLGP} {e : Env} {l : ExactLMC} {q : ℝ} (hl : e.debug = true → m.dense = .ok l) (hq : m.normalQuadratic = .ok q) :
    Reads i m (debugMessages false e i) (.ok ()) := by
  unfold debugMessages
  by_cases hd : e.debug = true
  · rw [if_pos hd]
    have h1 : Reads i m (logLikelihoodM false i) (.ok ((logDetOf l).map fun d => -0.5 * (d + q + m.y.length * Real.log (2 * Real.pi)))) := by
      have := reads_logLik (i := i) (m := m)
      rw [hl hd, ok_bind] at this
      unfold LLGP.logLikelihoodOf at this
      rw [hq] at this
      exact this
    have h2 : Reads i m (normalQuadraticM i) (.ok q) := by
      have : Reads i m (normalQuadraticM i) m.normalQuadratic := Reads.selfBind (Reads.lift _)
      rwa [hq] at this
    have h3 : Reads i m (logDetM false i) (.ok (logDetOf l)) := by
      have : Reads i m (logDetM false i) (do let l ← m.dense; .ok (logDetOf l)) := (Reads.cached _ _ _ i m).bind fun _ => Reads.pure _
      rwa [hl hd] at this
    exact h1.bind fun _ => h2.bind fun _ => h3.bind fun _ => Reads.pure _
  · rw [if_neg hd]
    exact Reads.pure _

/-- `x` returns from every state in which object `i` is `m`, and leaves `m'` there -/
def Runs {α : Type} (i : ℕ) (m m' : LLGP) (x : PyM α) : Prop := ∀ w, w.heap i = some m → ∃ a w', x w = (.ok a, w') ∧ w'.heap i = some m'

theorem Runs.bind {α β : Type} {i : ℕ} {m m' m'' : LLGP} {x : PyM α} {f : α → PyM β} (h1 : Runs i m m' x) (h2 : ∀ a, Runs i m' m'' (f a)) : Runs i m m'' (x >>= f) := by
  intro w hw
  obtain ⟨a, w', e1, hw'⟩ := h1 w hw
  obtain ⟨b, w'', e2, hw''⟩ := h2 a w' hw'
  exact ⟨b, w'', by rw [py_bind, e1]; exact e2, hw''⟩

theorem Reads.runs {α : Type} {i : ℕ} {m : LLGP} {x : PyM α} {a : α} (h : Reads i m x (.ok a)) : Runs i m m x := by
  intro w hw
  obtain ⟨c, hc⟩ := h w hw
  exact ⟨a, _, hc, hw⟩

theorem Reads.thenRuns {α β : Type} {i : ℕ} {m m' : LLGP} {x : PyM α} {a : α} {f : α → PyM β} (h : Reads i m x (.ok a)) (h2 : Runs i m m' (f a)) : Runs i m m' (x >>= f) := by
  intro w hw
  obtain ⟨c, hc⟩ := h w hw
  obtain ⟨b, w'', e2, hw''⟩ := h2 { w with caches := c } hw
  exact ⟨b, w'', by rw [py_bind, hc]; exact e2, hw''⟩

theorem Runs.modify (i : ℕ) (m : LLGP) (f : LLGP → LLGP) : Runs i m (f m) (modifySelf i f) := fun _ hw => ⟨(), _, modify_run hw f, put_heap _ _ _⟩

theorem Reads.checkpoint {i : ℕ} {m : LLGP} {e : Env} {k : ℕ} (h : e.interrupt ≠ some k) : Reads i m (checkpoint e k) (.ok ()) := by
  intro w _
  refine ⟨w.caches, ?_⟩
  rw [checkpoint_run, if_neg h]

/-- An update of a sound model returns, if nothing interrupts it. -/
theorem update_completes {sv : Solvers} (hs : sv.Fit) {e : Env} (he : e.Works) (hi : e.interrupt = none) (h : m.OK P) (hn : 0 < m.nIt)
    (hp : (e.debug = true ∨ m.metrics ≠ none) → (m.fk.covMat m.gp.Xs).PosDef) {i : ℕ} {w : World} (hw : w.heap i = some m) (u : Bool) :
    ∃ w', parametersChanged u sv e i w = (.ok (), w') := by
  have hno : ∀ k, e.interrupt ≠ some k := fun k hk => by rw [hi] at hk; cases hk
  rw [(Agree.parametersChanged sv u false e i w trivial).1]
  obtain ⟨K, gks, g1, g2, g3, g4, -⟩ := genGridKernel_model h
  have hK : SquareOp K m.n (m.fk.skiFull m.axesOf m.fk.extraOf m.gp.Xs) := ⟨g4, g2, g3⟩
  obtain ⟨ks, d, x, a1, a2, a3, a4, a5, a6⟩ := approxFirst_ok hs he h hK
  obtain ⟨fs, hfs⟩ := exists_gradFns h
  set grads := vmk m.fk.Q fun q => (fs q).map fun f =>
      KVal.arr ⟨(m.distsOf (m.fk.kernels.getD q (.identity none))).shape, (m.distsOf (m.fk.kernels.getD q (.identity none))).data.map f⟩ with hgr
  have a7 : m.fk.evalKernelGradients (m.dists.map fun kd => (kd.1, .arr kd.2)) = .ok grads := evalKernelGradients_model h hfs
  obtain ⟨Dv, hDv⟩ := derivative_value a3 (by rw [a4]; exact hn) a5 a6
  have hl : ApproxOf m fs ⟨m.fk, m.y, m.lens, ks, K, d, grads, m.interp⟩ := ⟨rfl, rfl, rfl, a2, a7⟩
  have ho := approx_opsFor h hfs hl hDv
  have hms := (approxFirst_facts he a1).2
  set m1 := m.replaced (K, gks) (ks, d, x) grads with hm1
  have hq : m1.normalQuadratic = .ok (vdot m.y d.alpha) := by
    unfold LLGP.normalQuadratic
    show (do let k ← Except.ok _; _) = _
    rw [ok_bind]
    show (if m.y.length = d.alpha.length then _ else _) = _
    rw [if_pos (by rw [a3, y_length h])]
    rfl
  have hdense : m1.dense = m.dense := rfl
  have hmet : m1.metrics ≠ none → m.metrics ≠ none := by
    intro h1 h2
    rcases hms with ⟨-, q2⟩ | ⟨y, a, b, q1, -⟩
    · exact h1 q2
    · rw [h2] at q1; cases q1
  have hpos : (e.debug = true ∨ m1.metrics ≠ none) → ∃ l, m.dense = .ok l ∧ ExactContents m.fk m.gp.Xs m.gp.Ys l := by
    intro h1
    refine dense_ok h (hp ?_)
    rcases h1 with h1 | h1
    · exact .inl h1
    · exact .inr (hmet h1)
  have hrep : ∀ w, w.heap i = some m → replaceKernel sv e i w = (.ok (), w.put i m1) := by
    intro w hw
    rcases replace_outcome sv e hw with ⟨Kg, kd, gr, k1, k2, k3, -, k5⟩ | ⟨y, w', -, -, -, -, bad⟩
    · rw [g1] at k1
      cases k1
      rw [a1] at k2
      cases k2
      rw [a7] at k3
      cases k3
      exact k5
    · exfalso
      rcases bad with ⟨k, -, hk⟩ | ⟨y, hy⟩ | ⟨Kg, y, k1, k2⟩ | ⟨y, hy⟩
      · exact hno k hk
      · rw [g1] at hy; cases hy
      · rw [g1] at k1
        cases k1
        rw [a1] at k2; cases k2
      · rw [a7] at hy; cases hy
  have hdbg : Reads i m1 (debugMessages false e i) (.ok ()) := by
    by_cases hd : e.debug = true
    · obtain ⟨l, hl, -⟩ := hpos (.inl hd)
      exact reads_debug (l := l) (fun _ => hl) hq
    · unfold debugMessages
      rw [if_neg hd]
      exact Reads.pure _
  have hstore : Runs i m1 { m1 with grad := some (gradOf m.fk (ownerOf (m.gp.Xs.map Arr2.rows)) m.skiAt fs Dv) } (storeGradient i) := by
    unfold storeGradient
    refine (Reads.self i m1).thenRuns ?_
    refine (Reads.lift (m := m1) (x := .ok _)).thenRuns ?_
    have : m1.fk.updateGradient (⟨m.fk, m.y, m.lens, ks, K, d, grads, m.interp⟩ : ApproxLMC).ops = .ok (gradOf m.fk (ownerOf (m.gp.Xs.map Arr2.rows)) m.skiAt fs Dv) :=
      ho.updateGradient h.ready
    refine (Reads.liftOk this).thenRuns ?_
    exact Runs.modify i m1 _
  set m2 : LLGP := { m1 with grad := some (gradOf m.fk (ownerOf (m.gp.Xs.map Arr2.rows)) m.skiAt fs Dv) } with hm2
  have hrec : ∃ m3, Runs i m2 m3 (recordMetrics false e i) := by
    by_cases hmn : m2.metrics = none
    · refine ⟨m2, ?_⟩
      unfold recordMetrics
      refine (Reads.self i m2).thenRuns ?_
      rw [hmn]
      exact (Reads.pure ()).runs
    · obtain ⟨l, l1, l2⟩ := hpos (.inr hmn)
      obtain ⟨fs', Dv', ho'⟩ := exact_opsFor h.ready h.data.inputs l2
      obtain ⟨ga, ga1, ga2⟩ := ho.flat h.ready
      obtain ⟨ge, ge1, ge2⟩ := ho'.flat h.ready
      obtain ⟨y, hy⟩ := Option.ne_none_iff_exists'.1 hmn
      obtain ⟨m3, hm3⟩ : ∃ m3, m3 = (m2.withMetrics (m2.metrics.map fun x => { x with
        gradNorms := x.gradNorms ++ [infNorm ga], gradError := x.gradError ++ [infNorm (vsub ga ge) / infNorm ge] })).withMetrics ((m2.metrics.map fun x => { x with
        gradNorms := x.gradNorms ++ [infNorm ga], gradError := x.gradError ++ [infNorm (vsub ga ge) / infNorm ge] }).map fun x => { x with
          logLikely := x.logLikely ++ [((logDetOf l).map fun d' => -0.5 * (d' + vdot m.y d.alpha + m.y.length * Real.log (2 * Real.pi))).getD 0] }) := ⟨_, rfl⟩
      refine ⟨m3, ?_⟩
      unfold recordMetrics
      refine (Reads.self i m2).thenRuns ?_
      rw [hy]
      simp only
      refine (Reads.lift (m := m2) (x := .ok _)).thenRuns ?_
      have r1 : Reads i m2 (denseM false i) m2.dense := Reads.cached _ _ _ i m2
      rw [show m2.dense = .ok l from l1] at r1
      refine r1.thenRuns ?_
      refine (Reads.liftOk (a := ga) ga1).thenRuns ?_
      refine (Reads.liftOk (a := ge) ge1).thenRuns ?_
      refine (Reads.liftOk (a := (infNorm ga, infNorm (vsub ga ge) / infNorm ge)) ?_).thenRuns ?_
      · unfold gradNorms
        rw [if_pos (ga2.trans ge2.symm)]
      refine (Runs.modify i m2 _).bind fun _ => ?_
      refine (Reads.checkpoint (hno 5)).thenRuns ?_
      refine Reads.thenRuns (a := (logDetOf l).map fun d' => -0.5 * (d' + vdot m.y d.alpha + m.y.length * Real.log (2 * Real.pi))) ?_ (by rw [hm3]; exact Runs.modify i _ _)
      have := reads_logLik (i := i) (m := m2.withMetrics (m2.metrics.map fun x => { x with
        gradNorms := x.gradNorms ++ [infNorm ga], gradError := x.gradError ++ [infNorm (vsub ga ge) / infNorm ge] }))
      rw [show (m2.withMetrics (m2.metrics.map fun x => { x with
        gradNorms := x.gradNorms ++ [infNorm ga], gradError := x.gradError ++ [infNorm (vsub ga ge) / infNorm ge] })).dense = .ok l from l1, ok_bind] at this
      unfold LLGP.logLikelihoodOf at this
      rw [show (m2.withMetrics (m2.metrics.map fun x => { x with
        gradNorms := x.gradNorms ++ [infNorm ga], gradError := x.gradError ++ [infNorm (vsub ga ge) / infNorm ge] })).normalQuadratic = .ok (vdot m.y d.alpha) from hq] at this
      exact this
  obtain ⟨m3, hrec⟩ := hrec
  have htail : Runs i m1 m3 (do
      checkpoint e 3
      debugMessages false e i
      storeGradient i
      checkpoint e 4
      recordMetrics false e i) :=
    (Reads.checkpoint (hno 3)).thenRuns (hdbg.thenRuns (hstore.bind fun _ => (Reads.checkpoint (hno 4)).thenRuns hrec))
  obtain ⟨a, w', e1, -⟩ := htail (World.put { w with caches := Caches.empty } i m1) (put_heap _ _ _)
  refine ⟨w', ?_⟩
  unfold parametersChanged
  rw [py_bind]
  show (replaceKernel sv e i >>= _) { w with caches := Caches.empty } = _
  rw [py_bind, hrep { w with caches := Caches.empty } hw]
  exact e1

end

end Verif
