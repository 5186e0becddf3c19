import Verif.Proofs.SettersValid
import Verif.Proofs.LLGPTiny
import Verif.Proofs.SkiPsd
import Verif.Props.Reordered

/-! A model whose answers depend on which questions were asked before an assignment. -/

namespace Verif

/-- after an update that logs nothing and records no metrics the caches are empty -/
theorem caches_quiet {sv : Solvers} {u : Bool} {e : Env} (he : e.Works) (hdb : e.debug = false) {i : ℕ} {w w' : World} {m : LLGP} (h : w.heap i = some m) (hm : m.metrics = none)
    (hr : parametersChanged u sv e i w = (.ok (), w')) : w'.caches = Caches.empty := by
  unfold parametersChanged at hr
  rw [py_bind_ok] at hr
  obtain ⟨_, w1, h1, hr⟩ := hr
  obtain ⟨-, rfl⟩ := Prod.mk.inj h1
  rw [py_bind_ok] at hr
  obtain ⟨_, w2, h2, hr⟩ := hr
  rcases replace_outcome sv e (w := { w with caches := Caches.empty }) h with ⟨Kg, kd, grads, k1, k2, k3, -, k5⟩ | ⟨x, w3, hx, -⟩
  swap
  · rw [hx] at h2
    cases congrArg Prod.fst h2
  rw [k5] at h2
  obtain ⟨-, rfl⟩ := Prod.mk.inj h2
  have hms := (approxFirst_facts he k2).2
  rw [py_bind_ok] at hr
  obtain ⟨_, w3, h3, hr⟩ := hr
  rw [checkpoint_run] at h3
  obtain ⟨-, rfl⟩ := Prod.mk.inj h3
  rw [py_bind_ok] at hr
  obtain ⟨_, w4, h4, hr⟩ := hr
  unfold debugMessages at h4
  rw [hdb] at h4
  obtain ⟨-, rfl⟩ := Prod.mk.inj h4
  rw [py_bind_ok] at hr
  obtain ⟨_, w5, h5, hr⟩ := hr
  obtain ⟨g, rfl⟩ := store_ok (m := m.replaced Kg kd grads) (if_pos rfl) h5
  rw [py_bind_ok] at hr
  obtain ⟨_, w6, h6, hr⟩ := hr
  rw [checkpoint_run] at h6
  obtain ⟨-, rfl⟩ := Prod.mk.inj h6
  rcases record_ok (put_heap _ i _) hr with ⟨e1, rfl⟩ | ⟨x, a, b, c, cs, e1, rfl⟩
  · rfl
  · rcases hms with ⟨q1, q2⟩ | ⟨x', a', b', q1, q2⟩
    · rw [show ({ m.replaced Kg kd grads with grad := some g } : LLGP).metrics = kd.2.2 from rfl, q2] at e1
      cases e1
    · rw [hm] at q1
      cases q1

/-- asking for the covariance with an empty cache computes it -/
theorem covariance_fresh {sv : Solvers} {e : Env} {i : ℕ} {w : World} {m : LLGP} (hm : w.heap i = some m) (hc : w.caches = Caches.empty) {l : ExactLMC} (hl : m.dense = .ok l) :
    askM true sv e i .covariance w = (.ok (.matrix l.K), { w with caches := { Caches.empty with dense := some (i, l) } }) := by
  have h : denseM true i w = (.ok l, { w with caches := { Caches.empty with dense := some (i, l) } }) := by
    unfold denseM cachedCall
    simp only [hm, hc, hl, Caches.empty]
  unfold askM
  simp only
  rw [py_bind, h]
  rfl

/-- asking for the covariance with the cache filled returns what is there -/
theorem covariance_cached {sv : Solvers} {e : Env} {i : ℕ} {w : World} {m : LLGP} (hm : w.heap i = some m) {l : ExactLMC} (hc : w.caches.dense = some (i, l)) :
    (askM true sv e i .covariance w).1 = .ok (.matrix l.K) := by
  have h : denseM true i w = (.ok l, w) := by
    unfold denseM cachedCall
    simp only [hm, hc]
    rw [if_pos ⟨trivial, trivial⟩]
  unfold askM
  simp only
  rw [py_bind, h]
  rfl

theorem exists_tinyIndep : ∃ fk : FK, fk.kernels = [.rbf 1 none] ∧ fk.D = 1 ∧ fk.noise = [0.1] ∧ fk.coregDiags = [[1]] ∧ fk.B 0 0 0 = 1 ∧ fk.WF ∧ fk.Fresh ∧
    fk.linkedDiags = 0 ∧ fk.numLmcTotal = 0 ∧ fk.numSlfmTotal = 0 ∧ fkNew (fun q i j => i + j) ⟨some 1, some [], some [], none, some [.rbf 1 none], none⟩ = .ok fk := by
  have hdoc : (⟨some 1, some [], some [], none, some [.rbf 1 none], none⟩ : FKArgs).Documented :=
    ⟨⟨1, rfl, by norm_num⟩, by simp [given], rfl, by simp [given], .inl rfl⟩
  have hin : (⟨some 1, some [], some [], none, some [.rbf 1 none], none⟩ : FKArgs).InRange :=
    fun D hD => by cases hD; simp [given, FKArgs.idx, indexOrRange]
  obtain ⟨D, hD, h⟩ := (fkNew_given (fun q i j => i + j) _ (by simp) (by simp)).1 hdoc hin
  have hD2 : D = 1 := by simp at hD; omega
  subst hD2
  obtain ⟨hk, -, hQ, hw, hf⟩ := C29_contents _ _ _ (by simp) (by simp) h
  have hκ : ∀ fk : FK, fk.coregDiags = [[1]] → fk.WF → fk.numLmcTotal = 0 → fk.numSlfmTotal = 0 → fk.B 0 0 0 = 1 := fun fk h1 hw h2 h3 => by
    unfold FK.B
    rw [Finset.sum_eq_zero fun r _ => by rw [hw.indep 0 (by omega) r 0, mul_zero], h1]
    simp
  refine ⟨_, hk, rfl, ?_, ?_, hκ _ ?_ hw rfl rfl, hw, hf, rfl, rfl, rfl, h⟩
  · simp [vmk, List.range_succ]
  · simp [vmk, List.range_succ, given, FKArgs.idx, indexOrRange]
  · simp [vmk, List.range_succ, given, FKArgs.idx, indexOrRange]

/-- the covariance of the first observation of the small model with itself -/
theorem tiny_first {fk : FK} {Xs : List (Arr2 ℝ)} (hX : Xs = [⟨2, 1, [0, 1]⟩]) (hk : fk.kernels = [.rbf 1 (some [0])]) (hn : fk.noise = [0.1]) :
    fk.fullCov Xs 0 0 = fk.B 0 0 0 + 0.1 := by
  subst hX
  unfold FK.fullCov FK.cov
  simp [FK.Q, hk, hn, ownerOf, distOn, Kern.doc]

/-- what creating the small model leaves -/
theorem tiny_created {sv : Solvers} (hs : sv.Fit) {fk : FK} {m₀ : LLGP} (hinit : llgpInit (tinyArgs fk) = .ok m₀) (ht : Tiny m₀ 1 0.1) :
    ∃ m w, execOp true sv (.new (tinyArgs fk) quiet) World.start = (.ok (.model 0), w) ∧ w.caches = Caches.empty ∧ w.heap 0 = some m ∧ Tiny m 1 0.1 ∧ m.fk = m₀.fk := by
  obtain ⟨f1, f2, f3, f4, -⟩ := init_fields hinit
  have hmet : m₀.metrics = none := by rw [f3]; rfl
  obtain ⟨w', hw'⟩ := update_completes hs quiet_calm.1 quiet_calm.2 ht.ok (by rw [f4]; norm_num [tinyArgs]) (fun hdm => by
      rcases hdm with hdm | hdm
      · cases hdm
      · exact absurd hmet hdm) (i := 0) (w := ⟨fun j => if j = 0 then some m₀ else none, 1, World.start.caches⟩) (show (if (0 : ℕ) = 0 then some m₀ else none) = some m₀ from if_pos rfl) true
  obtain ⟨m', k, c, g1, g2, g3, -⟩ := update_complete quiet_calm.1 (w := ⟨fun j => if j = 0 then some m₀ else none, 1, World.start.caches⟩) (show (if (0 : ℕ) = 0 then some m₀ else none) = some m₀ from if_pos rfl) hw'
  have hc := caches_quiet quiet_calm.1 rfl (w := ⟨fun j => if j = 0 then some m₀ else none, 1, World.start.caches⟩) (show (if (0 : ℕ) = 0 then some m₀ else none) = some m₀ from if_pos rfl) hmet hw'
  obtain ⟨p1, p2, p3, p4, p5, p6⟩ := core_parts g3
  refine ⟨m', w', ?_, hc, (by rw [g1]; exact put_heap ⟨fun j => if j = 0 then some m₀ else none, 1, World.start.caches⟩ 0 m'), ?_, p2⟩
  · unfold execOp
    simp only
    rw [py_bind, lift_run, hinit]
    simp only
    rw [py_bind]
    unfold allocate
    simp only
    rw [py_bind]
    rw [show (parametersChanged true sv quiet World.start.next { World.start with heap := fun j => if j = World.start.next then some m₀ else World.start.heap j, next := World.start.next + 1 }) = (.ok (), w')
      from hw']
    rfl
  · have ha : ∀ ad, m'.axesOf ad = m₀.axesOf ad := fun ad => by unfold LLGP.axesOf; rw [p3]
    exact ⟨ht.ok.of_core g3, by rw [p2]; exact ht.sound, by rw [p4]; exact ht.mode, by rw [p1]; exact ht.xs, by rw [p1]; exact ht.ys, by rw [p1]; exact ht.norm, by rw [p2]; exact ht.D,
      by rw [p2]; exact ht.group, by rw [ha]; exact ht.axes, by rw [p2]; exact ht.kernels, by rw [p2]; exact ht.coreg, ht.pos, by rw [p2]; exact ht.noise⟩

/-- an assignment to an array that is no parameter leaves the caches alone -/
theorem setting_unlinked {sv : Solvers} {es : ℕ → Env} {i : ℕ} {w : World} {m : LLGP} (hm : w.heap i = some m) {s : Setting} {t : Target} {v : NDArr ℝ}
    (hs : s.pairs m.fk = [(t, v)]) (hl : m.fk.links t = false) {fk' : FK} (ha : m.fk.assign t v = .ok fk') :
    settingM true sv es i s w = (.ok (), w.put i { m with fk := fk' }) := by
  unfold settingM
  rw [py_bind, self_run hm]
  simp only [hs]
  unfold assignAllM
  rw [py_bind]
  have h : assignM true sv (es 0) i (t, v) w = (.ok (), w.put i { m with fk := fk' }) := by
    unfold assignM
    rw [py_bind, self_run hm]
    simp only
    rw [ha, py_bind, lift_run]
    simp only
    rw [py_bind, modify_run hm]
    simp only [hl, Bool.false_eq_true, if_false]
    rfl
  rw [h]
  rfl

/-- the kernel of the small model with the variance of its independent GP replaced -/
theorem tiny_reassigned {m : LLGP} (h : Tiny m 1 0.1) (hκ : m.fk.coregDiags = [[1]]) (h1 : m.fk.numLmcTotal = 0) (h2 : m.fk.numSlfmTotal = 0) :
    m.fk.assign (.diag 0) ⟨[1], [4]⟩ = .ok { m.fk with coregDiags := [[4]] } ∧ ({ m with fk := { m.fk with coregDiags := [[4]] } } : LLGP).OK 1 ∧
      ({ m.fk with coregDiags := [[4]] } : FK).Sound ∧ ({ m.fk with coregDiags := [[4]] } : FK).B 0 0 0 = 4 := by
  have hw := h.ok.ready.wf
  have hQ : m.fk.kernels.length = 1 := by rw [h.kernels]; rfl
  have hvec : ∀ j, (m.fk.coregVecs.getD 0 ⟨0, 0, []⟩).get j 0 = 0 := fun j => hw.indep 0 (by omega) j 0
  refine ⟨?_, h.ok.retuned ⟨⟨hw.Dpos, hw.vecs, by rw [hQ]; rfl, hw.noise, hw.counts, hw.vec, fun q hq => ?_, fun q _ hq => by
      have hq : q < m.fk.numLmcTotal + m.fk.numSlfmTotal := hq
      omega, hw.slfmRank, hw.indep⟩, rfl, rfl, rfl, rfl, rfl, rfl, rfl, rfl, rfl, fun _ _ => rfl, h.ok.ready.valid⟩,
      ⟨h.sound.kernels, h.sound.plain, fun q hq a ha => ?_, h.sound.noise⟩, ?_⟩
  · unfold FK.assign
    simp [hκ, fill1, stripOnes, vmk]
  · have : q < 1 := by rw [← hQ]; exact hq
    interval_cases q
    rw [h.D]
    rfl
  · have h0 : q < 1 := by rw [← hQ]; exact hq
    have h3 : a < 1 := by rw [← h.D]; exact ha
    interval_cases q
    interval_cases a
    norm_num
  · unfold FK.B
    rw [Finset.sum_eq_zero fun r _ => by
      show (m.fk.coregVecs.getD 0 ⟨0, 0, []⟩).get r 0 * _ = 0
      rw [hvec, zero_mul]]
    simp

end Verif
