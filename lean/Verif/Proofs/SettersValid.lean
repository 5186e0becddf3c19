import Verif.Proofs.Setters

/-! Assignments to the parameters of a kernel that is part of a model. -/

namespace Verif

theorem arr_same {fk fk' : FK} (h : fk.SameBut fk') {q : ℕ} (h1 : (fk.coregVecs.getD q ⟨0, 0, []⟩).WF) (h2 : (fk'.coregVecs.getD q ⟨0, 0, []⟩).WF)
    (he : ∀ idx, IndexOf idx (fk.shapeAt (.vec q)) → fk'.entry (.vec q) idx = fk.entry (.vec q) idx) : fk'.coregVecs.getD q ⟨0, 0, []⟩ = fk.coregVecs.getD q ⟨0, 0, []⟩ := by
  have hs := h.2.2.2 (.vec q)
  have hr : (fk'.coregVecs.getD q ⟨0, 0, []⟩).rows = (fk.coregVecs.getD q ⟨0, 0, []⟩).rows := (List.cons.inj hs).1
  have hc : (fk'.coregVecs.getD q ⟨0, 0, []⟩).cols = (fk.coregVecs.getD q ⟨0, 0, []⟩).cols := (List.cons.inj (List.cons.inj hs).2).1
  rw [← Arr2.of_self h1, ← Arr2.of_self h2, hr, hc]
  exact Arr2.of_congr fun i hi j hj => he [i, j] (.cons hi (.cons hj .nil))

theorem diag_same {fk fk' : FK} (h : fk.SameBut fk') {q : ℕ}
    (he : ∀ idx, IndexOf idx (fk.shapeAt (.diag q)) → fk'.entry (.diag q) idx = fk.entry (.diag q) idx) : fk'.coregDiags.getD q [] = fk.coregDiags.getD q [] := by
  have hl : (fk'.coregDiags.getD q []).length = (fk.coregDiags.getD q []).length := (List.cons.inj (h.2.2.2 (.diag q))).1
  exact list_ext_getD 0 hl fun i hi => he [i] (.cons (by rw [← hl]; exact hi) .nil)

theorem sameBut_eq {fk fk' : FK} (h : fk.SameBut fk') (h1 : ∀ q < fk.coregVecs.length, (fk.coregVecs.getD q ⟨0, 0, []⟩).WF)
    (h2 : ∀ q < fk.coregVecs.length, (fk'.coregVecs.getD q ⟨0, 0, []⟩).WF) (he : ∀ t idx, IndexOf idx (fk.shapeAt t) → fk'.entry t idx = fk.entry t idx) : fk' = fk := by
  have e1 : fk'.noise = fk.noise := by
    have hl : fk'.noise.length = fk.noise.length := (List.cons.inj (h.2.2.2 .noise)).1
    exact list_ext_getD 0 hl fun i hi => he .noise [i] (.cons (by rw [← hl]; exact hi) .nil)
  have e2 : fk'.coregVecs = fk.coregVecs := list_ext_getD ⟨0, 0, []⟩ h.2.1 fun q hq => by
    rw [h.2.1] at hq
    exact arr_same h (h1 q hq) (h2 q hq) (he _)
  have e3 : fk'.coregDiags = fk.coregDiags := list_ext_getD [] h.2.2.1 fun q _ => diag_same h (he _)
  rw [h.1, e1, e2, e3]

theorem sameBut_valid {fk fk' : FK} (hw : fk.WF) (hv : ∀ k ∈ fk.kernels, k.Valid) (hs : fk.Sound) (hl : fk.Linked) (h : fk.SameBut fk')
    (hA : ∀ q < fk.kernels.length, (fk'.coregVecs.getD q ⟨0, 0, []⟩).WF) (hn : ∀ i < fk.D, 0 < fk'.entry .noise [i])
    (hκ : ∀ q < fk.kernels.length, ∀ i < fk.D, 0 ≤ fk'.entry (.diag q) [i])
    (hu : ∀ t, fk.links t = false → ∀ idx, IndexOf idx (fk.shapeAt t) → fk'.entry t idx = fk.entry t idx) : fk.Retuned fk' ∧ fk'.Sound := by
  obtain ⟨h1, h2, h3, h4⟩ := h
  have hd : fk'.D = fk.D := by rw [h1]
  have hk : fk'.kernels = fk.kernels := by rw [h1]
  have hnl : fk'.numLmcTotal = fk.numLmcTotal := by rw [h1]
  have hns : fk'.numSlfmTotal = fk.numSlfmTotal := by rw [h1]
  have hrow : ∀ q, (fk'.coregVecs.getD q ⟨0, 0, []⟩).rows = (fk.coregVecs.getD q ⟨0, 0, []⟩).rows := fun q => (List.cons.inj (h4 (.vec q))).1
  have hcol : ∀ q, (fk'.coregVecs.getD q ⟨0, 0, []⟩).cols = (fk.coregVecs.getD q ⟨0, 0, []⟩).cols := fun q => (List.cons.inj (List.cons.inj (h4 (.vec q))).2).1
  have hlen : ∀ q, (fk'.coregDiags.getD q []).length = (fk.coregDiags.getD q []).length := fun q => (List.cons.inj (h4 (.diag q))).1
  have hnoise : fk'.noise.length = fk.noise.length := (List.cons.inj (h4 .noise)).1
  have hwf : fk'.WF := by
    refine ⟨by rw [hd]; exact hw.Dpos, by rw [h2, hk]; exact hw.vecs, by rw [h3, hk]; exact hw.diags, by rw [hnoise, hd]; exact hw.noise, by rw [hnl, hns, hk]; exact hw.counts, ?_, ?_, ?_, ?_, ?_⟩
    · intro q hq
      rw [hk] at hq
      rw [hcol, hrow, hd]
      exact ⟨hA q hq, (hw.vec q hq).2⟩
    · intro q hq
      rw [hk] at hq
      rw [hlen, hd]
      exact hw.diag q hq
    · intro q hq1 hq2 i
      rw [hnl] at hq1
      rw [hnl, hns] at hq2
      rw [diag_same ⟨h1, h2, h3, h4⟩ (hu (.diag q) (by
        show decide (q < fk.linkedDiags) = false
        rw [hl.2]; simpa using hq1))]
      exact hw.slfm q hq1 hq2 i
    · intro q hq1 hq2
      rw [hnl] at hq1
      rw [hnl, hns] at hq2
      rw [hrow]
      exact hw.slfmRank q hq1 hq2
    · intro q hq i j
      rw [hnl, hns] at hq
      by_cases hql : q < fk.kernels.length
      · rw [arr_same ⟨h1, h2, h3, h4⟩ (hw.vec q hql).1 (hA q hql) (hu (.vec q) (by
          show decide (q < fk.linkedVecs) = false
          rw [hl.1]; simpa using hq))]
        exact hw.indep q hq i j
      · rw [List.getD_eq_default _ _ (by rw [h2, hw.vecs]; omega)]
        rfl
  refine ⟨⟨hwf, hd, by rw [h1], hnl, hns, by rw [h1], by rw [h1], by rw [h1], by rw [h1], by rw [hk], fun q _ => by rw [hk], by rw [hk]; exact hv⟩, ?_⟩
  refine ⟨fun q hq => ?_, by rw [hk]; exact hs.plain, fun q hq a ha => hκ q ?_ a ?_, fun a ha => hn a ?_⟩
  · have hq : q < fk.Q := by
      have : q < fk'.kernels.length := hq
      rw [hk] at this
      exact this
    have := hs.kernels q hq
    unfold FK.KernelPSD FK.kdims at this ⊢
    rw [hk]
    exact this
  · have : q < fk'.kernels.length := hq
    rw [hk] at this
    exact this
  · rw [← hd]; exact ha
  · rw [← hd]; exact ha

/-- the values of the assignments `ps` are valid for `fk` -/
def Proper (fk : FK) (ps : List (Target × NDArr ℝ)) : Prop := ∀ p ∈ ps, fk.has p.1 ∧ BroadcastsTo p.2.shape (fk.shapeAt p.1) ∧
  (fk.links p.1 = false → ∀ idx, IndexOf idx (fk.shapeAt p.1) → p.2.spread idx = fk.entry p.1 idx) ∧
  (p.1 = .noise → ∀ i < fk.D, 0 < p.2.spread [i]) ∧ (∀ q, p.1 = .diag q → ∀ i < fk.D, 0 ≤ p.2.spread [i])

theorem assign_valid {fk : FK} {P : ℕ} (hr : fk.Ready P) (hs : fk.Sound) (hl : fk.Linked) {p : Target × NDArr ℝ} {ps : List (Target × NDArr ℝ)} (h : Proper fk (p :: ps)) :
    ∃ fk', fk.assign p.1 p.2 = .ok fk' ∧ fk.Retuned fk' ∧ fk'.Sound ∧ fk'.Linked ∧ Proper fk' ps ∧ (fk.links p.1 = false → fk' = fk) := by
  have hw := hr.wf
  obtain ⟨h1, h2, h3, h4, h5⟩ := h p (by simp)
  obtain ⟨fk', g1, g2, g3, g4⟩ := assign_ok h1 h2
  have hu : ∀ t, fk.links t = false → ∀ idx, IndexOf idx (fk.shapeAt t) → fk'.entry t idx = fk.entry t idx := by
    intro t ht idx hi
    rw [g3 t idx hi]
    by_cases e : t = p.1
    · subst e
      rw [if_pos rfl, h3 ht idx hi]
    · rw [if_neg e]
  have hA : ∀ q < fk.kernels.length, (fk'.coregVecs.getD q ⟨0, 0, []⟩).WF := fun q hq => g4 q (hw.vec q hq).1
  obtain ⟨v1, v2⟩ := sameBut_valid hw hr.valid hs hl g2 hA (fun i hi => by
      rw [g3 .noise [i] (.cons (by rw [hw.noise]; exact hi) .nil)]
      by_cases e : Target.noise = p.1
      · rw [if_pos e]; exact h4 e.symm i hi
      · rw [if_neg e]; exact hs.noise i hi) (fun q hq i hi => by
      rw [g3 (.diag q) [i] (.cons (by rw [hw.diag q hq]; exact hi) .nil)]
      by_cases e : Target.diag q = p.1
      · rw [if_pos e]; exact h5 q e.symm i hi
      · rw [if_neg e]; exact hs.kappa q hq i hi) hu
  have hlk : fk'.Linked := by
    unfold FK.Linked
    rw [g2.1]
    exact hl
  refine ⟨fk', g1, v1, v2, hlk, fun p' hp' => ?_, fun he => ?_⟩
  · obtain ⟨k1, k2, k3, k4, k5⟩ := h p' (by simp [hp'])
    refine ⟨(g2.has _).2 k1, by rw [g2.2.2.2]; exact k2, fun hn idx hi => ?_, by rw [v1.outputs]; exact k4, by rw [v1.outputs]; exact k5⟩
    rw [g2.2.2.2] at hi
    rw [g2.links] at hn
    rw [k3 hn idx hi, hu _ hn idx hi]
  · refine sameBut_eq g2 (fun q hq => (hw.vec q (by rw [← hw.vecs]; exact hq)).1) (fun q hq => hA q (by rw [← hw.vecs]; exact hq)) fun t idx hi => ?_
    rw [g3 t idx hi]
    by_cases e : t = p.1
    · subst e
      rw [if_pos rfl, h3 he idx hi]
    · rw [if_neg e]

theorem put_same {w : World} {i : ℕ} {m : LLGP} (h : w.heap i = some m) : w.put i m = w := by
  obtain ⟨heap, next, caches⟩ := w
  unfold World.put
  simp only [World.mk.injEq, and_true, true_and]
  funext j
  by_cases e : j = i
  · rw [if_pos e, e]; exact h.symm
  · rw [if_neg e]

/-- one assignment to an array of a model of a valid program is an update, or nothing -/
theorem assignM_step {sv : Solvers} (hs : sv.Fit) {fks : List FK} {w : World} (hh : Healthy sv fks w) {i : ℕ} {m : LLGP} (hm : w.heap i = some m) {e : Env} (he : e.Calm)
    {fk' : FK} {p : Target × NDArr ℝ} (ha : m.fk.assign p.1 p.2 = .ok fk') (hr : m.fk.Retuned fk') (hso : fk'.Sound) (hsame : m.fk.links p.1 = false → fk' = m.fk) :
    ∃ sets fks' m', (sets = [] ∨ sets = [Op.set i fk' e]) ∧ assignM true sv e i p w = (.ok (), (history true sv sets w).2) ∧ Healthy sv fks' (history true sv sets w).2 ∧
      (∀ rest, ValidFrom fks' rest → ValidFrom fks (sets ++ rest)) ∧ (history true sv sets w).2.heap i = some m' ∧ m'.fk = fk' := by
  have hrun : assignM true sv e i p w = (if m.fk.links p.1 then parametersChanged true sv e i else (pure () : PyM Unit)) (w.put i { m with fk := fk' }) := by
    unfold assignM
    rw [py_bind, self_run hm]
    simp only
    rw [py_bind, ha, lift_run]
    simp only
    rw [py_bind, modify_run hm]
  cases hlk : m.fk.links p.1 with
  | false =>
    have hf := hsame hlk
    subst hf
    refine ⟨[], fks, m, Or.inl rfl, ?_, hh, fun _ h => h, hm, rfl⟩
    rw [hrun, hlk]
    show (Except.ok (), w.put i { m with fk := m.fk }) = (.ok (), w)
    rw [show ({ m with fk := m.fk } : LLGP) = m from rfl, put_same hm]
  | true =>
    obtain ⟨P, k, q1, q2, q3, q4⟩ := hh.at hm
    obtain ⟨m', k', c, s1, -, s3, -⟩ := set_completes hs q1 hr q2 he (fun _ => sound_posDef (q1.retuned hr) hso) true hm
    obtain ⟨fks', -, g2, -, -, g5, -⟩ := healthy_step hs (.set i fk' e) [] fks w hh ⟨m.fk, hh.listed hm, hr, hso, he, trivial⟩
    refine ⟨[.set i fk' e], fks', m', Or.inr rfl, ?_, g5, g2, ?_, s3⟩
    · rw [hrun, hlk]
      show parametersChanged true sv e i _ = (.ok (), (execOp true sv (.set i fk' e) w).2)
      have hx : execOp true sv (.set i fk' e) w = (parametersChanged true sv e i >>= fun _ => pure Answer.unit) (w.put i { m with fk := fk' }) := by
        unfold execOp
        simp only
        rw [py_bind, modify_run hm]
      rw [py_bind] at hx
      rw [hx] at s1 ⊢
      revert s1
      rcases parametersChanged true sv e i (w.put i { m with fk := fk' }) with ⟨a, w'⟩
      intro s1
      cases a with
      | ok u => rfl
      | error err => cases s1
    · show (execOp true sv (.set i fk' e) w).2.heap i = some m'
      rw [s1]
      exact put_heap _ _ _

theorem assignAllM_valid {sv : Solvers} (hs : sv.Fit) {es : ℕ → Env} (hes : ∀ k, (es k).Calm) {i : ℕ} : ∀ (ps : List (Target × NDArr ℝ)) (k : ℕ) (fks : List FK) (w : World) (m : LLGP),
    Healthy sv fks w → w.heap i = some m → m.fk.Linked → Proper m.fk ps →
    ∃ sets fks' m' fk', (∀ op ∈ sets, ∃ fk e, op = Op.set i fk e) ∧ assignAllM true sv es i k ps w = (.ok (), (history true sv sets w).2) ∧ Healthy sv fks' (history true sv sets w).2 ∧
      (∀ rest, ValidFrom fks' rest → ValidFrom fks (sets ++ rest)) ∧ (history true sv sets w).2.heap i = some m' ∧ m.fk.assignAll ps = (.ok (), fk') ∧ m'.fk = fk'
  | [], k, fks, w, m, hh, hm, _, _ => ⟨[], fks, m, m.fk, by simp, rfl, hh, fun _ h => h, hm, rfl, rfl⟩
  | p :: ps, k, fks, w, m, hh, hm, hl, hp => by
    obtain ⟨P, kk, q1, q2, q3, q4⟩ := hh.at hm
    obtain ⟨fk₁, a1, a2, a3, a4, a5, a6⟩ := assign_valid q1.ready q4 hl hp
    obtain ⟨sets, fks₁, m₁, b1, b2, b3, b4, b5, b6⟩ := assignM_step hs hh hm (hes k) a1 a2 a3 a6
    obtain ⟨sets', fks', m', fk', c1, c2, c3, c4, c5, c6, c7⟩ := assignAllM_valid hs hes ps (k + 1) fks₁ _ m₁ b3 b5 (by rw [b6]; exact a4) (by rw [b6]; exact a5)
    refine ⟨sets ++ sets', fks', m', fk', ?_, ?_, ?_, ?_, ?_, ?_, c7⟩
    · intro op ho
      rcases List.mem_append.1 ho with ho | ho
      · rcases b1 with rfl | rfl
        · cases ho
        · exact ⟨_, _, List.mem_singleton.1 ho⟩
      · exact c1 op ho
    · unfold assignAllM
      rw [py_bind, b2]
      simp only
      rw [c2, history_append]
    · rw [history_append]; exact c3
    · intro rest hrest
      rw [List.append_assoc]
      exact b4 _ (c4 rest hrest)
    · rw [history_append]; exact c5
    · unfold FK.assignAll
      rw [a1]
      rw [b6] at c6
      exact c6

end Verif
