import Verif.Props.Optimizer
import Verif.Props.ApproxUnbiased
import Mathlib.Analysis.SpecialFunctions.Log.Deriv

/-! C91: the gradient `optimize` follows. -/

namespace Verif

theorem hasDerivAt_decode (s : Slot) (x : ℝ) : HasDerivAt s.decode (s.factor (s.decode x) 1) x := by
  unfold Slot.factor
  cases hl : s.logexp with
  | false =>
    have : s.decode = id := by funext y; unfold Slot.decode; rw [hl]; rfl
    rw [this]
    exact hasDerivAt_id x
  | true =>
    have : s.decode = fun y => Real.log (1 + Real.exp y) := by funext y; unfold Slot.decode; rw [hl]; rfl
    rw [this]
    have hpos : 0 < 1 + Real.exp x := by positivity
    have h := ((Real.hasDerivAt_exp x).const_add 1).log hpos.ne'
    convert h using 1
    simp only [if_true]
    rw [Real.exp_neg, Real.exp_log hpos]
    field_simp
    ring

theorem factor_mul (s : Slot) (v d : ℝ) : s.factor v d = s.factor v 1 * d := by
  unfold Slot.factor
  split_ifs <;> ring

/-- the derivative in one entry of the flat array, before the transformation -/
theorem unbiased_slot {m : LLGP} {P : ℕ} (h : m.OK P) (ht : m.fk.Tunable) {extra : List ℕ × List ℕ → ℝ} {G : (Fin m.nIt → Fin m.n → Bool) → FKGrad} (hG : Unbiased m extra G)
    {s : Slot} (hs : s ∈ m.fk.slots) :
    HasDerivAt (fun u => (m.fk.write s u).skiLogLik m.axesOf extra m.gp.Xs m.gp.Ys) ((∑ z, (G z).read s) / 2 ^ (m.nIt * m.n)) (m.fk.read s) := by
  have hw := h.ready.wf
  cases s with
  | kern q j =>
    obtain ⟨h1, h2⟩ := mem_slots.1 hs
    have := hG.kernels q h1 j (h2.trans_le (Kern.linked_le _))
    rw [Kern.linked_params _ h2] at this
    refine this.congr_of_eventuallyEq (Filter.Eventually.of_forall fun u => ?_)
    show _ = (m.fk.setKern q j u).skiLogLik _ _ _ _
    unfold FK.setKern FK.write
    simp only
    rw [Kern.write_setParam _ u h2]
  | vec q i j =>
    obtain ⟨h1, h2, h3⟩ := mem_slots.1 hs
    have hq : q < m.fk.Q := by show q < m.fk.kernels.length; have := hw.counts; rw [ht.vecs] at h1; omega
    exact hG.vecs q hq i h2 j (by rw [← (hw.vec q hq).2.1]; exact h3)
  | diag q i =>
    obtain ⟨h1, h2⟩ := mem_slots.1 hs
    have hq : q < m.fk.Q := by show q < m.fk.kernels.length; have := hw.counts; rw [ht.diags] at h1; omega
    exact hG.diags q hq i (by rw [← hw.diag q hq]; exact h2)
  | noise i =>
    have h1 := mem_slots.1 hs
    exact hG.noise i (by rw [← hw.noise]; exact h1)

theorem setOptimizerArray_set {fk : FK} {x : List ℝ} (hx : x.length = fk.slots.length) {k : ℕ} (hk : k < fk.slots.length) (t : ℝ) :
    fk.setOptimizerArray (x.set k t) = (fk.setOptimizerArray x).write fk.slots[k] (fk.slots[k].decode t) :=
  writeAll_set _ _ _ _ (slots_nodup fk) k hk t hx

/-- C91: with exact linear solves, the gradients the optimiser gets at any point average over all equally likely outcomes of the probes to the partial derivatives there, in the
optimiser's own coordinates, of its objective: the negative log marginal likelihood of the interpolated covariance the model uses. -/
theorem C91_gradient (sv : Solvers) (hs : sv.Fit) (m : LLGP) (P : ℕ) (h : m.OK P) (hn : 0 < m.nIt) (hS : m.fk.Sound) (ht : m.fk.Tunable)
    (hd : ∀ ad ∈ m.fk.activeDims.map Prod.fst, ad.Nodup) (x : List ℝ) (hlen : x.length = m.fk.optimizerArray.length)
    (hp : ∀ k ∈ (m.fk.setOptimizerArray x).kernels, k.PeriodOK)
    (hx : ∀ K gks, genGridKernel (m.fk.setOptimizerArray x) m.dists m.interp m.lens = .ok (K, gks) →
      ExactSolves sv K m.n ((m.fk.setOptimizerArray x).skiFull m.axesOf (m.fk.setOptimizerArray x).extraOf m.gp.Xs) m.tol)
    (e : Env) (he : e.Works) (hi : e.interrupt = none) (useCache : Bool) (w : World) (i : ℕ) (hw : w.heap i = some m) :
    ∃ g : (Fin m.nIt → Fin m.n → Bool) → List ℝ, (∀ z, (gradsAt useCache sv { e with z := tableBits z } i x w).1 = .ok (g z) ∧ (g z).length = x.length) ∧
      ∀ k < x.length, HasDerivAt (fun t => m.objectiveAt (m.fk.setOptimizerArray x).extraOf (x.set k t)) ((∑ z, (g z).getD k 0) / 2 ^ (m.nIt * m.n)) (x.getD k 0) := by
  have hl : x.length = m.fk.slots.length := by rw [hlen]; exact List.length_map _
  obtain ⟨t1, t2, t3⟩ := tuned_valid h.ready hS ht hl hp
  have hsl := setOptimizerArray_slots m.fk x
  have hst := ht.stored h.ready.wf
  have hok := h.retuned t1
  obtain ⟨G₀, g1, g2⟩ := C67_unbiased sv hs { m with fk := m.fk.setOptimizerArray x } P hok hn t2 (by rw [show LLGP.fk { m with fk := m.fk.setOptimizerArray x } = m.fk.setOptimizerArray x from rfl, t1.groups]; exact hd)
    hx e he hi useCache (w.put i { m with fk := m.fk.setOptimizerArray x }) i (put_heap _ _ _)
  obtain ⟨G, hG⟩ : ∃ G : (Fin m.nIt → Fin m.n → Bool) → FKGrad, G = G₀ := ⟨G₀, rfl⟩
  have g1' : ∀ z : Fin m.nIt → Fin m.n → Bool, ∃ w' m', parametersChanged useCache sv { e with z := tableBits z } i (w.put i { m with fk := m.fk.setOptimizerArray x }) = (.ok (), w') ∧
      w'.heap i = some m' ∧ m'.grad = some (G z) := hG ▸ g1
  refine ⟨fun z => m.fk.slots.map fun s => s.factor ((m.fk.setOptimizerArray x).read s) (-((G z).read s + 0)), fun z => ⟨?_, by rw [List.length_map, hl]⟩, fun k hk => ?_⟩
  · obtain ⟨w', m', p1, p2, p3⟩ := g1' z
    have hkeep := KeepsFK.parametersChanged useCache sv { e with z := tableBits z } i (w.put i { m with fk := m.fk.setOptimizerArray x }) i
    rw [put_heap, p1] at hkeep
    simp only at hkeep
    rw [p2] at hkeep
    have hfk : m'.fk = m.fk.setOptimizerArray x := Option.some.inj hkeep
    unfold gradsAt
    rw [py_bind, modify_run hw]
    simp only
    rw [py_bind, p1]
    simp only
    rw [py_bind, show self i w' = (.ok m', w') by unfold self; rw [p2]]
    show Except.ok m'.objectiveGrads = _
    unfold LLGP.objectiveGrads
    rw [hfk, hsl, p3]
    rfl
  · have hk' : k < m.fk.slots.length := hl ▸ hk
    have hmem : m.fk.slots[k] ∈ (m.fk.setOptimizerArray x).slots := by rw [hsl]; exact List.getElem_mem _
    have hread := read_setOptimizerArray hst hl hk'
    have hd1 : HasDerivAt (fun u => ((m.fk.setOptimizerArray x).write m.fk.slots[k] u).skiLogLik m.axesOf (m.fk.setOptimizerArray x).extraOf m.gp.Xs m.gp.Ys)
        ((∑ z, (G z).read m.fk.slots[k]) / 2 ^ (m.nIt * m.n)) ((m.fk.setOptimizerArray x).read m.fk.slots[k]) := hG ▸ unbiased_slot hok t3 g2 hmem
    rw [hread] at hd1
    have hd2 := (hd1.comp (x.getD k 0) (hasDerivAt_decode m.fk.slots[k] (x.getD k 0))).neg
    refine (hd2.congr_of_eventuallyEq (Filter.Eventually.of_forall fun t => ?_)).congr_deriv ?_
    · show m.objectiveAt _ _ = _
      unfold LLGP.objectiveAt
      rw [setOptimizerArray_set hl hk']
      rfl
    · have hsum : ∀ z, ((m.fk.slots.map fun s => s.factor ((m.fk.setOptimizerArray x).read s) (-((G z).read s + 0))).getD k 0) =
          m.fk.slots[k].factor (m.fk.slots[k].decode (x.getD k 0)) 1 * -(G z).read m.fk.slots[k] := by
        intro z
        rw [List.getD_eq_getElem _ _ (by rw [List.length_map]; exact hk'), List.getElem_map, hread, add_zero, factor_mul]
      rw [Finset.sum_congr rfl fun z _ => hsum z, ← Finset.mul_sum, Finset.sum_neg_distrib]
      ring

/-- C91, for the documented covariance: this is the one the model uses when no group of kernels is affected by C33. -/
theorem C91_documented (m : LLGP) (x : List ℝ) (h : ∀ g ∈ m.fk.activeDims, ¬ Spoiled (m.fk.setOptimizerArray x) g) (y : List ℝ) :
    m.objectiveAt (m.fk.setOptimizerArray x).extraOf y = m.objectiveAt noExtra y := by
  unfold LLGP.objectiveAt
  rw [skiLogLik_congr _ fun g hg => ?_]
  unfold FK.extraOf noExtra
  rw [if_neg (h g ?_)]
  rw [← (setOptimizerArray_frame m.fk y).groups]
  exact hg

/-- hypotheses of C91, at every point: a model of two correlated outputs and two kernels, with solvers that solve exactly -/
example (e : Env) (he : e.Works) (hi : e.interrupt = none) : ∃ (m : LLGP) (P : ℕ) (w : World), m.OK P ∧ 0 < m.nIt ∧ m.fk.Sound ∧ m.fk.Tunable ∧ (∀ ad ∈ m.fk.activeDims.map Prod.fst, ad.Nodup) ∧
    w.heap 0 = some m ∧ m.fk.D = 2 ∧ ∀ x : List ℝ, x.length = m.fk.optimizerArray.length → (∀ k ∈ (m.fk.setOptimizerArray x).kernels, k.PeriodOK) ∧
      ∀ K gks, genGridKernel (m.fk.setOptimizerArray x) m.dists m.interp m.lens = .ok (K, gks) →
        ExactSolves exactSolvers K m.n ((m.fk.setOptimizerArray x).skiFull m.axesOf (m.fk.setOptimizerArray x).extraOf m.gp.Xs) m.tol := by
  obtain ⟨a, m, h1, h2, h3, h4, h5, -, h6⟩ := exists_tunable .exact
  obtain ⟨fks, hh, -⟩ := valid_extend exactSolvers_fit [.new a quiet] [] World.start (healthy_start _) h1
  have hP : ∃ P k, m.OK P ∧ 0 < m.nIt ∧ m.Current exactSolvers k ∧ m.fk.Sound := hh.at h2
  obtain ⟨P, k, q1, q2, -, q4⟩ := hP
  refine ⟨m, P, _, q1, q2, q4, h3, ?_, h2, h5, fun x hx => ⟨periods_ok h4 x, fun K gks hK => ?_⟩⟩
  · rw [h6]
    intro ad had
    simp only [List.map_cons, List.map_nil, List.mem_singleton] at had
    rw [had]
    decide
  · obtain ⟨t1, -⟩ := tuned_valid q1.ready q4 h3 (by rw [hx]; exact List.length_map _) (periods_ok h4 x)
    obtain ⟨K', gks', g1, g2, g3, g4, -⟩ := genGridKernel_model (q1.retuned t1)
    have g1' : genGridKernel (m.fk.setOptimizerArray x) m.dists m.interp m.lens = .ok (K', gks') := g1
    rw [hK] at g1'
    cases g1'
    exact exactSolvers_exact ⟨g4, g2, g3⟩ _

end Verif
