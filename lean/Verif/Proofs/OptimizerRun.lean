import Verif.Proofs.Optimizer
import Verif.Proofs.LLGPAnyState
import Verif.Proofs.LLGPMixed
import Verif.Spec.Optimizer

/-! Runs of the optimiser. -/

namespace Verif

theorem setOptimizerArray_eq (fk : FK) (x : List ℝ) : fk.setOptimizerArray x = fk.writeAll fk.slots Slot.decode x := rfl

theorem setOptimizerArray_slots (fk : FK) (x : List ℝ) : (fk.setOptimizerArray x).slots = fk.slots := writeAll_slots _ _ _ _

theorem setOptimizerArray_frame (fk : FK) (x : List ℝ) : fk.Frame (fk.setOptimizerArray x) := writeAll_frame _ _ _ _ fun _ h => h

theorem setOptimizerArray_again (fk : FK) {x x' : List ℝ} (h : x.length = x'.length) : (fk.setOptimizerArray x).setOptimizerArray x' = fk.setOptimizerArray x' := by
  rw [setOptimizerArray_eq (fk.setOptimizerArray x), setOptimizerArray_slots, setOptimizerArray_eq, setOptimizerArray_eq]
  exact writeAll_again _ _ _ _ _ (slots_nodup fk) h

/-! ### validity -/

theorem Kern.skeleton_dims : ∀ k : Kern, k.skeleton.activeDims = k.activeDims
  | .rbf _ _ => rfl
  | .matern32 _ _ => rfl
  | .stdPeriodic _ _ _ => rfl
  | .identity _ => rfl
  | .scaled _ _ _ => rfl

theorem Kern.skeleton_aperiodic : ∀ k : Kern, k.skeleton.aperiodic ↔ k.aperiodic
  | .rbf _ _ => Iff.rfl
  | .matern32 _ _ => Iff.rfl
  | .stdPeriodic _ _ _ => Iff.rfl
  | .identity _ => Iff.rfl
  | .scaled k _ _ => Kern.skeleton_aperiodic k

theorem Kern.skeleton_noIdentity : ∀ k : Kern, k.skeleton.noIdentity ↔ k.noIdentity
  | .rbf _ _ => Iff.rfl
  | .matern32 _ _ => Iff.rfl
  | .stdPeriodic _ _ _ => Iff.rfl
  | .identity _ => Iff.rfl
  | .scaled k _ _ => Kern.skeleton_noIdentity k

/-- the scales of the kernel are positive -/
def Kern.scalesOK : Kern → Prop
  | .scaled k s _ => k.scalesOK ∧ 0 < s
  | _ => True

theorem Kern.skeleton_scales : ∀ k : Kern, k.skeleton.scalesOK ↔ k.scalesOK
  | .rbf _ _ => Iff.rfl
  | .matern32 _ _ => Iff.rfl
  | .stdPeriodic _ _ _ => Iff.rfl
  | .identity _ => Iff.rfl
  | .scaled k _ _ => and_congr_left fun _ => Kern.skeleton_scales k

theorem Kern.Valid.scales : ∀ {k : Kern}, k.Valid → k.scalesOK
  | .rbf _ _, _ => trivial
  | .matern32 _ _, _ => trivial
  | .stdPeriodic _ _ _, _ => trivial
  | .identity _, _ => trivial
  | .scaled k _ _, h => ⟨Kern.Valid.scales (k := k) h.1, h.2⟩

theorem Kern.valid_of : ∀ {k : Kern}, (∀ j < k.linked.length, 0 < k.linked.getD j 0) → k.PeriodOK → k.scalesOK → k.Valid
  | .rbf _ _, h, _, _ => h 0 (by simp [Kern.linked])
  | .matern32 _ _, h, _, _ => h 0 (by simp [Kern.linked])
  | .stdPeriodic _ _ _, h, hp, _ => ⟨h 0 (by simp [Kern.linked]), hp⟩
  | .identity _, _, _, _ => trivial
  | .scaled k _ _, h, hp, hs => ⟨Kern.valid_of (k := k) h hp hs.1, hs.2⟩

theorem decode_pos {s : Slot} (h : s.logexp = true) (x : ℝ) : 0 < s.decode x := by
  unfold Slot.decode
  rw [if_pos h]
  exact Real.log_pos (by have := Real.exp_pos x; linarith)

theorem FK.Tunable.stored {fk : FK} (ht : fk.Tunable) (hw : fk.WF) : fk.Stored :=
  ⟨by rw [ht.vecs, hw.vecs]; exact hw.counts, by rw [ht.diags, hw.diags]; exact (Nat.le_add_right _ _).trans hw.counts⟩

theorem read_setOptimizerArray {fk : FK} (hst : fk.Stored) {x : List ℝ} (hx : x.length = fk.slots.length) {i : ℕ} (hi : i < fk.slots.length) :
    (fk.setOptimizerArray x).read fk.slots[i] = fk.slots[i].decode (x.getD i 0) :=
  read_writeAll _ _ _ _ hst (slots_nodup fk) (fun _ h => h) i hi hx

theorem read_pos {fk : FK} (hst : fk.Stored) {x : List ℝ} (hx : x.length = fk.slots.length) {s : Slot} (hs : s ∈ fk.slots) (hl : s.logexp = true) :
    0 < (fk.setOptimizerArray x).read s := by
  obtain ⟨i, hi, rfl⟩ := List.getElem_of_mem hs
  rw [read_setOptimizerArray hst hx hi]
  exact decode_pos hl _

theorem tuned_valid {fk : FK} {P : ℕ} (hr : fk.Ready P) (hs : fk.Sound) (ht : fk.Tunable) {x : List ℝ} (hx : x.length = fk.slots.length)
    (hp : ∀ k ∈ (fk.setOptimizerArray x).kernels, k.PeriodOK) :
    fk.Retuned (fk.setOptimizerArray x) ∧ (fk.setOptimizerArray x).Sound ∧ (fk.setOptimizerArray x).Tunable := by
  have hst := ht.stored hr.wf
  have hf := setOptimizerArray_frame fk x
  have hsl := setOptimizerArray_slots fk x
  have hw := hr.wf
  generalize hfk' : fk.setOptimizerArray x = fk' at *
  have hmem : ∀ s, s ∈ fk'.slots ↔ s ∈ fk.slots := fun s => by rw [hsl]
  have hpos : ∀ s ∈ fk'.slots, s.logexp = true → 0 < fk'.read s := fun s h hl => by
    rw [← hfk']
    exact read_pos hst hx ((hmem s).1 h) hl
  have hwf : fk'.WF := by
    refine ⟨by rw [hf.D]; exact hw.Dpos, by rw [hf.vecsLength, hf.count]; exact hw.vecs, by rw [hf.diagsLength, hf.count]; exact hw.diags, by rw [hf.noise, hf.D]; exact hw.noise,
      by rw [hf.lmcTotal, hf.slfmTotal, hf.count]; exact hw.counts, fun q hq => ?_, fun q hq => ?_, fun q h1 h2 i => ?_, fun q h1 h2 => ?_, fun q h1 i j => ?_⟩
    · have := hw.vec q (hf.count ▸ hq)
      exact ⟨hf.vecWF q this.1, by rw [hf.cols, hf.D]; exact this.2.1, by rw [hf.rows]; exact this.2.2⟩
    · rw [hf.diagLength, hf.D]; exact hw.diag q (hf.count ▸ hq)
    · rw [hf.lmcTotal] at h1 h2
      rw [hf.slfmTotal] at h2
      rw [hf.diags q (by rw [ht.diags]; exact h1)]
      exact hw.slfm q h1 h2 i
    · rw [hf.lmcTotal] at h1 h2
      rw [hf.slfmTotal] at h2
      rw [hf.rows]
      exact hw.slfmRank q h1 h2
    · rw [hf.lmcTotal, hf.slfmTotal] at h1
      rw [hf.vecs q (by rw [ht.vecs]; exact h1)]
      exact hw.indep q h1 i j
  have hval : ∀ k ∈ fk'.kernels, k.Valid := by
    intro k hk
    obtain ⟨q, hq, rfl⟩ := mem_getD hk (.identity none)
    refine Kern.valid_of (fun j hj => ?_) (hp _ hk) ?_
    · exact hpos (.kern q j) (mem_slots.2 ⟨hq, hj⟩) rfl
    · rw [← Kern.skeleton_scales, hf.kernels, Kern.skeleton_scales]
      exact (hr.valid _ (getD_mem_of_lt (hf.count ▸ hq) _)).scales
  have hd : ∀ q, (fk'.kernels.getD q (.identity none)).activeDims = (fk.kernels.getD q (.identity none)).activeDims := fun q => by
    rw [← Kern.skeleton_dims, hf.kernels, Kern.skeleton_dims]
  have hret : fk.Retuned fk' := ⟨hwf, hf.D, hf.P, hf.lmcTotal, hf.slfmTotal, hf.groups, hf.lmc, hf.slfm, hf.indep, hf.count, fun q _ => hd q, hval⟩
  have htun : fk'.Tunable := by
    refine ⟨by rw [hf.linkedVecs, hf.lmcTotal, hf.slfmTotal]; exact ht.vecs, by rw [hf.linkedDiags, hf.lmcTotal]; exact ht.diags, fun q hq => ?_⟩
    refine (ht.line q (show q < fk.kernels.length from hf.count ▸ (show q < fk'.kernels.length from hq))).imp (fun h => ?_) fun ⟨c, hc⟩ => ⟨c, ?_⟩
    · rw [← Kern.skeleton_aperiodic, hf.kernels, Kern.skeleton_aperiodic]; exact h
    · unfold FK.kdims at hc ⊢
      rw [hd]; exact hc
  refine ⟨hret, ⟨fun q hq => C36_kernels_psd fk' P (ready_retuned hr hret) q hq (htun.line q hq), fun k hk => ?_, fun q hq a ha => ?_, fun a ha => ?_⟩, htun⟩
  · obtain ⟨q, hq, rfl⟩ := mem_getD hk (.identity none)
    rw [← Kern.skeleton_noIdentity, hf.kernels, Kern.skeleton_noIdentity]
    exact hs.plain _ (getD_mem_of_lt (hf.count ▸ hq) _)
  · by_cases h : q < fk'.linkedDiags
    · exact (hpos (.diag q a) (mem_slots.2 ⟨h, by rw [hwf.diag q hq]; exact ha⟩) rfl).le
    · rw [hf.linkedDiags] at h
      rw [hf.diags q (by omega)]
      exact hs.kappa q (show q < fk.kernels.length from hf.count ▸ (show q < fk'.kernels.length from hq)) a (hf.D ▸ ha)
  · exact hpos (.noise a) (mem_slots.2 (by rw [hwf.noise]; exact ha)) rfl

/-! ### the run as a program -/

/-- `x` does not change the parameters of any model, whether it returns or raises -/
def KeepsFK {α : Type} (x : PyM α) : Prop := ∀ w j, ((x w).2.heap j).map LLGP.fk = (w.heap j).map LLGP.fk

theorem KeepsFK.of_keeps {α : Type} {x : PyM α} (h : Keeps x) : KeepsFK x := by
  intro w j
  have := (h w).2 j
  revert this
  cases (x w).2.heap j with
  | none =>
    cases w.heap j with
    | none => intro _; rfl
    | some m => intro h; cases h
  | some m' =>
    cases w.heap j with
    | none => intro h; cases h
    | some m =>
      intro h
      have : m'.core = m.core := Option.some.inj h
      exact congrArg some (show m'.core.fk = m.core.fk by rw [this])

theorem KeepsFK.bind {α β : Type} {x : PyM α} {f : α → PyM β} (h1 : KeepsFK x) (h2 : ∀ a, KeepsFK (f a)) : KeepsFK (x >>= f) := by
  intro w j
  rw [py_bind]
  have := h1 w j
  rcases h : x w with ⟨r, w'⟩
  rw [h] at this
  cases r with
  | error e => exact this
  | ok a => exact (h2 a w' j).trans this

theorem KeepsFK.modify (i : ℕ) (f : LLGP → LLGP) (h : ∀ m, (f m).fk = m.fk) : KeepsFK (modifySelf i f) := by
  intro w j
  show (if j = i then (w.heap i).map f else w.heap j).map LLGP.fk = _
  by_cases e : j = i
  · rw [if_pos e, e]
    cases w.heap i with
    | none => rfl
    | some m => exact congrArg some (h m)
  · rw [if_neg e]

theorem KeepsFK.replace (sv : Solvers) (e : Env) (i : ℕ) : KeepsFK (replaceKernel sv e i) := by
  unfold replaceKernel
  refine (KeepsFK.of_keeps (Keeps.self i)).bind fun _ => (KeepsFK.of_keeps (Keeps.checkpoint e 0)).bind fun _ => (KeepsFK.of_keeps (Keeps.lift _)).bind fun _ =>
    (KeepsFK.of_keeps (Keeps.checkpoint e 1)).bind fun _ => (KeepsFK.of_keeps (Keeps.lift _)).bind fun _ => KeepsFK.bind (KeepsFK.modify i _ ?_) fun _ =>
      (KeepsFK.of_keeps (Keeps.checkpoint e 2)).bind fun _ => (KeepsFK.of_keeps (Keeps.lift _)).bind fun _ => KeepsFK.modify i _ ?_
  · intro m; rfl
  · intro m; rfl

theorem KeepsFK.parametersChanged (u : Bool) (sv : Solvers) (e : Env) (i : ℕ) : KeepsFK (parametersChanged u sv e i) :=
  (KeepsFK.of_keeps Keeps.clear).bind fun _ => (KeepsFK.replace sv e i).bind fun _ => (KeepsFK.of_keeps (Keeps.checkpoint e 3)).bind fun _ =>
    (KeepsFK.of_keeps (Keeps.debug u e i)).bind fun _ => (KeepsFK.of_keeps (Keeps.store i)).bind fun _ => (KeepsFK.of_keeps (Keeps.checkpoint e 4)).bind fun _ =>
      KeepsFK.of_keeps (Keeps.record u e i)

/-- assigning the point `x` to the parameters of model `i` is the operation `set` -/
theorem assign_set (u : Bool) (sv : Solvers) (e : Env) {i : ℕ} {w : World} {m : LLGP} (hw : w.heap i = some m) (x : List ℝ) :
    (execOp u sv (.set i (m.fk.setOptimizerArray x) e) w).2 = (parametersChanged u sv e i (w.put i { m with fk := m.fk.setOptimizerArray x })).2 ∧
    ((execOp u sv (.set i (m.fk.setOptimizerArray x) e) w).1 = (parametersChanged u sv e i (w.put i { m with fk := m.fk.setOptimizerArray x })).1.map fun _ => .unit) := by
  unfold execOp
  simp only
  rw [py_bind, modify_run hw]
  simp only
  rw [py_bind]
  rcases parametersChanged u sv e i (w.put i { m with fk := m.fk.setOptimizerArray x }) with ⟨r, w'⟩
  cases r <;> exact ⟨rfl, rfl⟩

theorem gradsAt_run (u : Bool) (sv : Solvers) (e : Env) {i : ℕ} {w : World} {m : LLGP} (hw : w.heap i = some m) (x : List ℝ) :
    (gradsAt u sv e i x w).2 = (execOp u sv (.set i (m.fk.setOptimizerArray x) e) w).2 ∧
    (∃ m', (gradsAt u sv e i x w).2.heap i = some m' ∧ m'.fk = m.fk.setOptimizerArray x) ∧
    (∀ err, (execOp u sv (.set i (m.fk.setOptimizerArray x) e) w).1 = .error err → (gradsAt u sv e i x w).1 = .error err) ∧
    ∀ a, (execOp u sv (.set i (m.fk.setOptimizerArray x) e) w).1 = .ok a →
      ∃ m', (execOp u sv (.set i (m.fk.setOptimizerArray x) e) w).2.heap i = some m' ∧ (gradsAt u sv e i x w).1 = .ok m'.objectiveGrads := by
  obtain ⟨h2, h1⟩ := assign_set u sv e hw x
  have hk := KeepsFK.parametersChanged u sv e i (w.put i { m with fk := m.fk.setOptimizerArray x }) i
  rw [put_heap] at hk
  rw [h1, h2]
  unfold gradsAt
  rw [py_bind, modify_run hw]
  simp only
  rw [py_bind]
  rcases hr : parametersChanged u sv e i (w.put i { m with fk := m.fk.setOptimizerArray x }) with ⟨r, w'⟩
  rw [hr] at hk
  have hex : ∃ m', w'.heap i = some m' ∧ m'.fk = m.fk.setOptimizerArray x := by
    cases hm : w'.heap i with
    | none => simp only at hk; rw [hm] at hk; cases hk
    | some m' => simp only at hk; rw [hm] at hk; exact ⟨m', rfl, Option.some.inj hk⟩
  obtain ⟨m', hm', hf'⟩ := hex
  cases r with
  | error err => exact ⟨rfl, ⟨m', hm', hf'⟩, (fun err' h => by simpa [Except.map] using h), fun a h => by simp [Except.map] at h⟩
  | ok v =>
    have hself : self i w' = (.ok m', w') := by unfold self; rw [hm']
    simp only
    rw [py_bind, hself]
    refine ⟨rfl, ⟨m', hm', hf'⟩, (fun err h => by simp [Except.map] at h), fun a _ => ⟨m', hm', rfl⟩⟩

end Verif
