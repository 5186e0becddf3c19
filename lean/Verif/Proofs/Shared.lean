import Verif.Spec.Shared
import Verif.Proofs.LLGPMixed

/-! Programs that share functional kernels. -/

namespace Verif

theorem retuned_trans {f g h : FK} (h1 : f.Retuned g) (h2 : g.Retuned h) : f.Retuned h where
  wf := h2.wf
  outputs := h2.outputs.trans h1.outputs
  input := h2.input.trans h1.input
  lmcTotal := h2.lmcTotal.trans h1.lmcTotal
  slfmTotal := h2.slfmTotal.trans h1.slfmTotal
  groups := h2.groups.trans h1.groups
  lmc := h2.lmc.trans h1.lmc
  slfm := h2.slfm.trans h1.slfm
  indep := h2.indep.trans h1.indep
  count := h2.count.trans h1.count
  dims := fun q hq => (h2.dims q (by rw [h1.count]; exact hq)).trans (h1.dims q hq)
  valid := h2.valid

theorem retuned_self {m : LLGP} {P : ℕ} (h : m.OK P) : m.fk.Retuned m.fk :=
  ⟨h.ready.wf, rfl, rfl, rfl, rfl, rfl, rfl, rfl, rfl, rfl, fun _ _ => rfl, h.ready.valid⟩

/-- the constructor uses nothing of the functional kernel but the groups of dimensions, if the input dimension is set already -/
theorem init_other {a : LLGPArgs} {f fk : FK} {m₀ : LLGP} (h : llgpInit (a.withKernel f) = .ok m₀) (hP : fk.P = some m₀.gp.inputDim) (hg : fk.activeDims = m₀.fk.activeDims) :
    llgpInit (a.withKernel fk) = .ok { m₀ with fk := fk } := by
  unfold llgpInit LLGPArgs.withKernel at h ⊢
  simp only [bind_ok] at h ⊢
  obtain ⟨gp, h1, h⟩ := h
  refine ⟨gp, h1, ?_⟩
  cases hm : predMode a.prediction with
  | none => rw [hm] at h; cases h
  | some mode =>
    rw [hm] at h
    simp only [bind_ok, pure_ok] at h ⊢
    obtain ⟨f', h2, grids, h3, rfl⟩ := h
    refine ⟨fk, ?_, grids, ?_, rfl⟩
    · unfold FK.setInputDim
      rw [if_pos hP]
    · unfold generateGrids at h3 ⊢
      rw [hg]
      exact h3

theorem init_linked {a : LLGPArgs} {fk : FK} {m : LLGP} (h : llgpInit (a.withKernel fk) = .ok m) : linkedKernel a fk = some m.fk := by
  unfold llgpInit LLGPArgs.withKernel at h
  simp only [bind_ok] at h
  obtain ⟨gp, h1, h⟩ := h
  unfold linkedKernel
  rw [h1]
  cases hm : predMode a.prediction with
  | none => rw [hm] at h; cases h
  | some mode =>
    rw [hm] at h
    simp only [bind_ok, pure_ok] at h
    obtain ⟨f', h2, grids, h3, rfl⟩ := h
    simp only
    rw [h2]
    rfl

theorem new_from {sv : Solvers} (hs : sv.Fit) {b : LLGPArgs} {m : LLGP} {P : ℕ} (hi : llgpInit b = .ok m) (ok : m.OK P) (hn : 0 < m.nIt) (hsd : m.fk.Sound) {e : Env}
    (he : e.Calm) (w : World) :
    ∃ m' k c, execOp true sv (.new b e) w = (.ok (.model w.next), { w with heap := fun j => if j = w.next then some m' else w.heap j, next := w.next + 1, caches := c }) ∧
      m'.OK P ∧ ({ m' with kernel := none } : LLGP).core = ({ m with kernel := none } : LLGP).core ∧ m'.Current sv k := by
  obtain ⟨w', hw'⟩ := update_completes hs he.1 he.2 ok hn (fun _ => sound_posDef ok hsd) (i := w.next)
    (w := { w with heap := fun j => if j = w.next then some m else w.heap j, next := w.next + 1 }) (if_pos rfl) true
  obtain ⟨m', k, c, g1, g2, g3, -⟩ := update_complete he.1 (w := { w with heap := fun j => if j = w.next then some m else w.heap j, next := w.next + 1 }) (if_pos rfl) hw'
  refine ⟨m', k, c, ?_, ok.of_core g3, g3, g2⟩
  unfold execOp
  simp only
  rw [py_bind, lift_run, hi]
  simp only
  rw [py_bind]
  unfold allocate
  simp only
  rw [py_bind, hw']
  simp only
  rw [g1]
  show (Except.ok _, _) = _
  congr 1
  unfold World.put
  simp only
  congr 1
  funext j
  by_cases ej : j = w.next
  · simp only [if_pos ej]
  · simp only [if_neg ej]

/-- model `i` was made with arguments `a` and kernel object `k`, and last updated when the parameters were `fk₁` -/
structure Tended (sv : Solvers) (s : Shelf) (k i : ℕ) (a : LLGPArgs) (fk₁ : FK) (m : LLGP) : Prop where
  heap : s.world.heap i = some m
  uses : s.uses i = some k
  kernel : s.kernels k = some m.fk
  ok : ∃ P, m.OK P ∧ ({ m with fk := fk₁ } : LLGP).OK P
  its : 0 < m.nIt
  sound : m.fk.Sound ∧ fk₁.Sound
  retuned : fk₁.Retuned m.fk
  init : ∃ m₀, llgpInit (a.withKernel fk₁) = .ok m₀ ∧ m₀.fk = fk₁ ∧ m.gp = m₀.gp ∧ m.grids = m₀.grids ∧ m.prediction = m₀.prediction ∧ m.nIt = m₀.nIt ∧ m.tol = m₀.tol
  was : ∃ kk, ({ m with fk := fk₁ } : LLGP).Current sv kk

/-- the state after a valid program -/
structure Thriving (sv : Solvers) (s : Shelf) (fks : List FK) : Prop where
  kernels : ∀ j, s.kernels j = fks[j]?
  count : s.count = fks.length
  fresh : ∀ j, s.world.next ≤ j → s.world.heap j = none ∧ s.uses j = none
  models : ∀ j < s.world.next, ∃ k a fk₁ m, Tended sv s k j a fk₁ m
  linked : ∀ k i, s.linked k = some i → ∃ a m, Tended sv s k i a m.fk m
  unlinked : ∀ k, s.linked k = none → ∀ j, s.uses j ≠ some k
  caches : CachesOK sv s.world

/-- what an operation does to the models that exist -/
structure Effect (sv : Solvers) (op : ShOp) (s s' : Shelf) : Prop where
  next : s'.world.next = s.world.next + modelsMade [op]
  tended : ∀ k i a fk₁ m, Tended sv s k i a fk₁ m → ∃ fk₂ m', Tended sv s' k i a fk₂ m' ∧ (op.Assigns k → s.linked k = some i → fk₂ = m'.fk) ∧
    (¬ op.Assigns k → m'.fk = m.fk) ∧ (¬ (op.Assigns k ∧ s.linked k = some i) → fk₂ = fk₁)
  linked : ∀ k, ¬ op.Makes k → s'.linked k = s.linked k
  made : ∀ k a e, op = .model k a e → s'.linked k = some s.world.next ∧ ∃ m', Tended sv s' k s.world.next a m'.fk m'

theorem Tended.model {sv : Solvers} {s : Shelf} {fks : List FK} (h : Thriving sv s fks) {k j : ℕ} (hu : s.uses j = some k) : ∃ a fk₁ m, Tended sv s k j a fk₁ m := by
  by_cases hj : j < s.world.next
  · obtain ⟨k', a, fk₁, m, t⟩ := h.models j hj
    rw [t.uses] at hu
    cases hu
    exact ⟨a, fk₁, m, t⟩
  · rw [(h.fresh j (by omega)).2] at hu
    cases hu

/-- changes of the state that leave a model and its kernel object alone -/
theorem Tended.keep {sv : Solvers} {s s' : Shelf} {k i : ℕ} {a : LLGPArgs} {fk₁ : FK} {m : LLGP} (t : Tended sv s k i a fk₁ m) (h1 : s'.world.heap i = s.world.heap i)
    (h2 : s'.uses i = s.uses i) (h3 : s'.kernels k = s.kernels k) : Tended sv s' k i a fk₁ m :=
  ⟨h1.trans t.heap, h2.trans t.uses, h3.trans t.kernel, t.ok, t.its, t.sound, t.retuned, t.init, t.was⟩

theorem Tended.current {sv : Solvers} {s : Shelf} {k i : ℕ} {a : LLGPArgs} {fk₁ : FK} {m : LLGP} (t : Tended sv s k i a fk₁ m) : ∃ kk, m.kernel = some kk :=
  let ⟨kk, h⟩ := t.was
  ⟨kk, h.kernel⟩

theorem showKernel_id {uses : ℕ → Option ℕ} {k : ℕ} {fk : FK} {w : World} (h : ∀ j m, uses j = some k → w.heap j = some m → m.fk = fk) : showKernel uses k fk w = w := by
  unfold showKernel
  have : (fun j => if uses j = some k then (w.heap j).map fun m => ({ m with fk := fk } : LLGP) else w.heap j) = w.heap := by
    funext j
    by_cases hj : uses j = some k
    · rw [if_pos hj]
      cases hm : w.heap j with
      | none => rfl
      | some m =>
        have := h j m hj hm
        subst this
        rfl
    · rw [if_neg hj]
  rw [this]

theorem setAt_self {α : Type} (f : ℕ → Option α) (k : ℕ) (x : Option α) : setAt f k x k = x := if_pos rfl

theorem setAt_ne {α : Type} (f : ℕ → Option α) {k j : ℕ} (x : Option α) (h : j ≠ k) : setAt f k x j = f j := if_neg h

theorem setAt_list {fks : List FK} {f : ℕ → Option FK} (h : ∀ j, f j = fks[j]?) {k : ℕ} {fk : FK} (hk : fks[k]? = some fk) (fk' : FK) (j : ℕ) :
    setAt f k (some fk') j = (fks.set k fk')[j]? := by
  by_cases hj : j = k
  · subst hj
    rw [setAt_self, List.getElem?_set_self (List.getElem?_eq_some_iff.1 hk).1]
  · rw [setAt_ne _ _ hj, List.getElem?_set_ne (Ne.symm hj), h]

theorem cachesOK_op {sv : Solvers} {op : Op} (ho : op.Works) {w : World} (hw : CachesOK sv w) : CachesOK sv (execOp true sv op w).2 := by
  obtain ⟨-, h2, h3⟩ := Agree.op sv true true ho w hw
  rcases h : execOp true sv op w with ⟨r, w'⟩
  cases r with
  | ok a => exact h2 a w' h
  | error x => exact h3 x w' h

/-- a model made as documented with a kernel object that is new or was used before -/
theorem shared_init {a : LLGPArgs} {P : ℕ} {fk₀ fk₁ fk fk' : FK} (hP : 0 < P) (hd : (a.withKernel fk₀).Documented P fk₀) (hf : fk₀.setInputDim P = .ok fk₁)
    (hc : fk = fk₀ ∧ fk' = fk₁ ∨ fk₁.Retuned fk ∧ fk' = fk) :
    ∃ m, llgpInit (a.withKernel fk) = .ok m ∧ m.OK P ∧ m.fk = fk' ∧ m.nIt = a.traceIterations ∧ llgpInit (a.withKernel fk') = .ok m := by
  obtain ⟨m, fk'', h1, h2, h3, h4, -⟩ := llgpInit_documented hd hP
  rw [hf] at h3
  cases h3
  have hn := (init_fields h1).2.2.2.1
  rcases hc with ⟨rfl, rfl⟩ | ⟨hr, rfl⟩
  · subst h4
    refine ⟨m, h1, h2, rfl, hn, ?_⟩
    have := init_other h1 (fk := m.fk) (by rw [h2.inputDim]; exact h2.ready.input) rfl
    exact this
  · subst h4
    have := init_other h1 (fk := fk') (by rw [h2.inputDim, hr.input]; exact h2.ready.input) hr.groups
    exact ⟨_, this, h2.retuned hr, rfl, hn, this⟩

theorem step_kernel {sv : Solvers} (fk : FK) {s : Shelf} {fks : List FK} (h : Thriving sv s fks) :
    Thriving sv (shExec sv (.kernel fk) s).2 (fks ++ [fk]) ∧ Effect sv (.kernel fk) s (shExec sv (.kernel fk) s).2 := by
  have keep : ∀ {k i a fk₁ m}, Tended sv s k i a fk₁ m → Tended sv (shExec sv (.kernel fk) s).2 k i a fk₁ m := by
    intro k i a fk₁ m t
    refine t.keep rfl rfl (setAt_ne _ _ fun hk => ?_)
    have := t.kernel
    rw [h.kernels, hk, h.count, List.getElem?_eq_none (le_refl _)] at this
    cases this
  refine ⟨⟨fun j => ?_, ?_, h.fresh, fun j hj => ?_, fun k i hk => ?_, h.unlinked, h.caches⟩, ⟨rfl, fun k i a fk₁ m t => ⟨fk₁, m, keep t, (fun ha => ha.elim), fun _ => rfl, fun _ => rfl⟩,
    fun _ _ => rfl, fun _ _ _ he => by cases he⟩⟩
  · show setAt s.kernels s.count (some fk) j = _
    rw [h.count]
    rcases Nat.lt_trichotomy j fks.length with hj | hj | hj
    · rw [setAt_ne _ _ (by omega), List.getElem?_append_left hj, h.kernels]
    · subst hj
      rw [setAt_self]
      simp
    · rw [setAt_ne _ _ (by omega), h.kernels, List.getElem?_eq_none (by omega), List.getElem?_eq_none (by simp; omega)]
  · show s.count + 1 = _
    rw [h.count]
    simp
  · obtain ⟨k, a, fk₁, m, t⟩ := h.models j hj
    exact ⟨k, a, fk₁, m, keep t⟩
  · obtain ⟨a, m, t⟩ := h.linked k i hk
    exact ⟨a, m, keep t⟩

theorem step_ask {sv : Solvers} (i : ℕ) (q : Query) {e : Env} (he : e.Works) {s : Shelf} {fks : List FK} (h : Thriving sv s fks) :
    Thriving sv (shExec sv (.ask i q e) s).2 fks ∧ Effect sv (.ask i q e) s (shExec sv (.ask i q e) s).2 := by
  have : ∃ c, (execOp true sv (.ask i q e) s.world).2 = { s.world with caches := c } := OnlyCaches.ask true sv e i q s.world fun m hm => by
    by_cases hi : i < s.world.next
    · obtain ⟨k, a, fk₁, m', t⟩ := h.models i hi
      rw [t.heap] at hm
      cases hm
      exact t.current
    · rw [(h.fresh i (by omega)).1] at hm
      cases hm
  obtain ⟨c, hc⟩ := this
  have keep : ∀ {k i' a fk₁ m}, Tended sv s k i' a fk₁ m → Tended sv (shExec sv (.ask i q e) s).2 k i' a fk₁ m := by
    intro k i' a fk₁ m t
    refine t.keep ?_ rfl rfl
    show (execOp true sv (.ask i q e) s.world).2.heap i' = _
    rw [hc]
  have hn : (shExec sv (.ask i q e) s).2.world.next = s.world.next := by
    show (execOp true sv (.ask i q e) s.world).2.next = _
    rw [hc]
  refine ⟨⟨h.kernels, h.count, fun j hj => ?_, fun j hj => ?_, fun k i hk => ?_, h.unlinked, ?_⟩, ⟨hn, fun k i a fk₁ m t => ⟨fk₁, m, keep t, (fun ha => ha.elim), fun _ => rfl, fun _ => rfl⟩,
    fun _ _ => rfl, fun _ _ _ he => by cases he⟩⟩
  · rw [hn] at hj
    refine ⟨?_, (h.fresh j hj).2⟩
    show (execOp true sv (.ask i q e) s.world).2.heap j = _
    rw [hc]
    exact (h.fresh j hj).1
  · rw [hn] at hj
    obtain ⟨k, a, fk₁, m, t⟩ := h.models j hj
    exact ⟨k, a, fk₁, m, keep t⟩
  · obtain ⟨a, m, t⟩ := h.linked k i hk
    exact ⟨a, m, keep t⟩
  · exact cachesOK_op (op := .ask i q e) (fun e' he' => by cases he'; exact he) h.caches

theorem step_optimize {sv : Solvers} (i : ℕ) {s : Shelf} {fks : List FK} (h : Thriving sv s fks) :
    Thriving sv (shExec sv (.optimize i) s).2 fks ∧ Effect sv (.optimize i) s (shExec sv (.optimize i) s).2 := by
  have keep : ∀ {k i' a fk₁ m}, Tended sv s k i' a fk₁ m → ∃ m', Tended sv (shExec sv (.optimize i) s).2 k i' a fk₁ m' ∧ m'.fk = m.fk := by
    intro k i' a fk₁ m t
    by_cases e : i' = i
    · subst e
      have hh : (shExec sv (.optimize i') s).2.world.heap i' = some (m.withMetrics (m.metrics.map fun _ => Metrics.new)) := by
        show (if i' = i' then (s.world.heap i').map _ else s.world.heap i') = _
        rw [if_pos rfl, t.heap]
        rfl
      obtain ⟨P, o1, o2⟩ := t.ok
      obtain ⟨kk, c⟩ := t.was
      exact ⟨_, ⟨hh, t.uses, t.kernel, ⟨P, ⟨o1.gp, o1.inputDim, o1.outputDim, o1.ready, o1.groups, o1.data, o1.filled, o1.keys, o1.grid⟩,
        ⟨o2.gp, o2.inputDim, o2.outputDim, o2.ready, o2.groups, o2.data, o2.filled, o2.keys, o2.grid⟩⟩, t.its, t.sound, t.retuned, t.init, ⟨kk, c.kernel, c.built, c.solved⟩⟩, rfl⟩
    · refine ⟨m, t.keep ?_ rfl rfl, rfl⟩
      show (if i' = i then (s.world.heap i).map _ else s.world.heap i') = _
      rw [if_neg e]
  refine ⟨⟨h.kernels, h.count, fun j hj => ⟨?_, (h.fresh j hj).2⟩, fun j hj => ?_, fun k i' hk => ?_, h.unlinked, ?_⟩, ⟨rfl, fun k i' a fk₁ m t => ?_, fun _ _ => rfl, fun _ _ _ he => by cases he⟩⟩
  · show (if j = i then (s.world.heap i).map _ else s.world.heap j) = none
    by_cases ej : j = i
    · rw [if_pos ej, ← ej, (h.fresh j hj).1]; rfl
    · rw [if_neg ej]; exact (h.fresh j hj).1
  · obtain ⟨k, a, fk₁, m, t⟩ := h.models j hj
    obtain ⟨m', t', -⟩ := keep t
    exact ⟨k, a, fk₁, m', t'⟩
  · obtain ⟨a, m, t⟩ := h.linked k i' hk
    obtain ⟨m', t', hm⟩ := keep t
    rw [← hm] at t'
    exact ⟨a, m', t'⟩
  · exact cachesOK_op (op := .optimize i) (fun e' he' => by cases he') h.caches
  · obtain ⟨m', t', hm⟩ := keep t
    exact ⟨fk₁, m', t', (fun ha => ha.elim), fun _ => hm, fun _ => rfl⟩

theorem step_model {sv : Solvers} (hs : sv.Fit) {k : ℕ} {a : LLGPArgs} {e : Env} {s : Shelf} {fks : List FK} (h : Thriving sv s fks) {P : ℕ} {fk₀ fk₁ fk fk' : FK}
    (hk : fks[k]? = some fk) (hP : 0 < P) (hd : (a.withKernel fk₀).Documented P fk₀) (hn : 0 < a.traceIterations) (hf : fk₀.setInputDim P = .ok fk₁)
    (hc : fk = fk₀ ∧ fk' = fk₁ ∨ fk₁.Retuned fk ∧ fk' = fk) (hsd : fk'.Sound) (he : e.Calm) :
    (shExec sv (.model k a e) s).1 = .ok (.model s.world.next) ∧ Thriving sv (shExec sv (.model k a e) s).2 (fks.set k fk') ∧ Effect sv (.model k a e) s (shExec sv (.model k a e) s).2 := by
  obtain ⟨m, i1, ok, hmf, hni, i2⟩ := shared_init hP hd hf hc
  obtain ⟨m', kk, c, x1, ok', hcore, cur⟩ := new_from hs i1 ok (hni ▸ hn) (hmf ▸ hsd) he s.world
  obtain ⟨p1, p2, p3, p4, p5, p6⟩ := core_parts hcore
  have hkk : s.kernels k = some fk := (h.kernels k).trans hk
  -- a model that uses the object already sees what it becomes
  have seen : ∀ j m, s.uses j = some k → s.world.heap j = some m → m.fk = fk' := by
    intro j m hj hm
    obtain ⟨b, g, mj, t⟩ := Tended.model h hj
    have e1 := t.heap.symm.trans hm
    cases e1
    have e2 := t.kernel.symm.trans hkk
    have e2 : m.fk = fk := Option.some.inj e2
    rcases hc with ⟨rfl, -⟩ | ⟨-, rfl⟩
    · obtain ⟨P', o, -⟩ := t.ok
      have := o.ready.input
      rw [e2, hd.fresh.P] at this
      cases this
    · exact e2
  have hx : shExec sv (.model k a e) s = (.ok (.model s.world.next), { world := { s.world with heap := fun j => if j = s.world.next then some m' else s.world.heap j, next := s.world.next + 1, caches := c }, kernels := setAt s.kernels k (some fk'), count := s.count, uses := setAt s.uses s.world.next (some k), linked := setAt s.linked k (some s.world.next) }) := by
    unfold shExec
    simp only
    rw [hkk]
    simp only
    rw [init_linked i1]
    simp only
    rw [x1]
    simp only
    have hne : s.world.next + 1 ≠ s.world.next := by omega
    rw [if_pos hne, if_pos hne, hmf]
    rw [showKernel_id fun j m hj hm => ?_]
    change (if j = s.world.next then some m' else s.world.heap j) = some m at hm
    by_cases ej : j = s.world.next
    · rw [ej, (h.fresh _ (le_refl _)).2] at hj
      cases hj
    · rw [if_neg ej] at hm
      exact seen j m hj hm
  have hsn : ∀ {k₁ i a₁ f m₁}, Tended sv s k₁ i a₁ f m₁ → i ≠ s.world.next := by
    intro k₁ i a₁ f m₁ t hi
    have := t.heap
    rw [hi, (h.fresh _ (le_refl _)).1] at this
    cases this
  have keep : ∀ {k₁ i a₁ f m₁}, Tended sv s k₁ i a₁ f m₁ → Tended sv (shExec sv (.model k a e) s).2 k₁ i a₁ f m₁ := by
    intro k₁ i a₁ f m₁ t
    rw [hx]
    refine t.keep (if_neg (hsn t)) (setAt_ne _ _ (hsn t)) ?_
    show setAt s.kernels k (some fk') k₁ = _
    by_cases e : k₁ = k
    · subst e
      rw [setAt_self, t.kernel, seen i m₁ t.uses t.heap]
    · rw [setAt_ne _ _ e]
  have born : Tended sv (shExec sv (.model k a e) s).2 k s.world.next a m'.fk m' := by
    rw [hx]
    refine ⟨if_pos rfl, setAt_self _ _ _, ?_, ⟨P, ok', ok'⟩, by rw [p5, hni]; exact hn, ⟨by rw [p2, hmf]; exact hsd, by rw [p2, hmf]; exact hsd⟩, retuned_self ok', ?_, ⟨kk, cur⟩⟩
    · show setAt s.kernels k (some fk') k = _
      rw [setAt_self, p2, hmf]
    · rw [p2, hmf]
      exact ⟨m, i2, hmf, p1, p3, p4, p5, p6⟩
  refine ⟨by rw [hx], ⟨fun j => ?_, ?_, fun j hj => ?_, fun j hj => ?_, fun k₁ i hl => ?_, fun k₁ hl j => ?_, ?_⟩, ⟨by rw [hx]; rfl, fun k₁ i a₁ f m₁ t => ⟨f, m₁, keep t, (fun ha => ha.elim), fun _ => rfl, fun _ => rfl⟩, fun k₁ hm => ?_, fun k₁ a₁ e₁ ho => ?_⟩⟩
  · rw [hx]
    exact setAt_list h.kernels hk fk' j
  · rw [hx, List.length_set]
    exact h.count
  · rw [hx] at hj ⊢
    have hj' : s.world.next + 1 ≤ j := hj
    exact ⟨(if_neg (by omega)).trans (h.fresh j (by omega)).1, (setAt_ne _ _ (by omega)).trans (h.fresh j (by omega)).2⟩
  · by_cases ej : j = s.world.next
    · subst ej
      exact ⟨k, a, m'.fk, m', born⟩
    · have : j < s.world.next := by
        rw [hx] at hj
        have : j < s.world.next + 1 := hj
        omega
      obtain ⟨k₁, a₁, f, m₁, t⟩ := h.models j this
      exact ⟨k₁, a₁, f, m₁, keep t⟩
  · rw [hx] at hl
    change setAt s.linked k (some s.world.next) k₁ = some i at hl
    by_cases ek : k₁ = k
    · subst ek
      rw [setAt_self] at hl
      cases hl
      exact ⟨a, m', born⟩
    · rw [setAt_ne _ _ ek] at hl
      obtain ⟨a₁, m₁, t⟩ := h.linked k₁ i hl
      exact ⟨a₁, m₁, keep t⟩
  · rw [hx] at hl ⊢
    change setAt s.linked k (some s.world.next) k₁ = none at hl
    show setAt s.uses s.world.next (some k) j ≠ some k₁
    by_cases ek : k₁ = k
    · subst ek
      rw [setAt_self] at hl
      cases hl
    · rw [setAt_ne _ _ ek] at hl
      by_cases ej : j = s.world.next
      · subst ej
        rw [setAt_self]
        intro hh
        exact ek (Option.some.inj hh).symm
      · rw [setAt_ne _ _ ej]
        exact h.unlinked k₁ hl j
  · have := cachesOK_op (sv := sv) (op := .new (a.withKernel fk) e) (fun e' he' => by cases he'; exact he.1) h.caches
    rw [x1] at this
    rw [hx]
    exact this
  · rw [hx]
    exact setAt_ne _ _ fun hh => hm hh.symm
  · cases ho
    refine ⟨?_, m', born⟩
    rw [hx]
    exact setAt_self _ _ _

theorem step_assign {sv : Solvers} (hs : sv.Fit) {k : ℕ} {fk fk' : FK} {e : Env} {s : Shelf} {fks : List FK} (h : Thriving sv s fks) (hk : fks[k]? = some fk)
    (hr : fk.Retuned fk') (hsd : fk'.Sound) (he : e.Calm) :
    (shExec sv (.assign k fk' e) s).1 = .ok .unit ∧ Thriving sv (shExec sv (.assign k fk' e) s).2 (fks.set k fk') ∧ Effect sv (.assign k fk' e) s (shExec sv (.assign k fk' e) s).2 := by
  have hkk : s.kernels k = some fk := (h.kernels k).trans hk
  cases hl : s.linked k with
  | none =>
    have hx : shExec sv (.assign k fk' e) s = (.ok .unit, { s with kernels := setAt s.kernels k (some fk') }) := by
      unfold shExec
      simp only
      rw [hkk]
      simp only
      rw [hl]
      simp only
      rw [showKernel_id fun j m hj _ => (h.unlinked k hl j hj).elim]
    have keep : ∀ {k₁ i a₁ f m₁}, Tended sv s k₁ i a₁ f m₁ → k₁ ≠ k ∧ Tended sv (shExec sv (.assign k fk' e) s).2 k₁ i a₁ f m₁ := by
      intro k₁ i a₁ f m₁ t
      have hne : k₁ ≠ k := fun ek => h.unlinked k hl i (ek ▸ t.uses)
      rw [hx]
      exact ⟨hne, t.keep rfl rfl (setAt_ne _ _ hne)⟩
    refine ⟨by rw [hx], ⟨fun j => ?_, ?_, fun j hj => ?_, fun j hj => ?_, fun k₁ i hi => ?_, fun k₁ hi j => ?_, ?_⟩, ⟨by rw [hx]; rfl, fun k₁ i a₁ f m₁ t => ⟨f, m₁, (keep t).2, fun ha _ => ((keep t).1 ha.symm).elim, fun _ => rfl, fun _ => rfl⟩, fun k₁ _ => by rw [hx], fun _ _ _ ho => by cases ho⟩⟩
    · rw [hx]
      exact setAt_list h.kernels hk fk' j
    · rw [hx, List.length_set]
      exact h.count
    · rw [hx] at hj ⊢
      exact h.fresh j hj
    · rw [hx] at hj
      obtain ⟨k₁, a₁, f, m₁, t⟩ := h.models j hj
      exact ⟨k₁, a₁, f, m₁, (keep t).2⟩
    · rw [hx] at hi
      obtain ⟨a₁, m₁, t⟩ := h.linked k₁ i hi
      exact ⟨a₁, m₁, (keep t).2⟩
    · rw [hx] at hi ⊢
      exact h.unlinked k₁ hi j
    · rw [hx]
      exact h.caches
  | some i =>
    obtain ⟨a, m, t⟩ := h.linked k i hl
    obtain ⟨P, ok, -⟩ := t.ok
    have hmf : m.fk = fk := Option.some.inj (t.kernel.symm.trans hkk)
    have hr' : m.fk.Retuned fk' := by rw [hmf]; exact hr
    have hok := ok.retuned hr'
    have hw : (showKernel s.uses k fk' s.world).heap i = some { m with fk := fk' } := by
      show (if s.uses i = some k then (s.world.heap i).map _ else _) = _
      rw [if_pos t.uses, t.heap]
      rfl
    obtain ⟨w', hw'⟩ := update_completes hs he.1 he.2 hok t.its (fun _ => sound_posDef hok hsd) hw true
    obtain ⟨m', kk, c, g1, g2, g3, -⟩ := update_complete he.1 hw hw'
    obtain ⟨p1, p2, p3, p4, p5, p6⟩ := core_parts g3
    have hcaches : CachesOK sv w' := (Agree.parametersChanged sv true true e i (showKernel s.uses k fk' s.world) trivial).2.1 () w' hw'
    have hx : shExec sv (.assign k fk' e) s = (.ok .unit, { s with world := w', kernels := setAt s.kernels k (some fk') }) := by
      unfold shExec
      simp only
      rw [hkk]
      simp only
      rw [hl]
      simp only
      rw [hw']
      rfl
    have hheap : ∀ j, w'.heap j = if j = i then some m' else if s.uses j = some k then (s.world.heap j).map fun m => { m with fk := fk' } else s.world.heap j := by
      intro j
      rw [g1]
      rfl
    have hnext : w'.next = s.world.next := by rw [g1]; rfl
    -- the model in which the object is linked
    have self : ∀ {b f mb}, Tended sv s k i b f mb → Tended sv (shExec sv (.assign k fk' e) s).2 k i b m'.fk m' := by
      intro b f mb tb
      have e1 := tb.heap.symm.trans t.heap
      cases e1
      rw [hx]
      obtain ⟨m₀, n1, n2, n3, n4, n5, n6, n7⟩ := tb.init
      refine ⟨(hheap i).trans (if_pos rfl), tb.uses, ?_, ⟨P, hok.of_core g3, hok.of_core g3⟩, by rw [p5]; exact t.its, ⟨by rw [p2]; exact hsd, by rw [p2]; exact hsd⟩,
        retuned_self (hok.of_core g3), ?_, ⟨kk, g2⟩⟩
      · show setAt s.kernels k (some fk') k = _
        rw [setAt_self, p2]
      · have hrr : f.Retuned fk' := retuned_trans tb.retuned hr'
        refine ⟨{ m₀ with fk := m'.fk }, ?_, rfl, ?_, ?_, ?_, ?_, ?_⟩
        · rw [p2]
          refine init_other n1 ?_ (by rw [n2]; exact hrr.groups)
          show fk'.P = _
          rw [hr'.input, ok.ready.input, ← n3, ok.inputDim]
        · exact p1.trans n3
        · exact p3.trans n4
        · exact p4.trans n5
        · exact p5.trans n6
        · exact p6.trans n7
    -- another model that uses it
    have other : ∀ {j b f mb}, j ≠ i → Tended sv s k j b f mb → Tended sv (shExec sv (.assign k fk' e) s).2 k j b f { mb with fk := fk' } := by
      intro j b f mb hj tb
      rw [hx]
      obtain ⟨P', o1, o2⟩ := tb.ok
      have hmb : mb.fk = fk := Option.some.inj (tb.kernel.symm.trans hkk)
      have hrb : mb.fk.Retuned fk' := by rw [hmb]; exact hr
      refine ⟨?_, tb.uses, setAt_self _ _ _, ⟨P', o1.retuned hrb, o2⟩, tb.its, ⟨hsd, tb.sound.2⟩, retuned_trans tb.retuned hrb, tb.init, tb.was⟩
      show w'.heap j = _
      rw [hheap, if_neg hj, if_pos tb.uses, tb.heap]
      rfl
    have apart : ∀ {k₁ j b f mb}, k₁ ≠ k → Tended sv s k₁ j b f mb → Tended sv (shExec sv (.assign k fk' e) s).2 k₁ j b f mb := by
      intro k₁ j b f mb hne tb
      rw [hx]
      refine tb.keep ?_ rfl (setAt_ne _ _ hne)
      have hu : s.uses j ≠ some k := by
        rw [tb.uses]
        intro hh
        exact hne (Option.some.inj hh)
      have hj : j ≠ i := fun ej => hu (ej ▸ t.uses)
      show w'.heap j = _
      rw [hheap, if_neg hj, if_neg hu]
    have keep : ∀ {k₁ j b f mb}, Tended sv s k₁ j b f mb → ∃ f' mb', Tended sv (shExec sv (.assign k fk' e) s).2 k₁ j b f' mb' ∧ (k = k₁ → s.linked k₁ = some j → f' = mb'.fk) ∧
        (¬ k = k₁ → mb'.fk = mb.fk) ∧ (¬ (k = k₁ ∧ s.linked k₁ = some j) → f' = f) := by
      intro k₁ j b f mb tb
      by_cases ek : k₁ = k
      · subst ek
        by_cases ej : j = i
        · subst ej
          exact ⟨m'.fk, m', self tb, fun _ _ => rfl, fun hh => (hh rfl).elim, fun hh => (hh ⟨rfl, hl⟩).elim⟩
        · refine ⟨f, _, other ej tb, fun _ hh => ?_, fun hh => (hh rfl).elim, fun _ => rfl⟩
          rw [hl] at hh
          exact (ej (Option.some.inj hh).symm).elim
      · exact ⟨f, mb, apart ek tb, fun hh => (ek hh.symm).elim, fun _ => rfl, fun _ => rfl⟩
    refine ⟨by rw [hx], ⟨fun j => ?_, ?_, fun j hj => ?_, fun j hj => ?_, fun k₁ j hj => ?_, fun k₁ hi j => ?_, ?_⟩, ⟨by rw [hx]; exact hnext, fun k₁ j b f mb tb => keep tb, fun k₁ _ => by rw [hx], fun _ _ _ ho => by cases ho⟩⟩
    · rw [hx]
      exact setAt_list h.kernels hk fk' j
    · rw [hx, List.length_set]
      exact h.count
    · rw [hx] at hj ⊢
      have hj' : s.world.next ≤ j := by rw [← hnext]; exact hj
      refine ⟨?_, (h.fresh j hj').2⟩
      have hji : j ≠ i := by
        intro ej
        have := t.heap
        rw [← ej, (h.fresh j hj').1] at this
        cases this
      show w'.heap j = none
      rw [hheap, if_neg hji, if_neg (by rw [(h.fresh j hj').2]; exact fun hh => by cases hh)]
      exact (h.fresh j hj').1
    · rw [hx] at hj
      have hj' : j < s.world.next := by rw [← hnext]; exact hj
      obtain ⟨k₁, a₁, f, m₁, tj⟩ := h.models j hj'
      obtain ⟨f', m₂, t2, -⟩ := keep tj
      exact ⟨k₁, a₁, f', m₂, t2⟩
    · rw [hx] at hj
      obtain ⟨a₁, m₁, tj⟩ := h.linked k₁ j hj
      obtain ⟨f', m₂, t2, q1, q2, q3⟩ := keep tj
      by_cases ek : k = k₁
      · rw [q1 ek hj] at t2
        exact ⟨a₁, m₂, t2⟩
      · rw [q3 fun hh => ek hh.1, ← q2 ek] at t2
        exact ⟨a₁, m₂, t2⟩
    · rw [hx] at hi ⊢
      exact h.unlinked k₁ hi j
    · rw [hx]
      exact hcaches

/-- one operation of a valid program -/
theorem sh_step {sv : Solvers} (hs : sv.Fit) (op : ShOp) (ops : List ShOp) (fks : List FK) (s : Shelf) (h : Thriving sv s fks) (hv : ShValid fks (op :: ops)) :
    ∃ fks', ShValid fks' ops ∧ Thriving sv (shExec sv op s).2 fks' ∧ Effect sv op s (shExec sv op s).2 ∧ (∀ k a e, op = .model k a e → (shExec sv op s).1 = .ok (.model s.world.next)) ∧
      (∀ k, op.Assigns k → (shExec sv op s).1 = .ok .unit) := by
  cases op with
  | kernel fk => exact ⟨_, hv, (step_kernel fk h).1, (step_kernel fk h).2, (fun _ _ _ ho => by cases ho), fun _ ha => ha.elim⟩
  | model k a e =>
    obtain ⟨P, fk₀, fk₁, fk, fk', hk, hP, hd, hn, hf, hc, hsd, he, hv'⟩ := hv
    obtain ⟨h1, h2, h3⟩ := step_model hs h hk hP hd hn hf hc hsd he
    exact ⟨_, hv', h2, h3, fun _ _ _ _ => h1, fun _ ha => ha.elim⟩
  | assign k fk' e =>
    obtain ⟨fk, hk, hr, hsd, he, hv'⟩ := hv
    obtain ⟨h1, h2, h3⟩ := step_assign hs h hk hr hsd he
    exact ⟨_, hv', h2, h3, (fun _ _ _ ho => by cases ho), fun _ _ => h1⟩
  | optimize i => exact ⟨_, hv, (step_optimize i h).1, (step_optimize i h).2, (fun _ _ _ ho => by cases ho), fun _ ha => ha.elim⟩
  | ask i q e => exact ⟨_, hv.2, (step_ask i q hv.1 h).1, (step_ask i q hv.1 h).2, (fun _ _ _ ho => by cases ho), fun _ ha => ha.elim⟩

theorem thriving_start (sv : Solvers) : Thriving sv Shelf.start [] :=
  ⟨fun j => by simp [Shelf.start], rfl, fun _ _ => ⟨rfl, rfl⟩, fun j hj => absurd hj (Nat.not_lt_zero j), (fun _ _ hl => by cases hl), (fun _ _ _ hh => by cases hh), cachesOK_empty rfl⟩

theorem shHistory_append (sv : Solvers) (ops : List ShOp) : ∀ (ops' : List ShOp) (s : Shelf), shHistory sv (ops ++ ops') s =
    ((shHistory sv ops s).1 ++ (shHistory sv ops' (shHistory sv ops s).2).1, (shHistory sv ops' (shHistory sv ops s).2).2) := by
  induction ops with
  | nil => intro ops' s; rfl
  | cons op ops ih =>
    intro ops' s
    simp only [List.cons_append, shHistory]
    rw [ih]

/-- a valid program, and the programs it begins with -/
theorem sh_program {sv : Solvers} (hs : sv.Fit) : ∀ (ops rest : List ShOp) (fks : List FK) (s : Shelf), Thriving sv s fks → ShValid fks (ops ++ rest) →
    ∃ fks', ShValid fks' rest ∧ Thriving sv (shHistory sv ops s).2 fks' ∧ (shHistory sv ops s).2.world.next = s.world.next + modelsMade ops
  | [], _, fks, s, h, hv => ⟨fks, hv, h, rfl⟩
  | op :: ops, rest, fks, s, h, hv => by
    obtain ⟨fks₁, hv₁, h₁, eff, -⟩ := sh_step hs op (ops ++ rest) fks s h hv
    obtain ⟨fks₂, hv₂, h₂, hn⟩ := sh_program hs ops rest fks₁ _ h₁ hv₁
    refine ⟨fks₂, hv₂, h₂, ?_⟩
    show (shHistory sv ops (shExec sv op s).2).2.world.next = _
    rw [hn, eff.next]
    cases op <;> simp [modelsMade] <;> omega

/-- a model in which the kernel object stays linked is up to date -/
theorem sh_linked {sv : Solvers} (hs : sv.Fit) {k i : ℕ} {a : LLGPArgs} : ∀ (ops rest : List ShOp) (fks : List FK) (s : Shelf), Thriving sv s fks → ShValid fks (ops ++ rest) →
    (∀ op ∈ ops, ¬ op.Makes k) → s.linked k = some i → (∃ m, Tended sv s k i a m.fk m) →
    (shHistory sv ops s).2.linked k = some i ∧ ∃ m, Tended sv (shHistory sv ops s).2 k i a m.fk m
  | [], _, _, _, _, _, _, hl, ht => ⟨hl, ht⟩
  | op :: ops, rest, fks, s, h, hv, hm, hl, ⟨m, t⟩ => by
    obtain ⟨fks₁, hv₁, h₁, eff, -⟩ := sh_step hs op (ops ++ rest) fks s h hv
    obtain ⟨f, m', t', q1, q2, q3⟩ := eff.tended k i a m.fk m t
    refine sh_linked hs ops rest fks₁ _ h₁ hv₁ (fun op' ho => hm op' (List.mem_cons_of_mem _ ho)) ((eff.linked k (hm op (by simp))).trans hl) ⟨m', ?_⟩
    by_cases ha : op.Assigns k
    · rw [q1 ha hl] at t'
      exact t'
    · rw [q3 fun hh => ha hh.1, ← q2 ha] at t'
      exact t'

/-- no assignment: nothing changes for a model -/
theorem sh_untouched {sv : Solvers} (hs : sv.Fit) {k i : ℕ} {a : LLGPArgs} {f : FK} : ∀ (ops rest : List ShOp) (fks : List FK) (s : Shelf), Thriving sv s fks → ShValid fks (ops ++ rest) →
    (∀ op ∈ ops, ¬ op.Assigns k) → ∀ m, Tended sv s k i a f m → ∃ m', Tended sv (shHistory sv ops s).2 k i a f m' ∧ m'.fk = m.fk
  | [], _, _, _, _, _, _, m, t => ⟨m, t, rfl⟩
  | op :: ops, rest, fks, s, h, hv, hm, m, t => by
    obtain ⟨fks₁, hv₁, h₁, eff, -⟩ := sh_step hs op (ops ++ rest) fks s h hv
    obtain ⟨f', m', t', q1, q2, q3⟩ := eff.tended k i a f m t
    have ha := hm op (by simp)
    rw [q3 fun hh => ha hh.1] at t'
    obtain ⟨m'', t'', e⟩ := sh_untouched hs ops rest fks₁ _ h₁ hv₁ (fun op' ho => hm op' (List.mem_cons_of_mem _ ho)) m' t'
    exact ⟨m'', t'', e.trans (q2 ha)⟩

/-- the kernel object is linked elsewhere: the model stays as it was when it was last updated -/
theorem sh_elsewhere {sv : Solvers} (hs : sv.Fit) {k i : ℕ} {a : LLGPArgs} {f : FK} : ∀ (ops rest : List ShOp) (fks : List FK) (s : Shelf), Thriving sv s fks → ShValid fks (ops ++ rest) →
    s.linked k ≠ some i → i < s.world.next → (∃ m, Tended sv s k i a f m) → ∃ m', Tended sv (shHistory sv ops s).2 k i a f m'
  | [], _, _, _, _, _, _, _, ht => ht
  | op :: ops, rest, fks, s, h, hv, hl, hi, ⟨m, t⟩ => by
    obtain ⟨fks₁, hv₁, h₁, eff, -⟩ := sh_step hs op (ops ++ rest) fks s h hv
    obtain ⟨f', m', t', q1, q2, q3⟩ := eff.tended k i a f m t
    rw [q3 fun hh => hl hh.2] at t'
    refine sh_elsewhere hs ops rest fks₁ _ h₁ hv₁ ?_ (by rw [eff.next]; omega) ⟨m', t'⟩
    by_cases hm : op.Makes k
    · cases op with
      | model k' b e =>
        cases hm
        rw [(eff.made _ _ _ rfl).1]
        intro hh
        have := Option.some.inj hh
        omega
      | _ => exact hm.elim
    · rw [eff.linked k hm]
      exact hl

end Verif
