import Verif.Proofs.LLGPAnswer

/-! What an update does, whether it completes or not. -/

namespace Verif

/-! ### `generate` -/

theorem solve_verbose {sv : Solvers} {K : MatObj} {y : List ℝ} {v b : Bool} {tol : ℝ} {r : SolveRet × Bool} (h : iterativeSolve sv K y v b tol = .ok r) :
    ∃ x c err lg, r = (if v then .verbose x c err else .plain x, lg) ∧ iterativeSolve sv K y false b tol = .ok (.plain x, lg) := by
  unfold iterativeSolve at h ⊢
  by_cases h1 : K.rows ≠ K.cols ∨ y.length ≠ K.rows
  · rw [if_pos h1] at h
    cases h
  · rw [if_neg h1] at h ⊢
    cases h
    exact ⟨_, _, _, _, rfl, rfl⟩

/-- the metrics after `generate`: one entry more in two of the series -/
def MetricsSolved (x x' : Option Metrics) : Prop :=
  (x = none ∧ x' = none) ∨ ∃ m a b, x = some m ∧ x' = some { m with iterations := m.iterations ++ [a], solvError := m.solvError ++ [b] }

theorem generate_facts {sv : Solvers} {s : DerivService} {metrics : Option Metrics} {z : ℕ → ℕ → Bool} {K : MatObj} {y : List ℝ} (hp : s.pool.Works (s.nIt + 1))
    {d : StochDeriv × Option Metrics} (h : s.generate sv metrics z K y = .ok d) :
    (∃ lg, iterativeSolve sv K y false true s.tol = .ok (.plain d.1.alpha, lg)) ∧ MetricsSolved metrics d.2 := by
  unfold DerivService.generate at h
  simp only [bind_ok, pure_ok] at h
  obtain ⟨outs, h1, p, h2, rfl⟩ := h
  haveI : Nonempty SolveRet := ⟨.plain []⟩
  obtain ⟨g, g1, rfl⟩ := starmap_inv (by simpa [signRows] using hp) h1
  have hy := g1 y (by simp)
  rw [except_map_bind, bind_ok] at hy
  obtain ⟨r, hr, hr2⟩ := hy
  obtain ⟨x, c, err, lg, rfl, hx⟩ := solve_verbose hr
  simp only [Except.ok.injEq] at hr2
  unfold recordSolved at h2
  cases hm : metrics with
  | none =>
    rw [hm] at h2 hr2
    simp only [bind_ok, pure_ok] at h2
    obtain ⟨xs, h3, rfl⟩ := h2
    refine ⟨⟨lg, ?_⟩, .inl ⟨rfl, rfl⟩⟩
    rw [List.map_cons] at h3
    simp only [mapExcept, bind_ok, pure_ok] at h3
    obtain ⟨x', h4, xs', -, rfl⟩ := h3
    rw [← hr2] at h4
    cases h4
    exact hx
  | some m =>
    rw [hm] at h2 hr2
    simp only [bind_ok, pure_ok] at h2
    obtain ⟨xs, h3, rfl⟩ := h2
    refine ⟨⟨lg, ?_⟩, .inr ⟨m, _, _, rfl, rfl⟩⟩
    rw [List.map_cons] at h3
    simp only [mapExcept, bind_ok, pure_ok] at h3
    obtain ⟨x', h4, xs', -, rfl⟩ := h3
    rw [← hr2] at h4
    cases h4
    exact hx

theorem approxFirst_facts {sv : Solvers} {e : Env} (he : e.Works) {m : LLGP} {K : MatObj} {kd : List MatObj × StochDeriv × Option Metrics}
    (h : approxFirst sv e m K = .ok kd) :
    (∃ lg, iterativeSolve sv K m.y false true m.tol = .ok (.plain kd.2.1.alpha, lg)) ∧ MetricsSolved m.metrics kd.2.2 := by
  unfold approxFirst at h
  split_ifs at h
  simp only [bind_ok, pure_ok] at h
  obtain ⟨vals, -, ks, -, d, h1, rfl⟩ := h
  exact generate_facts (s := m.service e) (he _) h1

/-! ### the parts that do not change what predictions use -/

/-- the attributes that predictions use -/
def LLGP.core (m : LLGP) : LLGP := { m with metrics := none, grad := none }

/-- the same objects, up to metrics and stored gradients -/
def SameCore (w w' : World) : Prop := w'.next = w.next ∧ ∀ j, (w'.heap j).map LLGP.core = (w.heap j).map LLGP.core

theorem SameCore.refl (w : World) : SameCore w w := ⟨rfl, fun _ => rfl⟩

theorem SameCore.trans {a b c : World} (h1 : SameCore a b) (h2 : SameCore b c) : SameCore a c := ⟨h2.1.trans h1.1, fun j => (h2.2 j).trans (h1.2 j)⟩

/-- `x` changes no more than metrics, gradients and caches, whether it returns or raises -/
def Keeps {α : Type} (x : PyM α) : Prop := ∀ w, SameCore w (x w).2

theorem Keeps.bind {α β : Type} {x : PyM α} {f : α → PyM β} (h1 : Keeps x) (h2 : ∀ a, Keeps (f a)) : Keeps (x >>= f) := by
  intro w
  rw [py_bind]
  have := h1 w
  rcases h : x w with ⟨r, w'⟩
  rw [h] at this
  cases r with
  | ok a => exact this.trans (h2 a w')
  | error e => exact this

theorem Keeps.of_snd {α : Type} {x : PyM α} (h : ∀ w, ∃ c, (x w).2 = { w with caches := c }) : Keeps x := by
  intro w
  obtain ⟨c, hc⟩ := h w
  rw [hc]
  exact ⟨rfl, fun _ => rfl⟩

theorem Keeps.pure {α : Type} (a : α) : Keeps (pure a : PyM α) := fun w => SameCore.refl w
theorem Keeps.lift {α : Type} (x : Except PyErr α) : Keeps (PyM.lift x) := fun w => SameCore.refl w
theorem Keeps.checkpoint (e : Env) (k : ℕ) : Keeps (checkpoint e k) := fun w => SameCore.refl w
theorem Keeps.self (i : ℕ) : Keeps (self i) := fun w => SameCore.refl w
theorem Keeps.clear : Keeps clearCaches := Keeps.of_snd fun w => ⟨_, rfl⟩

theorem cached_snd {α : Type} (u : Bool) (get : Caches → Option (ℕ × α)) (set : Option (ℕ × α) → Caches → Caches) (compute : LLGP → Except PyErr α) (i : ℕ) (w : World) :
    ∃ c, (cachedCall u get set compute i w).2 = { w with caches := c } := by
  unfold cachedCall
  cases w.heap i with
  | none => exact ⟨w.caches, rfl⟩
  | some m =>
    simp only
    cases get w.caches with
    | none =>
      simp only
      cases compute m with
      | ok v => exact ⟨_, rfl⟩
      | error e => exact ⟨w.caches, rfl⟩
    | some jv =>
      simp only
      split_ifs
      · exact ⟨w.caches, rfl⟩
      · cases compute m with
        | ok v => exact ⟨_, rfl⟩
        | error e => exact ⟨w.caches, rfl⟩

theorem Keeps.cached {α : Type} (u : Bool) (get : Caches → Option (ℕ × α)) (set : Option (ℕ × α) → Caches → Caches) (compute : LLGP → Except PyErr α) (i : ℕ) :
    Keeps (cachedCall u get set compute i) := Keeps.of_snd fun w => cached_snd u get set compute i w

theorem Keeps.modify (i : ℕ) (f : LLGP → LLGP) (h : ∀ m, (f m).core = m.core) : Keeps (modifySelf i f) := by
  intro w
  refine ⟨rfl, fun j => ?_⟩
  show (if j = i then (w.heap i).map f else w.heap j).map LLGP.core = _
  by_cases e : j = i
  · rw [if_pos e, e]
    cases w.heap i with
    | none => rfl
    | some m => exact congrArg some (h m)
  · rw [if_neg e]

theorem Keeps.debug (u : Bool) (e : Env) (i : ℕ) : Keeps (debugMessages u e i) := by
  unfold debugMessages
  split_ifs
  · exact ((Keeps.cached u _ _ _ i).bind fun _ => (Keeps.self i).bind fun _ => Keeps.lift _).bind fun _ => ((Keeps.self i).bind fun _ => Keeps.lift _).bind fun _ =>
      ((Keeps.cached u _ _ _ i).bind fun _ => Keeps.pure _).bind fun _ => Keeps.pure _
  · exact Keeps.pure _

theorem Keeps.store (i : ℕ) : Keeps (storeGradient i) :=
  (Keeps.self i).bind fun _ => (Keeps.lift _).bind fun _ => (Keeps.lift _).bind fun _ => Keeps.modify i _ fun _ => rfl

theorem Keeps.withMetrics (i : ℕ) (f : LLGP → Option Metrics) : Keeps (modifySelf i fun m => m.withMetrics (f m)) := Keeps.modify i _ fun _ => rfl

theorem Keeps.record (u : Bool) (e : Env) (i : ℕ) : Keeps (recordMetrics u e i) := by
  unfold recordMetrics
  refine (Keeps.self i).bind fun m => ?_
  cases m.metrics with
  | none => exact Keeps.pure _
  | some x =>
    exact (Keeps.lift _).bind fun _ => (Keeps.cached u _ _ _ i).bind fun _ => (Keeps.lift _).bind fun _ => (Keeps.lift _).bind fun _ => (Keeps.lift _).bind fun _ =>
      (Keeps.withMetrics i _).bind fun _ => (Keeps.checkpoint e 5).bind fun _ => ((Keeps.cached u _ _ _ i).bind fun _ => (Keeps.self i).bind fun _ => Keeps.lift _).bind fun _ =>
        Keeps.withMetrics i _

theorem current_core {sv : Solvers} {m m' : LLGP} (h : m'.core = m.core) {k : LLKernel} (hc : m.Current sv k) : m'.Current sv k := by
  have e1 : m'.core.Current sv k := by
    rw [h]
    exact ⟨hc.kernel, hc.built, hc.solved⟩
  exact ⟨e1.kernel, e1.built, e1.solved⟩

/-! ### the replacement of the kernel -/

/-- the object with its kernel replaced -/
def LLGP.replaced (m : LLGP) (Kg : MatObj × List (List ℕ × GridKernelObj)) (kd : List MatObj × StochDeriv × Option Metrics) (grads : List (List KVal)) : LLGP :=
  { m with metrics := kd.2.2, kernel := some ⟨⟨m.fk, m.y, m.lens, kd.1, Kg.1, kd.2.1, grads, m.interp⟩, Kg.2⟩ }

/-- the state with object `i` replaced -/
def World.put (w : World) (i : ℕ) (m : LLGP) : World := { w with heap := fun j => if j = i then some m else w.heap j }

theorem self_run {w : World} {i : ℕ} {m : LLGP} (h : w.heap i = some m) : self i w = (.ok m, w) := by
  unfold self
  rw [h]

theorem modify_run {w : World} {i : ℕ} {m : LLGP} (h : w.heap i = some m) (f : LLGP → LLGP) : modifySelf i f w = (.ok (), w.put i (f m)) := by
  unfold modifySelf World.put
  rw [h]
  rfl

theorem checkpoint_run (e : Env) (k : ℕ) (w : World) : checkpoint e k w = (if e.interrupt = some k then .error .keyboardInterrupt else .ok (), w) := rfl

theorem lift_run {α : Type} (x : Except PyErr α) (w : World) : PyM.lift x w = (x, w) := rfl

theorem put_heap (w : World) (i : ℕ) (m : LLGP) : (w.put i m).heap i = some m := if_pos rfl

theorem put_put (w : World) (i : ℕ) (m m' : LLGP) : (w.put i m).put i m' = w.put i m' := by
  unfold World.put
  congr 1
  funext j
  by_cases e : j = i
  · simp only [if_pos e]
  · simp only [if_neg e]

theorem put_core {w : World} {i : ℕ} {m m' : LLGP} (h : w.heap i = some m) (hc : m'.core = m.core) : SameCore w (w.put i m') := by
  refine ⟨rfl, fun j => ?_⟩
  show (if j = i then some m' else w.heap j).map LLGP.core = _
  by_cases e : j = i
  · rw [if_pos e, e, h]
    exact congrArg some hc
  · rw [if_neg e]

/-- Either everything was computed and the kernel replaced, or an exception was raised; then only the metrics may have changed. -/
theorem replace_outcome (sv : Solvers) (e : Env) {i : ℕ} {w : World} {m : LLGP} (h : w.heap i = some m) :
    (∃ Kg kd grads, genGridKernel m.fk m.dists m.interp m.lens = .ok Kg ∧ approxFirst sv e m Kg.1 = .ok kd ∧
      m.fk.evalKernelGradients (m.dists.map fun kd => (kd.1, .arr kd.2)) = .ok grads ∧ (∀ k < 3, e.interrupt ≠ some k) ∧
      replaceKernel sv e i w = (.ok (), w.put i (m.replaced Kg kd grads))) ∨
    (∃ x w', replaceKernel sv e i w = (.error x, w') ∧ SameCore w w' ∧ (∀ j, j ≠ i → w'.heap j = w.heap j) ∧ w'.caches = w.caches ∧
      ((∃ k < 3, e.interrupt = some k) ∨ (∃ y, genGridKernel m.fk m.dists m.interp m.lens = .error y) ∨
        (∃ Kg y, genGridKernel m.fk m.dists m.interp m.lens = .ok Kg ∧ approxFirst sv e m Kg.1 = .error y) ∨
        ∃ y, m.fk.evalKernelGradients (m.dists.map fun kd => (kd.1, .arr kd.2)) = .error y)) := by
  unfold replaceKernel
  rw [py_bind, self_run h]
  simp only
  rw [py_bind, checkpoint_run]
  by_cases i0 : e.interrupt = some 0
  · right
    rw [if_pos i0]
    exact ⟨_, _, rfl, SameCore.refl w, fun _ _ => rfl, rfl, .inl ⟨0, by norm_num, i0⟩⟩
  rw [if_neg i0]
  simp only
  rw [py_bind, lift_run]
  cases hK : genGridKernel m.fk m.dists m.interp m.lens with
  | error x =>
    right
    exact ⟨_, _, rfl, SameCore.refl w, fun _ _ => rfl, rfl, .inr (.inl ⟨x, rfl⟩)⟩
  | ok Kg =>
    simp only
    rw [py_bind, checkpoint_run]
    by_cases i1 : e.interrupt = some 1
    · right
      rw [if_pos i1]
      exact ⟨_, _, rfl, SameCore.refl w, fun _ _ => rfl, rfl, .inl ⟨1, by norm_num, i1⟩⟩
    rw [if_neg i1]
    simp only
    rw [py_bind, lift_run]
    cases hA : approxFirst sv e m Kg.1 with
    | error x =>
      right
      exact ⟨_, _, rfl, SameCore.refl w, fun _ _ => rfl, rfl, .inr (.inr (.inl ⟨Kg, x, rfl, hA⟩))⟩
    | ok kd =>
      simp only
      rw [py_bind, modify_run h]
      simp only
      rw [py_bind, checkpoint_run]
      have hput : ∀ j, j ≠ i → (w.put i (m.withMetrics kd.2.2)).heap j = w.heap j := fun j hj => if_neg hj
      by_cases i2 : e.interrupt = some 2
      · right
        rw [if_pos i2]
        exact ⟨_, _, rfl, put_core h rfl, hput, rfl, .inl ⟨2, by norm_num, i2⟩⟩
      rw [if_neg i2]
      simp only
      rw [py_bind, lift_run]
      cases hG : m.fk.evalKernelGradients (m.dists.map fun kd => (kd.1, .arr kd.2)) with
      | error x =>
        right
        exact ⟨_, _, rfl, put_core h rfl, hput, rfl, .inr (.inr (.inr ⟨x, rfl⟩))⟩
      | ok grads =>
        left
        refine ⟨Kg, kd, grads, rfl, hA, rfl, ?_, ?_⟩
        · intro k hk
          interval_cases k <;> assumption
        · simp only
          rw [modify_run (put_heap _ _ _), put_put]
          rfl

theorem replaced_current {sv : Solvers} {e : Env} (he : e.Works) {m : LLGP} {Kg : MatObj × List (List ℕ × GridKernelObj)}
    {kd : List MatObj × StochDeriv × Option Metrics} {grads : List (List KVal)} (h1 : genGridKernel m.fk m.dists m.interp m.lens = .ok Kg)
    (h2 : approxFirst sv e m Kg.1 = .ok kd) : ∃ k, (m.replaced Kg kd grads).Current sv k :=
  ⟨_, rfl, h1, (approxFirst_facts he h2).1⟩

/-- object `i` of `w'` is the model `m` of `w`, up to metrics, gradients and the kernel, which is up to date -/
def Refreshed (sv : Solvers) (w' : World) (i : ℕ) (m : LLGP) : Prop :=
  ∃ m' k, w'.heap i = some m' ∧ m'.Current sv k ∧ ({ m' with kernel := none } : LLGP).core = ({ m with kernel := none } : LLGP).core

/-- An update leaves other objects alone. If it completes, the model is up to date. If it raises, the model is up to date or its kernel was not
touched. -/
theorem update_outcome (sv : Solvers) (u : Bool) {e : Env} (he : e.Works) {i : ℕ} {w : World} {m : LLGP} (h : w.heap i = some m) :
    (∀ j, j ≠ i → ((parametersChanged u sv e i w).2.heap j).map LLGP.core = (w.heap j).map LLGP.core) ∧ (parametersChanged u sv e i w).2.next = w.next ∧
    (Refreshed sv (parametersChanged u sv e i w).2 i m ∨
      ((∃ x, (parametersChanged u sv e i w).1 = .error x) ∧ SameCore w (parametersChanged u sv e i w).2 ∧
      ((∃ k < 3, e.interrupt = some k) ∨ (∃ y, genGridKernel m.fk m.dists m.interp m.lens = .error y) ∨
        (∃ Kg y, genGridKernel m.fk m.dists m.interp m.lens = .ok Kg ∧ approxFirst sv e m Kg.1 = .error y) ∨
        ∃ y, m.fk.evalKernelGradients (m.dists.map fun kd => (kd.1, .arr kd.2)) = .error y))) := by
  have htail : Keeps (do
      checkpoint e 3
      debugMessages u e i
      storeGradient i
      checkpoint e 4
      recordMetrics u e i) :=
    (Keeps.checkpoint e 3).bind fun _ => (Keeps.debug u e i).bind fun _ => (Keeps.store i).bind fun _ => (Keeps.checkpoint e 4).bind fun _ => Keeps.record u e i
  have hclear : clearCaches w = (.ok (), { w with caches := Caches.empty }) := rfl
  unfold parametersChanged
  rw [py_bind, hclear]
  simp only
  rw [py_bind]
  rcases replace_outcome sv e (w := { w with caches := Caches.empty }) (i := i) h with ⟨Kg, kd, grads, h1, h2, h3, -, h4⟩ | ⟨x, w', h1, h2, h3, -, h4⟩
  · rw [h4]
    simp only
    have hk := htail (World.put { w with caches := Caches.empty } i (m.replaced Kg kd grads))
    refine ⟨fun j hj => ?_, hk.1, .inl ?_⟩
    · rw [hk.2 j]
      show (if j = i then some (m.replaced Kg kd grads) else w.heap j).map LLGP.core = _
      rw [if_neg hj]
    · have hi := hk.2 i
      rw [put_heap] at hi
      obtain ⟨k, hc⟩ := replaced_current (grads := grads) he h1 h2
      revert hi
      cases hh : ((do
        checkpoint e 3
        debugMessages u e i
        storeGradient i
        checkpoint e 4
        recordMetrics u e i : PyM Unit) (World.put { w with caches := Caches.empty } i (m.replaced Kg kd grads))).2.heap i with
      | none => intro hi; cases hi
      | some m' =>
        intro hi
        have hcore : m'.core = (m.replaced Kg kd grads).core := Option.some.inj hi
        refine ⟨m', k, hh, current_core hcore hc, ?_⟩
        have : ({ m' with kernel := none } : LLGP).core = { m'.core with kernel := none } := rfl
        rw [this, hcore]
        rfl
  · rw [h1]
    simp only
    refine ⟨fun j hj => by rw [h3 j hj], h2.1, .inr ⟨⟨x, rfl⟩, ?_, h4⟩⟩
    exact h2

end Verif
