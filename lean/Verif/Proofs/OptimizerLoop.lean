import Verif.Proofs.OptimizerRun
import Verif.Props.Optimization

/-! The loop of the optimiser on a model. -/

namespace Verif

theorem visits_append (i : ℕ) (fk : FK) (es : ℕ → Env) : ∀ (k : ℕ) (xs ys : List (List ℝ)), visits i fk es k (xs ++ ys) = visits i fk es k xs ++ visits i fk es (k + xs.length) ys
  | _, [], _ => rfl
  | k, x :: xs, ys => by
    show _ :: visits i fk es (k + 1) (xs ++ ys) = _ :: (visits i fk es (k + 1) xs ++ visits i fk es (k + (xs.length + 1)) ys)
    rw [visits_append i fk es (k + 1) xs ys, show k + 1 + xs.length = k + (xs.length + 1) by omega]

/-! ### the loop, with its state -/

/-- `S k` and `G k` are the states and gradients of the iterator that is never stopped -/
structure RunsOn {σ : Type*} (next : σ → Except PyErr (List ℝ) × σ) (S : ℕ → σ) (G : ℕ → List ℝ) : Prop where
  step : ∀ k, next (S k) = (.ok (G k), S (k + 1))
  nonempty : ∀ k, G k ≠ []

theorem runLoop_step {σ : Type*} {next : σ → Except PyErr (List ℝ) × σ} {S : ℕ → σ} {G : ℕ → List ℝ} (h : RunsOn next S G) (o : AdaOpts) (cb : ℕ → Except PyErr Unit) (n : ℕ) :
    runLoop next o cb (S n) n (o.permittedDrops - dropsIn o.minGradRatio G n) (runMax G n) =
      match cb n with
      | .error e => (.error e, S (n + 1))
      | .ok _ =>
        open Classical in
        if MayStop o G (n + 1) then (.ok (), S (n + 1)) else
          runLoop next o cb (S (n + 1)) (n + 1) (o.permittedDrops - dropsIn o.minGradRatio G (n + 1)) (runMax G (n + 1)) := by
  conv_lhs => rw [runLoop]
  rw [h.step]
  simp only
  rw [gradNorm_eq (h.nonempty n)]
  simp only
  cases cb n with
  | error e => rfl
  | ok u =>
    simp only
    have e1 : max (largest (G n)) (runMax G n) = runMax G (n + 1) := rfl
    rw [e1]
    have e2 : (if largest (G n) < o.minGradRatio * runMax G (n + 1) then o.permittedDrops - (dropsIn o.minGradRatio G n : ℤ) - 1
        else o.permittedDrops - (dropsIn o.minGradRatio G n : ℤ)) = o.permittedDrops - (dropsIn o.minGradRatio G (n + 1) : ℤ) := by
      rw [dropsIn_succ]
      by_cases hd : Drop o.minGradRatio G n
      · rw [if_pos ((drop_iff ..).1 hd), if_pos hd]; push_cast; ring
      · rw [if_neg (fun q => hd ((drop_iff ..).2 q)), if_neg hd]; simp
    rw [e2]
    have e3 : (o.maxIt ≤ ((n + 1 : ℕ) : ℤ) ∨ o.permittedDrops - (dropsIn o.minGradRatio G (n + 1) : ℤ) ≤ 0) ↔ MayStop o G (n + 1) := by
      unfold MayStop
      rw [sub_nonpos]
      exact ⟨fun q => ⟨by omega, q⟩, fun q => q.2⟩
    by_cases hs : MayStop o G (n + 1)
    · rw [dif_pos (e3.2 hs), if_pos hs]
    · rw [dif_neg (fun q => hs (e3.1 q)), if_neg hs]

theorem runLoop_ok {σ : Type*} {next : σ → Except PyErr (List ℝ) × σ} {S : ℕ → σ} {G : ℕ → List ℝ} (h : RunsOn next S G) (o : AdaOpts) (cb : ℕ → Except PyErr Unit)
    {N : ℕ} (hN : MayStop o G N) (hmin : ∀ m < N, ¬ MayStop o G m) (hcb : ∀ k < N, cb k = .ok ()) : ∀ (d n : ℕ), n + d + 1 = N →
      runLoop next o cb (S n) n (o.permittedDrops - dropsIn o.minGradRatio G n) (runMax G n) = (.ok (), S N)
  | 0, n, e => by
    rw [runLoop_step h, hcb n (by omega)]
    simp only
    rw [if_pos (by rw [show n + 1 = N by omega]; exact hN), show n + 1 = N by omega]
  | d + 1, n, e => by
    rw [runLoop_step h, hcb n (by omega)]
    simp only
    rw [if_neg (hmin (n + 1) (by omega))]
    exact runLoop_ok h o cb hN hmin hcb d (n + 1) (by omega)

theorem runLoop_error {σ : Type*} {next : σ → Except PyErr (List ℝ) × σ} {S : ℕ → σ} {G : ℕ → List ℝ} (h : RunsOn next S G) (o : AdaOpts) (cb : ℕ → Except PyErr Unit)
    {N : ℕ} (hmin : ∀ m ≤ N, ¬ MayStop o G m) (hcb : ∀ k < N, cb k = .ok ()) {e : PyErr} (he : cb N = .error e) : ∀ (d n : ℕ), n + d = N →
      runLoop next o cb (S n) n (o.permittedDrops - dropsIn o.minGradRatio G n) (runMax G n) = (.error e, S (N + 1))
  | 0, n, en => by
    obtain rfl : n = N := by omega
    rw [runLoop_step h, he]
  | d + 1, n, en => by
    rw [runLoop_step h, hcb n (by omega)]
    simp only
    rw [if_neg (hmin (n + 1) (by omega))]
    exact runLoop_error h o cb hmin hcb he d (n + 1) (by omega)

/-! ### whatever happens -/

/-- a functional kernel that differs from `fk` only by assignments to the flat array -/
def FK.Like (fk fk' : FK) : Prop := fk'.slots = fk.slots ∧ ∀ x, x.length = fk.slots.length → fk'.setOptimizerArray x = fk.setOptimizerArray x

theorem FK.Like.refl (fk : FK) : fk.Like fk := ⟨rfl, fun _ _ => rfl⟩

theorem FK.like_set (fk : FK) {x : List ℝ} (hx : x.length = fk.slots.length) : fk.Like (fk.setOptimizerArray x) :=
  ⟨setOptimizerArray_slots _ _, fun y hy => setOptimizerArray_again fk (hx.trans hy.symm)⟩

/-- one step of the iterator is the operation `set` at the point it asks for -/
theorem step_visit {u : Bool} {sv : Solvers} {es : ℕ → Env} {i : ℕ} {c : Climb} {x : List ℝ} {s : Run} {m : LLGP} {fk : FK} (hm : s.world.heap i = some m) (hl : fk.Like m.fk)
    (hc : (c.ask x s.grads).length = fk.slots.length) :
    (Run.step u sv es i c x s).2.world = (execOp u sv (.set i (fk.setOptimizerArray (c.ask x s.grads)) (es s.grads.length)) s.world).2 ∧
    (∃ m', (Run.step u sv es i c x s).2.world.heap i = some m' ∧ fk.Like m'.fk) ∧
    ((∃ err, (Run.step u sv es i c x s).1 = .error err ∧ (execOp u sv (.set i (fk.setOptimizerArray (c.ask x s.grads)) (es s.grads.length)) s.world).1 = .error err ∧
        (Run.step u sv es i c x s).2.grads = s.grads) ∨
      ∃ m', (execOp u sv (.set i (fk.setOptimizerArray (c.ask x s.grads)) (es s.grads.length)) s.world).1 = .ok .unit ∧
        (Run.step u sv es i c x s).2.world.heap i = some m' ∧ (Run.step u sv es i c x s).1 = .ok m'.objectiveGrads ∧
        (Run.step u sv es i c x s).2.grads = s.grads ++ [m'.objectiveGrads] ∧ m'.fk = fk.setOptimizerArray (c.ask x s.grads)) := by
  rw [← hl.2 _ hc]
  obtain ⟨h1, ⟨m', h2, h3⟩, h4, h5⟩ := gradsAt_run u sv (es s.grads.length) hm (c.ask x s.grads)
  have hk := (assign_set u sv (es s.grads.length) hm (c.ask x s.grads)).2
  have hlike : fk.Like m'.fk := by
    rw [h3, hl.2 _ hc]
    exact fk.like_set hc
  cases hr : (execOp u sv (.set i (m.fk.setOptimizerArray (c.ask x s.grads)) (es s.grads.length)) s.world).1 with
  | error err =>
    have h6 : gradsAt u sv (es s.grads.length) i (c.ask x s.grads) s.world =
        (.error err, (execOp u sv (.set i (m.fk.setOptimizerArray (c.ask x s.grads)) (es s.grads.length)) s.world).2) := Prod.ext (h4 err hr) h1
    rw [h1] at h2
    unfold Run.step
    rw [h6]
    exact ⟨rfl, ⟨m', h2, hlike⟩, Or.inl ⟨err, rfl, rfl, rfl⟩⟩
  | ok a =>
    obtain ⟨m'', h7, h8⟩ := h5 a hr
    have h6 : gradsAt u sv (es s.grads.length) i (c.ask x s.grads) s.world =
        (.ok m''.objectiveGrads, (execOp u sv (.set i (m.fk.setOptimizerArray (c.ask x s.grads)) (es s.grads.length)) s.world).2) := Prod.ext h8 h1
    rw [h1] at h2
    have ha : a = .unit := by
      rw [hr] at hk
      revert hk
      cases (parametersChanged u sv (es s.grads.length) i (s.world.put i { m with fk := m.fk.setOptimizerArray (c.ask x s.grads) })).1 with
      | error _ => intro h; simp [Except.map] at h
      | ok _ => intro h; simpa [Except.map] using h
    obtain rfl : m' = m'' := Option.some.inj (h2.symm.trans h7)
    unfold Run.step
    rw [h6, ha]
    exact ⟨rfl, ⟨m', h2, hlike⟩, Or.inr ⟨m', rfl, h2, rfl, rfl, h3⟩⟩

/-- the effect of the loop on the models is that of a program which assigns the points the optimiser asks for -/
theorem runLoop_visits {u : Bool} {sv : Solvers} {es : ℕ → Env} {i : ℕ} {c : Climb} {x : List ℝ} {fk : FK} (hx : x.length = fk.slots.length) (hk : c.Keeps) (o : AdaOpts)
    (cb : ℕ → Except PyErr Unit) : ∀ (f : ℕ) (s : Run) (n : ℕ) (d : ℤ) (r : ℝ) (m : LLGP), (o.maxIt - (n : ℤ)).toNat ≤ f → s.world.heap i = some m → fk.Like m.fk →
    ∃ xs, (runLoop (Run.step u sv es i c x) o cb s n d r).2.world = (history u sv (visits i fk es s.grads.length xs) s.world).2 ∧
      (∀ y ∈ xs, y.length = fk.slots.length) ∧ (xs.length : ℤ) ≤ max 1 (o.maxIt - n) ∧
      (∃ m', (runLoop (Run.step u sv es i c x) o cb s n d r).2.world.heap i = some m' ∧ fk.Like m'.fk) ∧
      ∀ v, (runLoop (Run.step u sv es i c x) o cb s n d r).1 = .ok v → (runLoop (Run.step u sv es i c x) o cb s n d r).2.grads.length = s.grads.length + xs.length
  | f, s, n, d, r, m, hf, hm, hl => by
    have hlen : (c.ask x s.grads).length = fk.slots.length := ((hk x s.grads).1).trans hx
    obtain ⟨h1, ⟨m', h2, h3⟩, h4⟩ := step_visit (u := u) (sv := sv) (es := es) (c := c) (x := x) hm hl hlen
    rw [runLoop]
    rcases hst : Run.step u sv es i c x s with ⟨a, s'⟩
    rw [hst] at h1 h2 h4
    have hone : ∀ (q : Except PyErr Unit × Run), q.2 = s' → (∀ v, q.1 = .ok v → s'.grads.length = s.grads.length + 1) →
        ∃ xs, q.2.world = (history u sv (visits i fk es s.grads.length xs) s.world).2 ∧ (∀ y ∈ xs, y.length = fk.slots.length) ∧ (xs.length : ℤ) ≤ max 1 (o.maxIt - n) ∧
          (∃ m', q.2.world.heap i = some m' ∧ fk.Like m'.fk) ∧ ∀ v, q.1 = .ok v → q.2.grads.length = s.grads.length + xs.length := by
      intro q hq hg
      refine ⟨[c.ask x s.grads], by rw [hq]; exact h1, ?_, by simp, ⟨m', by rw [hq]; exact h2, h3⟩, fun v hv => by rw [hq]; exact hg v hv⟩
      intro y hy
      rw [List.mem_singleton.1 hy]
      exact hlen
    cases a with
    | error err => exact hone _ rfl fun v hv => by cases hv
    | ok g =>
      have hg : s'.grads.length = s.grads.length + 1 := by
        rcases h4 with ⟨_, h, _⟩ | ⟨m'', -, -, h, h', -⟩
        · cases h
        · rw [h']; simp
      simp only
      cases gradNorm g with
      | error err => exact hone _ rfl fun v hv => by cases hv
      | ok norm =>
        simp only
        cases cb n with
        | error err => exact hone _ rfl fun v hv => by cases hv
        | ok _ =>
          simp only
          generalize (if norm < o.minGradRatio * max norm r then d - 1 else d) = d'
          by_cases hs : o.maxIt ≤ ((n + 1 : ℕ) : ℤ) ∨ d' ≤ 0
          · rw [dif_pos hs]
            exact hone _ rfl fun _ _ => hg
          · rw [dif_neg hs]
            push_cast at hs
            obtain ⟨f', rfl⟩ : ∃ f', f = f' + 1 := ⟨f - 1, by omega⟩
            obtain ⟨xs, q1, q2, q3, q4, q5⟩ := runLoop_visits (u := u) (sv := sv) (es := es) (c := c) hx hk o cb f' s' (n + 1) d' (max norm r) m' (by push_cast; omega) h2 h3
            refine ⟨c.ask x s.grads :: xs, ?_, ?_, ?_, q4, fun v hv => ?_⟩
            · rw [q1, hg, h1]
              rfl
            · intro y hy
              rcases List.mem_cons.1 hy with rfl | hy
              · exact hlen
              · exact q2 y hy
            · rw [List.length_cons]
              push_cast at q3 ⊢
              omega
            · rw [q5 v hv, hg, List.length_cons]
              omega

/-- `optimize` step by step -/
theorem optimizeM_run {u : Bool} {sv : Solvers} {es : ℕ → Env} {i : ℕ} {c : Climb} {o : AdaOpts} {cb : ℕ → Except PyErr Unit} {w : World} {m : LLGP} (hm : w.heap i = some m) :
    ∃ w₁, (execOp u sv (.optimize i) w).2 = w₁ ∧ w₁.heap i = some (m.withMetrics (m.metrics.map fun _ => Metrics.new)) ∧
      optimizeM u sv es i c o cb w = match runLoop (Run.step u sv es i c m.fk.optimizerArray) o cb ⟨[], w₁⟩ 0 o.permittedDrops 0 with
        | (.error e, s) => (.error e, s.world)
        | (.ok _, s) => (do
            modifySelf i fun m' => { m' with fk := m'.fk.setOptimizerArray (c.point m.fk.optimizerArray s.grads) }
            parametersChanged u sv (es s.grads.length) i : PyM Unit) s.world := by
  have h1 : (w.put i (m.withMetrics (m.metrics.map fun _ => Metrics.new))).heap i = some (m.withMetrics (m.metrics.map fun _ => Metrics.new)) := put_heap _ _ _
  refine ⟨_, ?_, h1, ?_⟩
  · unfold execOp
    simp only
    rw [py_bind, modify_run hm]
    rfl
  · unfold optimizeM
    rw [py_bind, modify_run hm]
    generalize w.put i (m.withMetrics (m.metrics.map fun _ => Metrics.new)) = w₁ at *
    simp only
    rw [py_bind, show self i w₁ = (.ok (m.withMetrics (m.metrics.map fun _ => Metrics.new)), w₁) by unfold self; rw [h1]]
    simp only
    rw [py_bind]
    unfold runAda
    simp only
    rw [show (m.withMetrics (m.metrics.map fun _ => Metrics.new)).fk = m.fk from rfl]
    rcases runLoop (Run.step u sv es i c m.fk.optimizerArray) o cb ⟨[], w₁⟩ 0 o.permittedDrops 0 with ⟨a, s⟩
    cases a <;> rfl

end Verif
