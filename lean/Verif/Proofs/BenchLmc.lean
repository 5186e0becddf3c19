import Verif.Spec.BenchLmc
import Verif.Proofs.OptimizerRun

/-! Code that works on one model only depends on that model: not on the other models of the program, nor on the number of the model, nor on what the class-level caches hold for others. -/

namespace Verif

/-- the entry of a cache, if it is for object `i` -/
def cacheFor {α : Type} (o : Option (ℕ × α)) (i : ℕ) : Option α :=
  match o with
  | some (j, v) => if j = i then some v else none
  | none => none

/-- object `i` of one state is object `i'` of another, with the same cached values -/
structure SameAt (i i' : ℕ) (w w' : World) : Prop where
  heap : w'.heap i' = w.heap i
  dense : cacheFor w'.caches.dense i' = cacheFor w.caches.dense i
  gridAlpha : cacheFor w'.caches.gridAlpha i' = cacheFor w.caches.gridAlpha i
  nativeVariance : cacheFor w'.caches.nativeVariance i' = cacheFor w.caches.nativeVariance i
  nu : cacheFor w'.caches.nu i' = cacheFor w.caches.nu i

/-- the code does the same to object `i` as to object `i'` -/
def LSim (i i' : ℕ) {α : Type} (x x' : PyM α) : Prop := ∀ w w', SameAt i i' w w' → (x' w').1 = (x w).1 ∧ SameAt i i' (x w).2 (x' w').2

section
variable {i i' : ℕ} {α β : Type}

theorem LSim.bind {x x' : PyM α} {f f' : α → PyM β} (h : LSim i i' x x') (hf : ∀ a, LSim i i' (f a) (f' a)) : LSim i i' (x >>= f) (x' >>= f') := by
  intro w w' hw
  obtain ⟨h1, h2⟩ := h w w' hw
  rw [py_bind, py_bind]
  rcases hx : x w with ⟨r, v⟩
  rcases hx' : x' w' with ⟨r', v'⟩
  rw [hx, hx'] at h1 h2
  simp only at h1 h2
  subst h1
  cases r' with
  | error e => exact ⟨rfl, h2⟩
  | ok a => exact hf a v v' h2

theorem LSim.lift (x : Except PyErr α) : LSim i i' (PyM.lift x) (PyM.lift x) := fun _ _ hw => ⟨rfl, hw⟩

theorem LSim.pure (a : α) : LSim i i' (pure a : PyM α) (pure a) := fun _ _ hw => ⟨rfl, hw⟩

theorem LSim.checkpoint (e : Env) (k : ℕ) : LSim i i' (checkpoint e k) (checkpoint e k) := fun _ _ hw => ⟨rfl, hw⟩

theorem LSim.self : LSim i i' (self i) (self i') := by
  intro w w' hw
  refine ⟨?_, hw⟩
  unfold Verif.self
  simp only
  rw [hw.heap]

theorem LSim.modifySelf (f : LLGP → LLGP) : LSim i i' (modifySelf i f) (modifySelf i' f) := by
  intro w w' hw
  refine ⟨rfl, ⟨?_, hw.dense, hw.gridAlpha, hw.nativeVariance, hw.nu⟩⟩
  show (if i' = i' then (w'.heap i').map f else w'.heap i') = if i = i then (w.heap i).map f else w.heap i
  rw [if_pos rfl, if_pos rfl, hw.heap]

theorem LSim.clearCaches : LSim i i' clearCaches clearCaches := fun _ _ hw => ⟨rfl, ⟨hw.heap, rfl, rfl, rfl, rfl⟩⟩

theorem LSim.cachedCall (u : Bool) (get : Caches → Option (ℕ × α)) (set : Option (ℕ × α) → Caches → Caches) (compute : LLGP → Except PyErr α)
    (hget : ∀ w w', SameAt i i' w w' → cacheFor (get w'.caches) i' = cacheFor (get w.caches) i)
    (hset : ∀ w w' v, SameAt i i' w w' → SameAt i i' { w with caches := set (some (i, v)) w.caches } { w' with caches := set (some (i', v)) w'.caches }) :
    LSim i i' (cachedCall u get set compute i) (cachedCall u get set compute i') := by
  have key : ∀ (w : World) (k : ℕ), Verif.cachedCall u get set compute k w = match w.heap k with
      | none => (.error .runtimeError, w)
      | some m => match (if u then cacheFor (get w.caches) k else none) with
        | some v => (.ok v, w)
        | none => match compute m with
          | .ok v => (.ok v, { w with caches := set (some (k, v)) w.caches })
          | .error e => (.error e, w) := by
    intro w k
    unfold Verif.cachedCall cacheFor
    cases w.heap k with
    | none => rfl
    | some m =>
      simp only
      rcases get w.caches with _ | ⟨j, v⟩
      · cases u <;> rfl
      · cases u
        · rfl
        · by_cases h : j = k
          · simp [h]
          · simp only [h, and_false, if_false, if_true]
            cases compute m <;> rfl
  intro w w' hw
  rw [key, key, hw.heap, hget w w' hw]
  cases w.heap i with
  | none => exact ⟨rfl, hw⟩
  | some m =>
    simp only
    cases (if u then cacheFor (get w.caches) i else none) with
    | some v => exact ⟨rfl, hw⟩
    | none =>
      simp only
      cases compute m with
      | error e => exact ⟨rfl, hw⟩
      | ok v => exact ⟨rfl, hset w w' v hw⟩

end

theorem cacheFor_self {α : Type} (i : ℕ) (v : α) : cacheFor (some (i, v)) i = some v := if_pos rfl

section
variable {i i' : ℕ}

theorem denseM_local (u : Bool) : LSim i i' (denseM u i) (denseM u i') :=
  LSim.cachedCall _ _ _ _ (fun _ _ h => h.dense) fun w w' v h => ⟨h.heap, by simp only [cacheFor_self], h.gridAlpha, h.nativeVariance, h.nu⟩

theorem gridAlphaM_local (u : Bool) : LSim i i' (gridAlphaM u i) (gridAlphaM u i') :=
  LSim.cachedCall _ _ _ _ (fun _ _ h => h.gridAlpha) fun w w' v h => ⟨h.heap, h.dense, by simp only [cacheFor_self], h.nativeVariance, h.nu⟩

theorem nativeVarianceM_local (u : Bool) : LSim i i' (nativeVarianceM u i) (nativeVarianceM u i') :=
  LSim.cachedCall _ _ _ _ (fun _ _ h => h.nativeVariance) fun w w' v h => ⟨h.heap, h.dense, h.gridAlpha, by simp only [cacheFor_self], h.nu⟩

theorem nuM_local (u : Bool) (sv : Solvers) (e : Env) : LSim i i' (nuM u sv e i) (nuM u sv e i') :=
  LSim.cachedCall _ _ _ _ (fun _ _ h => h.nu) fun w w' v h => ⟨h.heap, h.dense, h.gridAlpha, h.nativeVariance, by simp only [cacheFor_self]⟩

theorem logLikelihoodM_local (u : Bool) : LSim i i' (logLikelihoodM u i) (logLikelihoodM u i') :=
  (denseM_local u).bind fun _ => LSim.self.bind fun _ => LSim.lift _

theorem logDetM_local (u : Bool) : LSim i i' (logDetM u i) (logDetM u i') := (denseM_local u).bind fun _ => LSim.pure _

theorem normalQuadraticM_local : LSim i i' (normalQuadraticM i) (normalQuadraticM i') := LSim.self.bind fun _ => LSim.lift _

theorem replaceKernel_local (sv : Solvers) (e : Env) : LSim i i' (replaceKernel sv e i) (replaceKernel sv e i') :=
  LSim.self.bind fun _ => (LSim.checkpoint _ _).bind fun _ => (LSim.lift _).bind fun _ => (LSim.checkpoint _ _).bind fun _ => (LSim.lift _).bind fun _ =>
    (LSim.modifySelf _).bind fun _ => (LSim.checkpoint _ _).bind fun _ => (LSim.lift _).bind fun _ => LSim.modifySelf _

theorem debugMessages_local (u : Bool) (e : Env) : LSim i i' (debugMessages u e i) (debugMessages u e i') := by
  unfold debugMessages
  split_ifs
  · exact (logLikelihoodM_local u).bind fun _ => normalQuadraticM_local.bind fun _ => (logDetM_local u).bind fun _ => LSim.pure _
  · exact LSim.pure _

theorem storeGradient_local : LSim i i' (storeGradient i) (storeGradient i') :=
  LSim.self.bind fun _ => (LSim.lift _).bind fun _ => (LSim.lift _).bind fun _ => LSim.modifySelf _

theorem recordMetrics_local (u : Bool) (e : Env) : LSim i i' (recordMetrics u e i) (recordMetrics u e i') := by
  unfold recordMetrics
  refine LSim.self.bind fun m => ?_
  cases m.metrics with
  | none => exact LSim.pure _
  | some _ =>
    exact (LSim.lift _).bind fun _ => (denseM_local u).bind fun _ => (LSim.lift _).bind fun _ => (LSim.lift _).bind fun _ => (LSim.lift _).bind fun _ =>
      (LSim.modifySelf _).bind fun _ => (LSim.checkpoint _ _).bind fun _ => (logLikelihoodM_local u).bind fun _ => LSim.modifySelf _

theorem parametersChanged_rest_local (u : Bool) (sv : Solvers) (e : Env) : LSim i i' (do
    replaceKernel sv e i
    checkpoint e 3
    debugMessages u e i
    storeGradient i
    checkpoint e 4
    recordMetrics u e i) (do
    replaceKernel sv e i'
    checkpoint e 3
    debugMessages u e i'
    storeGradient i'
    checkpoint e 4
    recordMetrics u e i') :=
  (replaceKernel_local sv e).bind fun _ => (LSim.checkpoint _ _).bind fun _ => (debugMessages_local u e).bind fun _ => storeGradient_local.bind fun _ =>
    (LSim.checkpoint _ _).bind fun _ => recordMetrics_local u e

/-- an update starts with empty caches, so nothing of them matters -/
theorem parametersChanged_any (u : Bool) (sv : Solvers) (e : Env) {w w' : World} (h : w'.heap i' = w.heap i) :
    (parametersChanged u sv e i' w').1 = (parametersChanged u sv e i w).1 ∧ SameAt i i' (parametersChanged u sv e i w).2 (parametersChanged u sv e i' w').2 :=
  parametersChanged_rest_local u sv e { w with caches := Caches.empty } { w' with caches := Caches.empty } ⟨h, rfl, rfl, rfl, rfl⟩

theorem parametersChanged_local (u : Bool) (sv : Solvers) (e : Env) : LSim i i' (parametersChanged u sv e i) (parametersChanged u sv e i') :=
  fun _ _ hw => parametersChanged_any u sv e hw.heap

theorem ensureKernel_local (u : Bool) (sv : Solvers) (e : Env) : LSim i i' (ensureKernel u sv e i) (ensureKernel u sv e i') := by
  unfold ensureKernel
  refine LSim.self.bind fun m => ?_
  cases m.kernel with
  | none => exact parametersChanged_local u sv e
  | some _ => exact LSim.pure _

theorem explainedM_local (u : Bool) (sv : Solvers) (e : Env) (m : LLGP) (Xs : List (Arr2 ℝ)) (Ws : List (List ℕ × Arr2 ℝ)) :
    LSim i i' (explainedM u sv e i m Xs Ws) (explainedM u sv e i' m Xs Ws) := by
  unfold explainedM
  cases m.prediction with
  | exact => exact (denseM_local u).bind fun _ => LSim.lift _
  | precompute => exact (nuM_local u sv e).bind fun _ => LSim.lift _
  | onTheFly => exact LSim.lift _

theorem rawPredictM_local (u : Bool) (sv : Solvers) (e : Env) (Xs : List (Arr2 ℝ)) : LSim i i' (rawPredictM u sv e i Xs) (rawPredictM u sv e i' Xs) :=
  (ensureKernel_local u sv e).bind fun _ => (gridAlphaM_local u).bind fun _ => (nativeVarianceM_local u).bind fun _ => LSim.self.bind fun _ => (LSim.lift _).bind fun _ =>
    (explainedM_local u sv e _ _ _).bind fun _ => LSim.lift _

theorem publicPredict_local {α : Type} (u : Bool) (sv : Solvers) (e : Env) (method : MultiGP → (List (Arr2 ℝ) → Except PyErr Predicted) → Except PyErr α) (Xs : List (NDArr ℝ)) :
    LSim i i' (publicPredict u sv e i method Xs) (publicPredict u sv e i' method Xs) := by
  unfold publicPredict
  refine LSim.self.bind fun m => ?_
  cases padDims m.gp.inputDim Xs with
  | error _ => exact LSim.lift _
  | ok Xs' =>
    simp only
    split_ifs
    · intro w w' hw
      obtain ⟨h1, h2⟩ := rawPredictM_local u sv e Xs' w w' hw
      unfold callRaw
      exact ⟨by simp only [h1], h2⟩
    · exact LSim.lift _

theorem askM_local (u : Bool) (sv : Solvers) (e : Env) (q : Query) : LSim i i' (askM u sv e i q) (askM u sv e i' q) := by
  cases q with
  | predict Xs => exact (publicPredict_local u sv e _ _).bind fun _ => LSim.pure _
  | quantiles Xs qs => exact (publicPredict_local u sv e _ _).bind fun _ => LSim.pure _
  | covariance => exact (denseM_local u).bind fun _ => LSim.pure _
  | logDet => exact (logDetM_local u).bind fun _ => LSim.pure _
  | normalQuadratic => exact normalQuadraticM_local.bind fun _ => LSim.pure _
  | logLikelihood => exact (logLikelihoodM_local u).bind fun _ => LSim.pure _

theorem gradsAt_local (u : Bool) (sv : Solvers) (e : Env) (x : List ℝ) : LSim i i' (gradsAt u sv e i x) (gradsAt u sv e i' x) :=
  (LSim.modifySelf _).bind fun _ => (parametersChanged_local u sv e).bind fun _ => LSim.self.bind fun _ => LSim.pure _

theorem step_local (u : Bool) (sv : Solvers) (es : ℕ → Env) (c : Climb) (x : List ℝ) (s s' : Run) (hg : s'.grads = s.grads) (hw : SameAt i i' s.world s'.world) :
    (Run.step u sv es i' c x s').1 = (Run.step u sv es i c x s).1 ∧ (Run.step u sv es i' c x s').2.grads = (Run.step u sv es i c x s).2.grads ∧
      SameAt i i' (Run.step u sv es i c x s).2.world (Run.step u sv es i' c x s').2.world := by
  obtain ⟨h1, h2⟩ := gradsAt_local u sv (es s.grads.length) (c.ask x s.grads) s.world s'.world hw
  unfold Run.step
  rw [hg]
  rcases hx : gradsAt u sv (es s.grads.length) i (c.ask x s.grads) s.world with ⟨r, v⟩
  rcases hx' : gradsAt u sv (es s.grads.length) i' (c.ask x s.grads) s'.world with ⟨r', v'⟩
  rw [hx, hx'] at h1 h2
  simp only at h1 h2
  subst h1
  cases r' with
  | error e => exact ⟨rfl, rfl, h2⟩
  | ok g => exact ⟨rfl, rfl, h2⟩

theorem runLoop_local (u : Bool) (sv : Solvers) (es : ℕ → Env) (c : Climb) (x : List ℝ) (o : AdaOpts) (cb : ℕ → Except PyErr Unit) : ∀ (k : ℕ) (s s' : Run) (n : ℕ) (drops : ℤ) (rm : ℝ),
    (o.maxIt - (n : ℤ)).toNat ≤ k → s'.grads = s.grads → SameAt i i' s.world s'.world →
    (runLoop (Run.step u sv es i' c x) o cb s' n drops rm).1 = (runLoop (Run.step u sv es i c x) o cb s n drops rm).1 ∧
    (runLoop (Run.step u sv es i' c x) o cb s' n drops rm).2.grads = (runLoop (Run.step u sv es i c x) o cb s n drops rm).2.grads ∧
    SameAt i i' (runLoop (Run.step u sv es i c x) o cb s n drops rm).2.world (runLoop (Run.step u sv es i' c x) o cb s' n drops rm).2.world := by
  intro k
  induction k with
  | zero =>
    intro s s' n drops rm hk hg hw
    obtain ⟨h1, h2, h3⟩ := step_local u sv es c x s s' hg hw
    rw [runLoop, runLoop]
    rcases hx : Run.step u sv es i c x s with ⟨r, v⟩
    rcases hx' : Run.step u sv es i' c x s' with ⟨r', v'⟩
    rw [hx, hx'] at h1 h2 h3
    simp only at h1 h2 h3
    subst h1
    cases r' with
    | error e => exact ⟨rfl, h2, h3⟩
    | ok g =>
      simp only
      cases gradNorm g with
      | error e => exact ⟨rfl, h2, h3⟩
      | ok norm =>
        simp only
        cases cb n with
        | error e => exact ⟨rfl, h2, h3⟩
        | ok _ =>
          simp only
          rw [dif_pos (.inl (by push_cast; omega)), dif_pos (.inl (by push_cast; omega))]
          exact ⟨rfl, h2, h3⟩
  | succ k ih =>
    intro s s' n drops rm hk hg hw
    obtain ⟨h1, h2, h3⟩ := step_local u sv es c x s s' hg hw
    rw [runLoop, runLoop]
    rcases hx : Run.step u sv es i c x s with ⟨r, v⟩
    rcases hx' : Run.step u sv es i' c x s' with ⟨r', v'⟩
    rw [hx, hx'] at h1 h2 h3
    simp only at h1 h2 h3
    subst h1
    cases r' with
    | error e => exact ⟨rfl, h2, h3⟩
    | ok g =>
      simp only
      cases gradNorm g with
      | error e => exact ⟨rfl, h2, h3⟩
      | ok norm =>
        simp only
        cases cb n with
        | error e => exact ⟨rfl, h2, h3⟩
        | ok _ =>
          simp only
          by_cases hstop : o.maxIt ≤ ((n + 1 : ℕ) : ℤ) ∨ (if norm < o.minGradRatio * max norm rm then drops - 1 else drops) ≤ 0
          · rw [dif_pos hstop, dif_pos hstop]
            exact ⟨rfl, h2, h3⟩
          · rw [dif_neg hstop, dif_neg hstop]
            exact ih _ _ _ _ _ (by have := not_or.1 hstop; omega) h2 h3

theorem runAda_local (u : Bool) (sv : Solvers) (es : ℕ → Env) (c : Climb) (o : AdaOpts) (cb : ℕ → Except PyErr Unit) (x : List ℝ) :
    LSim i i' (runAda u sv es i c o cb x) (runAda u sv es i' c o cb x) := by
  intro w w' hw
  obtain ⟨h1, h2, h3⟩ := runLoop_local u sv es c x o cb _ ⟨[], w⟩ ⟨[], w'⟩ 0 o.permittedDrops 0 le_rfl rfl hw
  unfold runAda
  exact ⟨by simp only [h1, h2], h3⟩

theorem optimizeM_local (u : Bool) (sv : Solvers) (es : ℕ → Env) (c : Climb) (o : AdaOpts) (cb : ℕ → Except PyErr Unit) :
    LSim i i' (optimizeM u sv es i c o cb) (optimizeM u sv es i' c o cb) :=
  (LSim.modifySelf _).bind fun _ => LSim.self.bind fun _ => (runAda_local u sv es c o cb _).bind fun _ => (LSim.modifySelf _).bind fun _ => parametersChanged_local u sv _

end

/-! ### one run -/

/-- `InterpolatedLLGP(...)` in two states: the new objects are the same -/
theorem new_any (u : Bool) (sv : Solvers) (a : LLGPArgs) (e : Env) (w w' : World) :
    ((execOp u sv (.new a e) w').1 = .ok (.model w'.next) ∧ (execOp u sv (.new a e) w).1 = .ok (.model w.next) ∧ SameAt w.next w'.next (execOp u sv (.new a e) w).2 (execOp u sv (.new a e) w').2) ∨
      ∃ x, (execOp u sv (.new a e) w').1 = .error x ∧ (execOp u sv (.new a e) w).1 = .error x := by
  have hop : ∀ w, execOp u sv (.new a e) w = (PyM.lift (llgpInit a) >>= fun m => allocate m >>= fun i => parametersChanged u sv e i >>= fun _ => (pure (.model i) : PyM Answer)) w := fun _ => rfl
  rw [hop, hop]
  cases hi : llgpInit a with
  | error x => exact .inr ⟨x, rfl, rfl⟩
  | ok m =>
    obtain ⟨h1, h2⟩ := parametersChanged_any (i := w.next) (i' := w'.next) u sv e (w := (allocate m w).2) (w' := (allocate m w').2) (by
      show (if w'.next = w'.next then some m else w'.heap w'.next) = if w.next = w.next then some m else w.heap w.next
      rw [if_pos rfl, if_pos rfl])
    have key : ∀ w : World, (PyM.lift (.ok m) >>= fun m => allocate m >>= fun i => parametersChanged u sv e i >>= fun _ => (pure (.model i) : PyM Answer)) w =
        (((parametersChanged u sv e w.next (allocate m w).2).1.map fun _ => .model w.next), (parametersChanged u sv e w.next (allocate m w).2).2) := by
      intro w
      rw [py_bind]
      show (allocate m >>= fun i => parametersChanged u sv e i >>= fun _ => (pure (.model i) : PyM Answer)) w = _
      rw [py_bind]
      show (parametersChanged u sv e w.next >>= fun _ => (pure (.model w.next) : PyM Answer)) (allocate m w).2 = _
      rw [py_bind]
      rcases parametersChanged u sv e w.next (allocate m w).2 with ⟨r, v⟩
      cases r <;> rfl
    rw [key, key]
    simp only
    rw [h1]
    cases hr : (parametersChanged u sv e w.next (allocate m w).2).1 with
    | error x => exact .inr ⟨x, rfl, rfl⟩
    | ok _ => exact .inl ⟨rfl, rfl, h2⟩

/-- a run gives the same numbers in every state of the program, and its model is the one it makes -/
theorem benchTrial_any (u : Bool) (sv : Solvers) (c : BenchCall) (t : Trial) (w w' : World) :
    (benchTrial u sv c t w').1.map Prod.fst = (benchTrial u sv c t w).1.map Prod.fst ∧ ∀ p, (benchTrial u sv c t w).1 = .ok p → p.2 = w.next := by
  unfold benchTrial
  cases hf : fkNew t.rand (c.fkArgs t) with
  | error x => exact ⟨rfl, fun p h => by cases h⟩
  | ok fk =>
    have start : ∀ (g : FK → PyM ((ℝ × Option ℝ × Option ℝ) × ℕ)) (w : World), (PyM.lift (.ok fk) >>= g) w = g fk w := fun _ _ => rfl
    rw [start, start, py_bind, py_bind]
    have hnew := new_any u sv (c.args fk) t.made w w'
    rcases hx : execOp u sv (.new (c.args fk) t.made) w with ⟨r, v⟩
    rcases hx' : execOp u sv (.new (c.args fk) t.made) w' with ⟨r', v'⟩
    rw [hx, hx'] at hnew
    simp only at hnew
    rcases hnew with ⟨rfl, rfl, hs⟩ | ⟨x, rfl, rfl⟩
    · simp only
      obtain ⟨o1, o2⟩ := optimizeM_local u sv t.updates t.climb c.opts t.callback v v' hs
      rw [py_bind, py_bind]
      rcases hy : optimizeM u sv t.updates w.next t.climb c.opts t.callback v with ⟨r, v⟩
      rcases hy' : optimizeM u sv t.updates w'.next t.climb c.opts t.callback v' with ⟨r', v'⟩
      rw [hy, hy'] at o1 o2
      simp only at o1 o2
      subst o1
      cases r' with
      | error x => exact ⟨rfl, fun p h => by cases h⟩
      | ok _ =>
        simp only
        obtain ⟨q1, q2⟩ := askM_local u sv t.asked (.predict c.testXss) v v' o2
        rw [py_bind, py_bind]
        have hz : ∀ i, execOp u sv (.ask i (.predict c.testXss) t.asked) = askM u sv t.asked i (.predict c.testXss) := fun _ => rfl
        rw [hz, hz]
        rcases hz : askM u sv t.asked w.next (.predict c.testXss) v with ⟨r, v⟩
        rcases hz' : askM u sv t.asked w'.next (.predict c.testXss) v' with ⟨r', v'⟩
        rw [hz, hz'] at q1 q2
        simp only at q1 q2
        subst q1
        cases r' with
        | error x => exact ⟨rfl, fun p h => by cases h⟩
        | ok a =>
          cases a with
          | predicted p =>
            simp only
            cases c.score p with
            | error x => exact ⟨rfl, fun p h => by cases h⟩
            | ok sn => exact ⟨rfl, fun p h => by cases h; rfl⟩
          | _ => exact ⟨rfl, fun p h => by cases h⟩
    · exact ⟨rfl, fun p h => by cases h⟩

/-- the numbers of a run -/
noncomputable def trialScore (sv : Solvers) (c : BenchCall) (t : Trial) : Except PyErr (ℝ × Option ℝ × Option ℝ) := (benchTrial true sv c t World.start).1.map Prod.fst

theorem benchLoop_scores (sv : Solvers) (c : BenchCall) : ∀ (ts : List Trial) (w : World), (benchLoop true sv c ts w).1.map (List.map Prod.fst) = mapExcept (trialScore sv c) ts := by
  intro ts
  induction ts with
  | nil => intro w; rfl
  | cons t ts ih =>
    intro w
    have h := (benchTrial_any true sv c t World.start w).1
    rw [benchLoop, py_bind, show mapExcept (trialScore sv c) (t :: ts) = (do let p ← trialScore sv c t; let ps ← mapExcept (trialScore sv c) ts; return p :: ps) from rfl]
    unfold trialScore at *
    rw [← h]
    rcases benchTrial true sv c t w with ⟨r, v⟩
    cases r with
    | error x => rfl
    | ok p =>
      simp only
      rw [← ih v, py_bind]
      rcases benchLoop true sv c ts v with ⟨r, v⟩
      cases r with
      | error x => rfl
      | ok ps => rfl

end Verif
