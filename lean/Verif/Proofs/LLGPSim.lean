import Verif.Proofs.LLGPCache

/-! Two programs whose models differ in their inputs, grid positions and normalizers only, in a way that no computation notices, behave alike. -/

namespace Verif

/-- both raise the same exception, or both return and the results are related -/
def ExceptRel {α α' : Type} (ρ : α → α' → Prop) : Except PyErr α → Except PyErr α' → Prop
  | .ok a, .ok a' => ρ a a'
  | .error e, .error e' => e = e'
  | _, _ => False

theorem ExceptRel.refl {α : Type} {x y : Except PyErr α} (h : x = y) : ExceptRel Eq x y := by
  subst h
  cases x <;> rfl

theorem ExceptRel.eq {α : Type} {x y : Except PyErr α} (h : ExceptRel Eq x y) : x = y := by
  cases x <;> cases y <;> simp_all [ExceptRel]

theorem ExceptRel.mono {α α' : Type} {ρ ρ' : α → α' → Prop} (hρ : ∀ a a', ρ a a' → ρ' a a') {x : Except PyErr α} {x' : Except PyErr α'} (h : ExceptRel ρ x x') :
    ExceptRel ρ' x x' := by
  cases x <;> cases x' <;> first | exact h | exact hρ _ _ h

/-- how two models may differ. `QR` relates the arguments of `_raw_predict`, `GR` the attributes of the base class. -/
structure Twins (QR : List (Arr2 ℝ) → List (Arr2 ℝ) → Prop) (GR : MultiGP → MultiGP → Prop) (m m' : LLGP) : Prop where
  same : m' = { m with gp := m'.gp, grids := m'.grids }
  Ys : m'.gp.Ys = m.gp.Ys
  inputDim : m'.gp.inputDim = m.gp.inputDim
  outputDim : m'.gp.outputDim = m.gp.outputDim
  dists : m'.dists = m.dists
  interp : m'.interp = m.interp
  dense : ∀ fk, exactLMCNew fk m'.gp.Xs m.gp.Ys = exactLMCNew fk m.gp.Xs m.gp.Ys
  cross : ∀ Q Q', QR Q Q' → ∀ fk, kernelFromIndices Q' m'.gp.Xs fk = kernelFromIndices Q m.gp.Xs fk
  group : ∀ Q Q', QR Q Q' → ∀ ga, m'.predictGroup Q' ga = m.predictGroup Q ga
  gp : GR m.gp m'.gp

/-- the states of two programs -/
structure WorldRel (QR : List (Arr2 ℝ) → List (Arr2 ℝ) → Prop) (GR : MultiGP → MultiGP → Prop) (w w' : World) : Prop where
  next : w'.next = w.next
  caches : w'.caches = w.caches
  heap : ∀ i, Option.Rel (Twins QR GR) (w.heap i) (w'.heap i)

section
variable {QR : List (Arr2 ℝ) → List (Arr2 ℝ) → Prop} {GR : MultiGP → MultiGP → Prop}

/-- `x` and `x'` have related results and effects -/
def Sim (QR : List (Arr2 ℝ) → List (Arr2 ℝ) → Prop) (GR : MultiGP → MultiGP → Prop) {α α' : Type} (ρ : α → α' → Prop) (x : PyM α) (x' : PyM α') : Prop :=
  ∀ w w', WorldRel QR GR w w' → ExceptRel ρ (x w).1 (x' w').1 ∧ WorldRel QR GR (x w).2 (x' w').2

theorem Sim.bind {α α' β β' : Type} {ρ : α → α' → Prop} {ρ' : β → β' → Prop} {x : PyM α} {x' : PyM α'} {f : α → PyM β} {f' : α' → PyM β'} (h : Sim QR GR ρ x x')
    (hf : ∀ a a', ρ a a' → Sim QR GR ρ' (f a) (f' a')) : Sim QR GR ρ' (x >>= f) (x' >>= f') := by
  intro w w' hw
  obtain ⟨h1, h2⟩ := h w w' hw
  rw [py_bind, py_bind]
  rcases hx : x w with ⟨r, w1⟩
  rcases hx' : x' w' with ⟨r', w1'⟩
  rw [hx] at h1 h2
  rw [hx'] at h1 h2
  cases r with
  | ok a =>
    cases r' with
    | ok a' => exact hf a a' h1 w1 w1' h2
    | error e => exact absurd h1 (by simp [ExceptRel])
  | error e =>
    cases r' with
    | ok a' => exact absurd h1 (by simp [ExceptRel])
    | error e' => exact ⟨h1, h2⟩

theorem Sim.lift {α α' : Type} {ρ : α → α' → Prop} {x : Except PyErr α} {x' : Except PyErr α'} (h : ExceptRel ρ x x') : Sim QR GR ρ (PyM.lift x) (PyM.lift x') :=
  fun _ _ hw => ⟨h, hw⟩

theorem Sim.lift_eq {α : Type} {x x' : Except PyErr α} (h : x' = x) : Sim QR GR Eq (PyM.lift x) (PyM.lift x') := Sim.lift (ExceptRel.refl h.symm)

theorem Sim.pure {α α' : Type} {ρ : α → α' → Prop} {a : α} {a' : α'} (h : ρ a a') : Sim QR GR ρ (pure a) (pure a') := fun _ _ hw => ⟨h, hw⟩

theorem Sim.checkpoint (e : Env) (k : ℕ) : Sim QR GR Eq (checkpoint e k) (checkpoint e k) := fun _ _ hw => ⟨ExceptRel.refl rfl, hw⟩

theorem Sim.self (i : ℕ) : Sim QR GR (Twins QR GR) (self i) (self i) := by
  intro w w' hw
  have h := hw.heap i
  unfold Verif.self
  cases h1 : w.heap i <;> cases h2 : w'.heap i <;> rw [h1, h2] at h
  · exact ⟨rfl, hw⟩
  · cases h
  · cases h
  · cases h with | some h => exact ⟨h, hw⟩

theorem Sim.modifySelf (i : ℕ) {f f' : LLGP → LLGP} (h : ∀ m m', Twins QR GR m m' → Twins QR GR (f m) (f' m')) :
    Sim QR GR Eq (modifySelf i f) (modifySelf i f') := by
  intro w w' hw
  refine ⟨rfl, hw.next, hw.caches, fun j => ?_⟩
  have hj := hw.heap i
  show Option.Rel _ (if j = i then (w.heap i).map f else w.heap j) (if j = i then (w'.heap i).map f' else w'.heap j)
  split_ifs
  · cases h1 : w.heap i <;> cases h2 : w'.heap i <;> rw [h1, h2] at hj
    · exact .none
    · cases hj
    · cases hj
    · cases hj with | some hj => exact .some (h _ _ hj)
  · exact hw.heap j

theorem Sim.clearCaches : Sim QR GR Eq clearCaches clearCaches := fun _ _ hw => ⟨rfl, hw.next, rfl, hw.heap⟩

theorem Sim.cachedCall {α : Type} (u : Bool) (get : Caches → Option (ℕ × α)) (set : Option (ℕ × α) → Caches → Caches) {compute : LLGP → Except PyErr α}
    (h : ∀ m m', Twins QR GR m m' → compute m' = compute m) (i : ℕ) : Sim QR GR Eq (cachedCall u get set compute i) (cachedCall u get set compute i) := by
  intro w w' hw
  have hi := hw.heap i
  unfold Verif.cachedCall
  cases h1 : w.heap i <;> cases h2 : w'.heap i <;> rw [h1, h2] at hi
  · exact ⟨rfl, hw⟩
  · cases hi
  · cases hi
  · rename_i m m'
    cases hi with | some hi =>
    simp only
    rw [hw.caches, h m m' hi]
    have hc : ∀ c, WorldRel QR GR { w with caches := c } { w' with caches := c } := fun c => ⟨hw.next, rfl, hw.heap⟩
    cases hg : get w.caches with
    | none =>
      cases hm : compute m with
      | ok v => exact ⟨rfl, hc _⟩
      | error e => exact ⟨rfl, hw⟩
    | some jv =>
      obtain ⟨j, v⟩ := jv
      simp only
      split_ifs
      · exact ⟨rfl, hw⟩
      · cases hm : compute m with
        | ok v => exact ⟨rfl, hc _⟩
        | error e => exact ⟨rfl, hw⟩

/-! ### twins -/

namespace Twins

theorem fk {m m' : LLGP} (h : Twins QR GR m m') : m'.fk = m.fk := by rw [h.same]
theorem kernel {m m' : LLGP} (h : Twins QR GR m m') : m'.kernel = m.kernel := by rw [h.same]
theorem metrics {m m' : LLGP} (h : Twins QR GR m m') : m'.metrics = m.metrics := by rw [h.same]
theorem prediction {m m' : LLGP} (h : Twins QR GR m m') : m'.prediction = m.prediction := by rw [h.same]
theorem nIt {m m' : LLGP} (h : Twins QR GR m m') : m'.nIt = m.nIt := by rw [h.same]
theorem tol {m m' : LLGP} (h : Twins QR GR m m') : m'.tol = m.tol := by rw [h.same]
theorem y {m m' : LLGP} (h : Twins QR GR m m') : m'.y = m.y := by unfold LLGP.y; rw [h.Ys]
theorem lens {m m' : LLGP} (h : Twins QR GR m m') : m'.lens = m.lens := by unfold LLGP.lens; rw [h.Ys]

theorem theKernel {m m' : LLGP} (h : Twins QR GR m m') : m'.theKernel = m.theKernel := by unfold LLGP.theKernel; rw [h.kernel]

theorem denseOf {m m' : LLGP} (h : Twins QR GR m m') : m'.dense = m.dense := by unfold LLGP.dense; rw [h.fk, h.Ys, h.dense]

theorem gridAlpha {m m' : LLGP} (h : Twins QR GR m m') : m'.gridAlpha = m.gridAlpha := by unfold LLGP.gridAlpha; rw [h.fk, h.interp, h.theKernel]

theorem nativeVariance {m m' : LLGP} (h : Twins QR GR m m') : m'.nativeVariance = m.nativeVariance := by unfold LLGP.nativeVariance; rw [h.fk]

theorem nu {m m' : LLGP} (h : Twins QR GR m m') (sv : Solvers) (e : Env) : m'.nu sv e = m.nu sv e := by
  unfold LLGP.nu
  rw [h.interp, h.theKernel, h.inputDim]

theorem normalQuadratic {m m' : LLGP} (h : Twins QR GR m m') : m'.normalQuadratic = m.normalQuadratic := by unfold LLGP.normalQuadratic; rw [h.theKernel, h.y]

theorem logLikelihoodOf {m m' : LLGP} (h : Twins QR GR m m') (l : ExactLMC) : m'.logLikelihoodOf l = m.logLikelihoodOf l := by
  unfold LLGP.logLikelihoodOf
  rw [h.normalQuadratic, h.y]

theorem approxFirst {m m' : LLGP} (h : Twins QR GR m m') (sv : Solvers) (e : Env) (K : MatObj) : approxFirst sv e m' K = approxFirst sv e m K := by
  unfold Verif.approxFirst LLGP.service
  rw [h.Ys, h.fk, h.dists, h.nIt, h.tol, h.metrics, h.y]

theorem withMetrics {m m' : LLGP} (h : Twins QR GR m m') (x : Option Metrics) : Twins QR GR (m.withMetrics x) (m'.withMetrics x) where
  same := by rw [h.same]; rfl
  Ys := h.Ys
  inputDim := h.inputDim
  outputDim := h.outputDim
  dists := h.dists
  interp := h.interp
  dense := h.dense
  cross := h.cross
  group := h.group
  gp := h.gp

theorem withKernel {m m' : LLGP} (h : Twins QR GR m m') (x : Option LLKernel) : Twins QR GR { m with kernel := x } { m' with kernel := x } where
  same := by rw [h.same]
  Ys := h.Ys
  inputDim := h.inputDim
  outputDim := h.outputDim
  dists := h.dists
  interp := h.interp
  dense := h.dense
  cross := h.cross
  group := h.group
  gp := h.gp

theorem withGrad {m m' : LLGP} (h : Twins QR GR m m') (x : Option FKGrad) : Twins QR GR { m with grad := x } { m' with grad := x } where
  same := by rw [h.same]
  Ys := h.Ys
  inputDim := h.inputDim
  outputDim := h.outputDim
  dists := h.dists
  interp := h.interp
  dense := h.dense
  cross := h.cross
  group := h.group
  gp := h.gp

theorem withFK {m m' : LLGP} (h : Twins QR GR m m') (x : FK) : Twins QR GR { m with fk := x } { m' with fk := x } where
  same := by rw [h.same]
  Ys := h.Ys
  inputDim := h.inputDim
  outputDim := h.outputDim
  dists := h.dists
  interp := h.interp
  dense := h.dense
  cross := h.cross
  group := h.group
  gp := h.gp

end Twins

/-! ### the methods -/

theorem denseM_sim (u : Bool) (i : ℕ) : Sim QR GR Eq (denseM u i) (denseM u i) := Sim.cachedCall _ _ _ (fun _ _ h => h.denseOf) i

theorem logLikelihoodM_sim (u : Bool) (i : ℕ) : Sim QR GR Eq (logLikelihoodM u i) (logLikelihoodM u i) := by
  unfold logLikelihoodM
  refine Sim.bind (denseM_sim u i) ?_
  rintro l _ rfl
  refine Sim.bind (Sim.self i) fun m m' h => ?_
  exact Sim.lift_eq (h.logLikelihoodOf l)

theorem logDetM_sim (u : Bool) (i : ℕ) : Sim QR GR Eq (logDetM u i) (logDetM u i) := by
  unfold logDetM
  refine Sim.bind (denseM_sim u i) ?_
  rintro l _ rfl
  exact Sim.pure rfl

theorem normalQuadraticM_sim (i : ℕ) : Sim QR GR Eq (normalQuadraticM i) (normalQuadraticM i) := by
  unfold normalQuadraticM
  refine Sim.bind (Sim.self i) fun m m' h => ?_
  exact Sim.lift_eq h.normalQuadratic

theorem replaceKernel_sim (sv : Solvers) (e : Env) (i : ℕ) : Sim QR GR Eq (replaceKernel sv e i) (replaceKernel sv e i) := by
  unfold replaceKernel
  refine Sim.bind (Sim.self i) fun m m' h => ?_
  refine Sim.bind (Sim.checkpoint e 0) ?_
  rintro ⟨⟩ ⟨⟩ -
  refine Sim.bind (Sim.lift_eq (by rw [h.fk, h.dists, h.interp, h.lens])) ?_
  rintro Kg _ rfl
  refine Sim.bind (Sim.checkpoint e 1) ?_
  rintro ⟨⟩ ⟨⟩ -
  refine Sim.bind (Sim.lift_eq (h.approxFirst sv e Kg.1)) ?_
  rintro kd _ rfl
  refine Sim.bind (Sim.modifySelf i fun m m' h => h.withMetrics _) ?_
  rintro ⟨⟩ ⟨⟩ -
  refine Sim.bind (Sim.checkpoint e 2) ?_
  rintro ⟨⟩ ⟨⟩ -
  refine Sim.bind (Sim.lift_eq (by rw [h.fk, h.dists])) ?_
  rintro grads _ rfl
  refine Sim.modifySelf i fun n n' h' => ?_
  have e1 : (⟨⟨n'.fk, n'.y, n'.lens, kd.1, Kg.1, kd.2.1, grads, n'.interp⟩, Kg.2⟩ : LLKernel) =
      ⟨⟨n.fk, n.y, n.lens, kd.1, Kg.1, kd.2.1, grads, n.interp⟩, Kg.2⟩ := by rw [h'.fk, h'.y, h'.lens, h'.interp]
  rw [e1]
  exact h'.withKernel _

theorem debugMessages_sim (u : Bool) (e : Env) (i : ℕ) : Sim QR GR Eq (debugMessages u e i) (debugMessages u e i) := by
  unfold debugMessages
  split_ifs
  · refine Sim.bind (logLikelihoodM_sim u i) fun _ _ _ => ?_
    refine Sim.bind (normalQuadraticM_sim i) fun _ _ _ => ?_
    refine Sim.bind (logDetM_sim u i) fun _ _ _ => ?_
    exact Sim.pure rfl
  · exact Sim.pure rfl

theorem storeGradient_sim (i : ℕ) : Sim QR GR Eq (storeGradient i) (storeGradient i) := by
  unfold storeGradient
  refine Sim.bind (Sim.self i) fun m m' h => ?_
  refine Sim.bind (Sim.lift_eq h.theKernel) ?_
  rintro k _ rfl
  refine Sim.bind (Sim.lift_eq (by rw [h.fk])) ?_
  rintro g _ rfl
  exact Sim.modifySelf i fun n n' h' => h'.withGrad _

theorem recordMetrics_sim (u : Bool) (e : Env) (i : ℕ) : Sim QR GR Eq (recordMetrics u e i) (recordMetrics u e i) := by
  unfold recordMetrics
  refine Sim.bind (Sim.self i) fun m m' h => ?_
  rw [h.metrics]
  cases m.metrics with
  | none => exact Sim.pure rfl
  | some x =>
    simp only
    refine Sim.bind (Sim.lift_eq h.theKernel) ?_
    rintro k _ rfl
    refine Sim.bind (denseM_sim u i) ?_
    rintro l _ rfl
    refine Sim.bind (Sim.lift_eq (by rw [h.fk])) ?_
    rintro ag _ rfl
    refine Sim.bind (Sim.lift_eq (by rw [h.fk])) ?_
    rintro eg _ rfl
    refine Sim.bind (Sim.lift_eq rfl) ?_
    rintro ne _ rfl
    refine Sim.bind (Sim.modifySelf i fun n n' h' => by rw [h'.metrics]; exact h'.withMetrics _) ?_
    rintro ⟨⟩ ⟨⟩ -
    refine Sim.bind (Sim.checkpoint e 5) ?_
    rintro ⟨⟩ ⟨⟩ -
    refine Sim.bind (logLikelihoodM_sim u i) ?_
    rintro ll _ rfl
    exact Sim.modifySelf i fun n n' h' => by rw [h'.metrics]; exact h'.withMetrics _

theorem parametersChanged_sim (u : Bool) (sv : Solvers) (e : Env) (i : ℕ) : Sim QR GR Eq (parametersChanged u sv e i) (parametersChanged u sv e i) := by
  unfold parametersChanged
  refine Sim.bind Sim.clearCaches fun _ _ _ => ?_
  refine Sim.bind (replaceKernel_sim sv e i) fun _ _ _ => ?_
  refine Sim.bind (Sim.checkpoint e 3) fun _ _ _ => ?_
  refine Sim.bind (debugMessages_sim u e i) fun _ _ _ => ?_
  refine Sim.bind (storeGradient_sim i) fun _ _ _ => ?_
  refine Sim.bind (Sim.checkpoint e 4) fun _ _ _ => ?_
  exact recordMetrics_sim u e i

theorem ensureKernel_sim (u : Bool) (sv : Solvers) (e : Env) (i : ℕ) : Sim QR GR Eq (ensureKernel u sv e i) (ensureKernel u sv e i) := by
  unfold ensureKernel
  refine Sim.bind (Sim.self i) fun m m' h => ?_
  rw [h.kernel]
  cases m.kernel with
  | none => exact parametersChanged_sim u sv e i
  | some k => exact Sim.pure rfl

theorem predictMean_twins {m m' : LLGP} (h : Twins QR GR m m') {Q Q' : List (Arr2 ℝ)} (hQ : QR Q Q') (hr : Q'.map Arr2.rows = Q.map Arr2.rows) (ga : List (List ℕ × List ℝ)) :
    m'.predictMean Q' ga = m.predictMean Q ga := by
  unfold LLGP.predictMean
  rw [hr, show m'.predictGroup Q' = m.predictGroup Q from funext fun g => h.group Q Q' hQ g]

theorem varExact_twins {m m' : LLGP} (h : Twins QR GR m m') {Q Q' : List (Arr2 ℝ)} (hQ : QR Q Q') (l : ExactLMC) : m'.varExact l Q' = m.varExact l Q := by
  unfold LLGP.varExact
  rw [h.fk, h.cross Q Q' hQ]

theorem varOnTheFly_twins {m m' : LLGP} (h : Twins QR GR m m') {Q Q' : List (Arr2 ℝ)} (hQ : QR Q Q') (sv : Solvers) (e : Env) :
    m'.varOnTheFly sv e Q' = m.varOnTheFly sv e Q := by
  unfold LLGP.varOnTheFly
  rw [h.fk, h.cross Q Q' hQ, h.theKernel]

theorem explainedM_sim (u : Bool) (sv : Solvers) (e : Env) (i : ℕ) {m m' : LLGP} (h : Twins QR GR m m') {Q Q' : List (Arr2 ℝ)} (hQ : QR Q Q')
    (Ws : List (List ℕ × Arr2 ℝ)) : Sim QR GR Eq (explainedM u sv e i m Q Ws) (explainedM u sv e i m' Q' Ws) := by
  unfold explainedM
  rw [h.prediction]
  cases m.prediction with
  | exact =>
    simp only
    refine Sim.bind (denseM_sim u i) ?_
    rintro l _ rfl
    exact Sim.lift_eq (varExact_twins h hQ l)
  | precompute =>
    simp only
    refine Sim.bind (Sim.cachedCall _ _ _ (fun _ _ h => h.nu sv e) i) ?_
    rintro nu _ rfl
    exact Sim.lift_eq rfl
  | onTheFly => exact Sim.lift_eq (varOnTheFly_twins h hQ sv e)

theorem rawPredictM_sim (u : Bool) (sv : Solvers) (e : Env) (i : ℕ) {Q Q' : List (Arr2 ℝ)} (hQ : QR Q Q') (hr : Q'.map Arr2.rows = Q.map Arr2.rows) :
    Sim QR GR Eq (rawPredictM u sv e i Q) (rawPredictM u sv e i Q') := by
  unfold rawPredictM
  refine Sim.bind (ensureKernel_sim u sv e i) fun _ _ _ => ?_
  refine Sim.bind (Sim.cachedCall _ _ _ (fun _ _ h => h.gridAlpha) i) ?_
  rintro ga _ rfl
  refine Sim.bind (Sim.cachedCall _ _ _ (fun _ _ h => h.nativeVariance) i) ?_
  rintro nat _ rfl
  refine Sim.bind (Sim.self i) fun m m' h => ?_
  refine Sim.bind (Sim.lift_eq (predictMean_twins h hQ hr ga)) ?_
  rintro wm _ rfl
  refine Sim.bind (explainedM_sim u sv e i h hQ wm.1) ?_
  rintro ex _ rfl
  exact Sim.lift_eq (by rw [hr])

/-- a prediction method, if the queries correspond and the method treats equal raw predictions alike -/
theorem publicPredict_sim {α α' : Type} {ρ : α → α' → Prop} (u : Bool) (sv : Solvers) (e : Env) (i : ℕ)
    {method : MultiGP → (List (Arr2 ℝ) → Except PyErr Predicted) → Except PyErr α} {method' : MultiGP → (List (Arr2 ℝ) → Except PyErr Predicted) → Except PyErr α'}
    {Qs Qs' : List (NDArr ℝ)} (hpad : ∀ p, ExceptRel (fun Q Q' => QR Q Q' ∧ Q'.map Arr2.rows = Q.map Arr2.rows ∧ Q'.map Arr2.cols = Q.map Arr2.cols) (padDims p Qs) (padDims p Qs'))
    (hm : ∀ gp gp', GR gp gp' → gp'.inputDim = gp.inputDim → gp'.outputDim = gp.outputDim → ∀ r, ExceptRel ρ (method gp fun _ => r) (method' gp' fun _ => r)) :
    Sim QR GR ρ (publicPredict u sv e i method Qs) (publicPredict u sv e i method' Qs') := by
  unfold publicPredict
  refine Sim.bind (Sim.self i) fun m m' h => ?_
  have hp := hpad m.gp.inputDim
  rw [h.inputDim]
  have hmm := hm m.gp m'.gp h.gp h.inputDim h.outputDim
  cases h1 : padDims m.gp.inputDim Qs with
  | error er =>
    cases h2 : padDims m.gp.inputDim Qs' with
    | error er' => exact Sim.lift (hmm _)
    | ok Q' => rw [h1, h2] at hp; exact absurd hp (by simp [ExceptRel])
  | ok Q =>
    cases h2 : padDims m.gp.inputDim Qs' with
    | error er' => rw [h1, h2] at hp; exact absurd hp (by simp [ExceptRel])
    | ok Q' =>
      rw [h1, h2] at hp
      obtain ⟨q1, q2, q3⟩ := hp
      simp only
      have hcols : ∀ c : ℕ, (∀ X ∈ Q', X.cols = c) ↔ ∀ X ∈ Q, X.cols = c := by
        intro c
        have e1 : ∀ L : List (Arr2 ℝ), (∀ X ∈ L, X.cols = c) ↔ ∀ x ∈ L.map Arr2.cols, x = c := fun L => by simp
        rw [e1, e1, q3]
      have hfit : m'.gp.queriesFit Q' ↔ m.gp.queriesFit Q := by
        unfold MultiGP.queriesFit
        rw [h.inputDim, h.outputDim, hcols, ← List.length_map (f := Arr2.rows) (as := Q'), q2, List.length_map]
      by_cases hf : m.gp.queriesFit Q
      · rw [if_pos hf, if_pos (hfit.2 hf)]
        intro w w' hw
        obtain ⟨r1, r2⟩ := rawPredictM_sim u sv e i q1 q2 w w' hw
        refine ⟨?_, r2⟩
        show ExceptRel ρ (method m.gp fun _ => (rawPredictM u sv e i Q w).1) (method' m'.gp fun _ => (rawPredictM u sv e i Q' w').1)
        rw [← r1.eq]
        exact hmm _
      · rw [if_neg hf, if_neg fun h' => hf (hfit.1 h')]
        exact Sim.lift (hmm _)

theorem allocate_sim {m m' : LLGP} (h : Twins QR GR m m') : Sim QR GR Eq (allocate m) (allocate m') := by
  intro w w' hw
  refine ⟨hw.next.symm, by show w'.next + 1 = w.next + 1; rw [hw.next], hw.caches, fun j => ?_⟩
  show Option.Rel _ (if j = w.next then some m else w.heap j) (if j = w'.next then some m' else w'.heap j)
  rw [hw.next]
  split_ifs
  · exact .some h
  · exact hw.heap j

theorem new_sim {a a' : LLGPArgs} (h : ExceptRel (Twins QR GR) (llgpInit a) (llgpInit a')) (u : Bool) (sv : Solvers) (e : Env) :
    Sim QR GR Eq (execOp u sv (.new a e)) (execOp u sv (.new a' e)) := by
  unfold execOp
  refine Sim.bind (Sim.lift h) fun m m' hm => ?_
  refine Sim.bind (allocate_sim hm) ?_
  rintro i _ rfl
  refine Sim.bind (parametersChanged_sim u sv e i) fun _ _ _ => ?_
  exact Sim.pure rfl

theorem set_sim (u : Bool) (sv : Solvers) (i : ℕ) (fk : FK) (e : Env) : Sim QR GR Eq (execOp u sv (.set i fk e)) (execOp u sv (.set i fk e)) := by
  unfold execOp
  refine Sim.bind (Sim.modifySelf i fun m m' h => h.withFK fk) fun _ _ _ => ?_
  refine Sim.bind (parametersChanged_sim u sv e i) fun _ _ _ => ?_
  exact Sim.pure rfl

theorem optimize_sim (u : Bool) (sv : Solvers) (i : ℕ) : Sim QR GR Eq (execOp u sv (.optimize i)) (execOp u sv (.optimize i)) := by
  unfold execOp
  refine Sim.bind (Sim.modifySelf i fun m m' h => by rw [h.metrics]; exact h.withMetrics _) fun _ _ _ => ?_
  exact Sim.pure rfl

theorem Sim.mono {α α' : Type} {ρ ρ' : α → α' → Prop} {x : PyM α} {x' : PyM α'} (h : Sim QR GR ρ x x') (hρ : ∀ a a', ρ a a' → ρ' a a') : Sim QR GR ρ' x x' :=
  fun w w' hw => ⟨(h w w' hw).1.mono hρ, (h w w' hw).2⟩

theorem ask_other_sim (u : Bool) (sv : Solvers) (e : Env) (i : ℕ) {q : Query} (hq : ∀ Qs, q ≠ .predict Qs) (hq' : ∀ Qs qs, q ≠ .quantiles Qs qs) :
    Sim QR GR Eq (execOp u sv (.ask i q e)) (execOp u sv (.ask i q e)) := by
  show Sim QR GR Eq (askM u sv e i q) (askM u sv e i q)
  cases q with
  | predict Qs => exact absurd rfl (hq Qs)
  | quantiles Qs qs => exact absurd rfl (hq' Qs qs)
  | covariance =>
    refine Sim.bind (denseM_sim u i) ?_
    rintro l _ rfl
    exact Sim.pure rfl
  | logDet =>
    refine Sim.bind (logDetM_sim u i) ?_
    rintro l _ rfl
    exact Sim.pure rfl
  | normalQuadratic =>
    refine Sim.bind (normalQuadraticM_sim i) ?_
    rintro l _ rfl
    exact Sim.pure rfl
  | logLikelihood =>
    refine Sim.bind (logLikelihoodM_sim u i) ?_
    rintro l _ rfl
    exact Sim.pure rfl

/-- whole programs -/
theorem history_sim {ρ : Answer → Answer → Prop} (u : Bool) (sv : Solvers) : ∀ {ops ops' : List Op}, List.Forall₂ (fun op op' => Sim QR GR ρ (execOp u sv op) (execOp u sv op')) ops ops' →
    ∀ {w w' : World}, WorldRel QR GR w w' → List.Forall₂ (ExceptRel ρ) (history u sv ops w).1 (history u sv ops' w').1
  | _, _, .nil, _, _, _ => .nil
  | _, _, .cons h hs, w, w', hw => .cons (h w w' hw).1 (history_sim u sv hs (h w w' hw).2)

theorem start_rel : WorldRel QR GR World.start World.start := ⟨rfl, rfl, fun _ => .none⟩

end

end Verif
