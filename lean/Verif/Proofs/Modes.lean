import Verif.Proofs.LLGPAnswer
import Verif.Proofs.LLGPHistory
import Verif.Spec.Modes

/-! Programs that assign prediction modes. -/

namespace Verif

/-! ### the caches make no difference -/

theorem Agree.rawUnknown (sv : Solvers) (u u' : Bool) (e : Env) (i : ℕ) (Xs : List (Arr2 ℝ)) :
    Agree (CachesOK sv) (rawUnknownM u sv e i Xs) (rawUnknownM u' sv e i Xs) (fun _ => CachesOK sv) (CachesOK sv) :=
  (Agree.ensureKernel sv u u' e i).bind fun _ => (Agree.gridAlpha sv u u' i).bind fun _ => (Agree.nativeVariance sv u u' i).bind fun _ => (Agree.self i).bind fun _ =>
    (Agree.lift _).bind fun _ => Agree.lift _

theorem Agree.callUnknown {α : Type} (sv : Solvers) (u u' : Bool) (e : Env) (i : ℕ) (Xs : List (Arr2 ℝ)) (method : Except PyErr Predicted → Except PyErr α) :
    Agree (CachesOK sv) (callUnknown u sv e i Xs method) (callUnknown u' sv e i Xs method) (fun _ => CachesOK sv) (CachesOK sv) := by
  intro w hw
  obtain ⟨h1, h2, h3⟩ := Agree.rawUnknown sv u u' e i Xs w hw
  have hinv : CachesOK sv (rawUnknownM u sv e i Xs w).2 := by
    rcases h : rawUnknownM u sv e i Xs w with ⟨r, w'⟩
    cases r with
    | ok a => exact h2 a w' h
    | error x => exact h3 x w' h
  unfold Verif.callUnknown
  refine ⟨by rw [h1], fun a w' h => ?_, fun x w' h => ?_⟩
  · have := congrArg Prod.snd h; simp only at this; rw [← this]; exact hinv
  · have := congrArg Prod.snd h; simp only at this; rw [← this]; exact hinv

theorem Agree.publicUnknown {α : Type} (sv : Solvers) (u u' : Bool) (e : Env) (i : ℕ)
    (method : MultiGP → (List (Arr2 ℝ) → Except PyErr Predicted) → Except PyErr α) (Xs : List (NDArr ℝ)) :
    Agree (CachesOK sv) (publicUnknown u sv e i method Xs) (publicUnknown u' sv e i method Xs) (fun _ => CachesOK sv) (CachesOK sv) := by
  refine (Agree.self i).bind fun m => ?_
  cases padDims m.gp.inputDim Xs with
  | error x => exact Agree.lift _
  | ok Xs' =>
    simp only
    split_ifs
    · exact Agree.callUnknown sv u u' e i Xs' _
    · exact Agree.lift _

theorem Agree.askUnknown (sv : Solvers) (u u' : Bool) {e : Env} (he : e.Works) (i : ℕ) (q : Query) :
    Agree (CachesOK sv) (askUnknown u sv e i q) (askUnknown u' sv e i q) (fun _ => CachesOK sv) (CachesOK sv) := by
  cases q with
  | predict Xs => exact (Agree.publicUnknown sv u u' e i _ Xs).bind fun _ => Agree.pure _
  | quantiles Xs qs => exact (Agree.publicUnknown sv u u' e i _ Xs).bind fun _ => Agree.pure _
  | covariance => exact Agree.ask sv u u' he i .covariance
  | logDet => exact Agree.ask sv u u' he i .logDet
  | normalQuadratic => exact Agree.ask sv u u' he i .normalQuadratic
  | logLikelihood => exact Agree.ask sv u u' he i .logLikelihood

theorem Agree.known (sv : Solvers) (u u' : Bool) (b : ℕ → Bool) {o : Op} (ho : o.Works) :
    Agree (CachesOK sv) (execKnown u sv b o) (execKnown u' sv b o) (fun _ => CachesOK sv) (CachesOK sv) := by
  cases o with
  | ask i q e =>
    unfold execKnown
    simp only
    split_ifs
    · exact Agree.askUnknown sv u u' (ho e rfl) i q
    · exact Agree.op sv u u' ho
  | new a e => exact Agree.op sv u u' ho
  | set i fk e => exact Agree.op sv u u' ho
  | optimize i => exact Agree.op sv u u' ho

theorem agree_after {α : Type} {sv : Solvers} {x y : PyM α} (h : Agree (CachesOK sv) x y (fun _ => CachesOK sv) (CachesOK sv)) {w : World} (hw : CachesOK sv w) :
    x w = y w ∧ CachesOK sv (x w).2 := by
  obtain ⟨h1, h2, h3⟩ := h w hw
  refine ⟨h1, ?_⟩
  rcases hx : x w with ⟨r, w'⟩
  cases r with
  | ok a => exact h2 a w' hx
  | error e => exact h3 e w' hx

theorem mode_caches (sv : Solvers) (i : ℕ) (p : PredMode) {w : World} (hw : CachesOK sv w) : CachesOK sv (modifySelf i (fun m => { m with prediction := p }) w).2 :=
  (agree_after (Agree.modify sv i (fun m => { m with prediction := p }) (fun _ => rfl) (fun _ => rfl) (fun _ => rfl) (fun _ _ => rfl)) hw).2

theorem execMode_agree (sv : Solvers) (u u' : Bool) {o : ModeOp} (ho : ∀ o', o = .op o' → o'.Works) {s : ModeWorld} (hs : CachesOK sv s.world) :
    execMode u sv o s = execMode u' sv o s ∧ CachesOK sv (execMode u sv o s).2.world := by
  cases o with
  | op o =>
    obtain ⟨h1, h2⟩ := agree_after (Agree.known sv u u' s.unknown (ho o rfl)) hs
    unfold execMode
    simp only
    exact ⟨by rw [h1], h2⟩
  | mode i t =>
    refine ⟨rfl, ?_⟩
    unfold execMode
    simp only
    cases s.world.heap i with
    | none => exact hs
    | some m =>
      simp only
      cases predMode t with
      | none => exact hs
      | some p => exact mode_caches sv i p hs

theorem modeHistory_agree (sv : Solvers) (u u' : Bool) : ∀ (M : List ModeOp), ModesWork M → ∀ s : ModeWorld, CachesOK sv s.world →
    modeHistory u sv M s = modeHistory u' sv M s ∧ CachesOK sv (modeHistory u sv M s).2.world
  | [], _, s, hs => ⟨rfl, hs⟩
  | o :: M, hM, s, hs => by
    obtain ⟨h1, h2⟩ := execMode_agree sv u u' (o := o) (fun o' h => hM o' (by rw [h]; simp)) hs
    obtain ⟨h3, h4⟩ := modeHistory_agree sv u u' M (fun o' h => hM o' (List.mem_cons_of_mem _ h)) (execMode u sv o s).2 h2
    unfold modeHistory
    simp only
    exact ⟨by rw [← h1, h3], h4⟩

/-! ### the mode has no influence on anything but predictions -/

/-- the model with another mode -/
def LLGP.inMode (p : Option PredMode) (m : LLGP) : LLGP := { m with prediction := p.getD m.prediction }

/-- the same objects up to the modes -/
structure Like (P : ℕ → Option PredMode) (w w' : World) : Prop where
  next : w'.next = w.next
  heap : ∀ j, w'.heap j = (w.heap j).map (LLGP.inMode (P j))
  fresh : ∀ j, w.next ≤ j → w.heap j = none ∧ P j = none

/-- results that are the same up to `V` -/
def SameUpTo {α β : Type} (V : α → β → Prop) : Except PyErr α → Except PyErr β → Prop
  | .ok a, .ok b => V a b
  | .error e, .error e' => e = e'
  | _, _ => False

/-- in states that are the same up to modes, the two do the same up to modes -/
def ModeSim {α β : Type} (P : ℕ → Option PredMode) (V : α → β → Prop) (x : PyM α) (y : PyM β) : Prop :=
  ∀ w w', Like P w w' → SameUpTo V (x w).1 (y w').1 ∧ Like P (x w).2 (y w').2

/-- the same, whatever they return -/
def ModeState {α β : Type} (P : ℕ → Option PredMode) (x : PyM α) (y : PyM β) : Prop := ∀ w w', Like P w w' → Like P (x w).2 (y w').2

theorem ModeSim.bind {α β α' β' : Type} {P : ℕ → Option PredMode} {V : α → α' → Prop} {U : β → β' → Prop} {x : PyM α} {y : PyM α'} {f : α → PyM β} {g : α' → PyM β'}
    (h : ModeSim P V x y) (hf : ∀ a b, V a b → ModeSim P U (f a) (g b)) : ModeSim P U (x >>= f) (y >>= g) := by
  intro w w' hw
  obtain ⟨h1, h2⟩ := h w w' hw
  rw [py_bind, py_bind]
  rcases hx : x w with ⟨r, v⟩
  rcases hy : y w' with ⟨r', v'⟩
  rw [hx, hy] at h1 h2
  cases r with
  | ok a => cases r' with
    | ok b => exact hf a b h1 v v' h2
    | error e => exact absurd h1 id
  | error e => cases r' with
    | ok b => exact absurd h1 id
    | error e' => exact ⟨h1, h2⟩

theorem ModeSim.bindState {α β α' β' : Type} {P : ℕ → Option PredMode} {V : α → α' → Prop} {x : PyM α} {y : PyM α'} {f : α → PyM β} {g : α' → PyM β'}
    (h : ModeSim P V x y) (hf : ∀ a b, V a b → ModeState P (f a) (g b)) : ModeState P (x >>= f) (y >>= g) := by
  intro w w' hw
  obtain ⟨h1, h2⟩ := h w w' hw
  rw [py_bind, py_bind]
  rcases hx : x w with ⟨r, v⟩
  rcases hy : y w' with ⟨r', v'⟩
  rw [hx, hy] at h1 h2
  cases r with
  | ok a => cases r' with
    | ok b => exact hf a b h1 v v' h2
    | error e => exact absurd h1 id
  | error e => cases r' with
    | ok b => exact absurd h1 id
    | error e' => exact h2

theorem sameUpTo_refl {α : Type} (x : Except PyErr α) : SameUpTo Eq x x := by cases x <;> rfl

theorem ModeSim.lift {α : Type} {P : ℕ → Option PredMode} (x : Except PyErr α) : ModeSim P Eq (PyM.lift x) (PyM.lift x) := fun _ _ hw => ⟨sameUpTo_refl x, hw⟩

theorem ModeSim.pure {α : Type} {P : ℕ → Option PredMode} (a : α) : ModeSim P Eq (pure a : PyM α) (pure a) := fun _ _ hw => ⟨rfl, hw⟩

theorem ModeSim.checkpoint {P : ℕ → Option PredMode} (e : Env) (k : ℕ) : ModeSim P Eq (checkpoint e k) (checkpoint e k) := fun _ _ hw => ⟨sameUpTo_refl _, hw⟩

theorem ModeSim.self {P : ℕ → Option PredMode} (i : ℕ) : ModeSim P (fun m m' => m' = m.inMode (P i)) (self i) (self i) := by
  intro w w' hw
  refine ⟨?_, hw⟩
  unfold Verif.self
  rw [hw.heap i]
  cases w.heap i with
  | none => exact rfl
  | some m => exact rfl

theorem ModeSim.modify {P : ℕ → Option PredMode} (i : ℕ) (f g : LLGP → LLGP) (h : ∀ m, g (m.inMode (P i)) = (f m).inMode (P i)) : ModeSim P Eq (modifySelf i f) (modifySelf i g) := by
  intro w w' hw
  refine ⟨rfl, ⟨hw.next, fun j => ?_, fun j hj => ?_⟩⟩
  · show (if j = i then (w'.heap i).map g else w'.heap j) = (if j = i then (w.heap i).map f else w.heap j).map _
    by_cases hj : j = i
    · subst hj
      rw [if_pos rfl, if_pos rfl, hw.heap j]
      cases w.heap j with
      | none => rfl
      | some m => simp only [Option.map_some, h]
    · rw [if_neg hj, if_neg hj, hw.heap j]
  · obtain ⟨h1, h2⟩ := hw.fresh j hj
    refine ⟨?_, h2⟩
    show (if j = i then (w.heap i).map f else w.heap j) = none
    by_cases hji : j = i
    · subst hji; rw [if_pos rfl, h1]; rfl
    · rw [if_neg hji, h1]

theorem ModeSim.clear {P : ℕ → Option PredMode} : ModeSim P Eq clearCaches clearCaches := fun _ _ hw => ⟨rfl, ⟨hw.next, hw.heap, hw.fresh⟩⟩

theorem ModeSim.cached {α : Type} {P : ℕ → Option PredMode} (get : Caches → Option (ℕ × α)) (set : Option (ℕ × α) → Caches → Caches) (compute : LLGP → Except PyErr α) (i : ℕ)
    (h : ∀ m p, compute (LLGP.inMode p m) = compute m) : ModeSim P Eq (cachedCall false get set compute i) (cachedCall false get set compute i) := by
  have key : ∀ w m, w.heap i = some m → (cachedCall false get set compute i w).1 = compute m ∧ (cachedCall false get set compute i w).2.heap = w.heap ∧
      (cachedCall false get set compute i w).2.next = w.next := by
    intro w m hm
    obtain ⟨c, hc⟩ := Reads.cached get set compute i m w hm
    rw [hc]; exact ⟨rfl, rfl, rfl⟩
  intro w w' hw
  cases hm : w.heap i with
  | none =>
    have hm' : w'.heap i = none := by rw [hw.heap i, hm]; rfl
    unfold cachedCall
    rw [hm, hm']
    exact ⟨rfl, hw⟩
  | some m =>
    have hm' : w'.heap i = some (m.inMode (P i)) := by rw [hw.heap i, hm]; rfl
    obtain ⟨a1, a2, a3⟩ := key w m hm
    obtain ⟨b1, b2, b3⟩ := key w' _ hm'
    refine ⟨by rw [a1, b1, h]; exact sameUpTo_refl _, ⟨by rw [a3, b3, hw.next], fun j => by rw [a2, b2, hw.heap j], fun j hj => by rw [a2]; rw [a3] at hj; exact hw.fresh j hj⟩⟩

variable {P : ℕ → Option PredMode}

theorem ModeSim.dense (i : ℕ) : ModeSim P Eq (denseM false i) (denseM false i) := ModeSim.cached _ _ _ i fun _ _ => rfl
theorem ModeSim.gridAlpha (i : ℕ) : ModeSim P Eq (gridAlphaM false i) (gridAlphaM false i) := ModeSim.cached _ _ _ i fun _ _ => rfl
theorem ModeSim.nativeVariance (i : ℕ) : ModeSim P Eq (nativeVarianceM false i) (nativeVarianceM false i) := ModeSim.cached _ _ _ i fun _ _ => rfl

theorem ModeSim.logLikelihood (i : ℕ) : ModeSim P Eq (logLikelihoodM false i) (logLikelihoodM false i) :=
  (ModeSim.dense i).bind fun l l' hl => (ModeSim.self i).bind fun m m' hm => by subst hl hm; exact ModeSim.lift _

theorem ModeSim.logDet (i : ℕ) : ModeSim P Eq (logDetM false i) (logDetM false i) :=
  (ModeSim.dense i).bind fun l l' hl => by subst hl; exact ModeSim.pure _

theorem ModeSim.normalQuadratic (i : ℕ) : ModeSim P Eq (normalQuadraticM i) (normalQuadraticM i) :=
  (ModeSim.self i).bind fun m m' hm => by subst hm; exact ModeSim.lift _

theorem ModeSim.debugMessages (e : Env) (i : ℕ) : ModeSim P Eq (debugMessages false e i) (debugMessages false e i) := by
  unfold Verif.debugMessages
  split_ifs
  · exact (ModeSim.logLikelihood i).bind fun _ _ _ => (ModeSim.normalQuadratic i).bind fun _ _ _ => (ModeSim.logDet i).bind fun _ _ _ => ModeSim.pure _
  · exact ModeSim.pure _

theorem ModeSim.replaceKernel (sv : Solvers) (e : Env) (i : ℕ) : ModeSim P Eq (replaceKernel sv e i) (replaceKernel sv e i) :=
  (ModeSim.self i).bind fun m m' hm => by
    subst hm
    exact (ModeSim.checkpoint e 0).bind fun _ _ _ => (ModeSim.lift _).bind fun Kg Kg' h1 => by
      subst h1
      exact (ModeSim.checkpoint e 1).bind fun _ _ _ => (ModeSim.lift _).bind fun kd kd' h2 => by
        subst h2
        exact (ModeSim.modify i _ _ (by intro _; rfl)).bind fun _ _ _ => (ModeSim.checkpoint e 2).bind fun _ _ _ => (ModeSim.lift _).bind fun gr gr' h3 => by
          subst h3
          exact ModeSim.modify i _ _ (by intro _; rfl)

theorem ModeSim.storeGradient (i : ℕ) : ModeSim P Eq (storeGradient i) (storeGradient i) :=
  (ModeSim.self i).bind fun m m' hm => by
    subst hm
    exact (ModeSim.lift _).bind fun k k' h1 => by
      subst h1
      exact (ModeSim.lift _).bind fun g g' h2 => by
        subst h2
        exact ModeSim.modify i _ _ (by intro _; rfl)

theorem ModeSim.recordMetrics (e : Env) (i : ℕ) : ModeSim P Eq (recordMetrics false e i) (recordMetrics false e i) := by
  unfold Verif.recordMetrics
  refine (ModeSim.self i).bind fun m m' hm => ?_
  subst hm
  show ModeSim P Eq (match m.metrics with | none => _ | some _ => _) (match m.metrics with | none => _ | some _ => _)
  cases m.metrics with
  | none => exact ModeSim.pure _
  | some x =>
    exact (ModeSim.lift _).bind fun k k' h1 => by
      subst h1
      exact (ModeSim.dense i).bind fun ex ex' h2 => by
        subst h2
        exact (ModeSim.lift _).bind fun ag ag' h3 => by
          subst h3
          exact (ModeSim.lift _).bind fun eg eg' h4 => by
            subst h4
            exact (ModeSim.lift _).bind fun ne ne' h5 => by
              subst h5
              exact (ModeSim.modify i _ _ (by intro _; rfl)).bind fun _ _ _ => (ModeSim.checkpoint e 5).bind fun _ _ _ => (ModeSim.logLikelihood i).bind fun ll ll' h6 => by
                subst h6
                exact ModeSim.modify i _ _ (by intro _; rfl)

theorem ModeSim.parametersChanged (sv : Solvers) (e : Env) (i : ℕ) : ModeSim P Eq (parametersChanged false sv e i) (parametersChanged false sv e i) :=
  ModeSim.clear.bind fun _ _ _ => (ModeSim.replaceKernel sv e i).bind fun _ _ _ => (ModeSim.checkpoint e 3).bind fun _ _ _ => (ModeSim.debugMessages e i).bind fun _ _ _ =>
    (ModeSim.storeGradient i).bind fun _ _ _ => (ModeSim.checkpoint e 4).bind fun _ _ _ => ModeSim.recordMetrics e i

theorem ModeSim.ensureKernel (sv : Solvers) (e : Env) (i : ℕ) : ModeSim P Eq (ensureKernel false sv e i) (ensureKernel false sv e i) := by
  unfold Verif.ensureKernel
  refine (ModeSim.self i).bind fun m m' hm => ?_
  subst hm
  show ModeSim P Eq (match m.kernel with | none => _ | some _ => _) (match m.kernel with | none => _ | some _ => _)
  cases m.kernel with
  | none => exact ModeSim.parametersChanged sv e i
  | some k => exact ModeSim.pure _

/-- `x` changes nothing but caches -/
def ModeStill {α : Type} (x : PyM α) : Prop := ∀ w, (x w).2.heap = w.heap ∧ (x w).2.next = w.next

theorem ModeStill.bind {α β : Type} {x : PyM α} {f : α → PyM β} (h : ModeStill x) (hf : ∀ a, ModeStill (f a)) : ModeStill (x >>= f) := by
  intro w
  rw [py_bind]
  have h1 := h w
  rcases hx : x w with ⟨r, v⟩
  rw [hx] at h1
  cases r with
  | ok a => exact ⟨(hf a v).1.trans h1.1, (hf a v).2.trans h1.2⟩
  | error e => exact h1

theorem ModeStill.lift {α : Type} (x : Except PyErr α) : ModeStill (PyM.lift x) := fun _ => ⟨rfl, rfl⟩

theorem ModeStill.cached {α : Type} (u : Bool) (get : Caches → Option (ℕ × α)) (set : Option (ℕ × α) → Caches → Caches) (compute : LLGP → Except PyErr α) (i : ℕ) :
    ModeStill (cachedCall u get set compute i) := by
  intro w
  unfold cachedCall
  cases w.heap i with
  | none => exact ⟨rfl, rfl⟩
  | some m =>
    simp only
    cases get w.caches with
    | none => simp only; cases compute m <;> exact ⟨rfl, rfl⟩
    | some jv =>
      simp only
      split_ifs
      · exact ⟨rfl, rfl⟩
      · cases compute m <;> exact ⟨rfl, rfl⟩

theorem ModeStill.explained (u : Bool) (sv : Solvers) (e : Env) (i : ℕ) (m : LLGP) (Xs : List (Arr2 ℝ)) (Ws : List (List ℕ × Arr2 ℝ)) : ModeStill (explainedM u sv e i m Xs Ws) := by
  unfold explainedM
  cases m.prediction with
  | exact => exact (ModeStill.cached _ _ _ _ i).bind fun _ => ModeStill.lift _
  | precompute => exact (ModeStill.cached _ _ _ _ i).bind fun _ => ModeStill.lift _
  | onTheFly => exact ModeStill.lift _

theorem ModeStill.state {α β : Type} {x : PyM α} {y : PyM β} (h : ModeStill x) (h' : ModeStill y) : ModeState P x y := by
  intro w w' hw
  obtain ⟨a1, a2⟩ := h w
  obtain ⟨b1, b2⟩ := h' w'
  exact ⟨by rw [a2, b2, hw.next], fun j => by rw [a1, b1, hw.heap j], fun j hj => by rw [a1]; rw [a2] at hj; exact hw.fresh j hj⟩

theorem ModeState.rawPredict (sv : Solvers) (e : Env) (i : ℕ) (Xs : List (Arr2 ℝ)) : ModeState P (rawPredictM false sv e i Xs) (rawPredictM false sv e i Xs) :=
  (ModeSim.ensureKernel sv e i).bindState fun _ _ _ => (ModeSim.gridAlpha i).bindState fun _ _ h1 => (ModeSim.nativeVariance i).bindState fun _ _ _ =>
    (ModeSim.self i).bindState fun m m' hm => by
      subst h1 hm
      exact (ModeSim.lift _).bindState fun _ _ h2 => ModeStill.state ((ModeStill.explained false sv e i _ Xs _).bind fun _ => ModeStill.lift _) ((ModeStill.explained false sv e i _ Xs _).bind fun _ => ModeStill.lift _)

theorem ModeState.rawUnknown (sv : Solvers) (e : Env) (i : ℕ) (Xs : List (Arr2 ℝ)) : ModeState P (rawPredictM false sv e i Xs) (rawUnknownM false sv e i Xs) :=
  (ModeSim.ensureKernel sv e i).bindState fun _ _ _ => (ModeSim.gridAlpha i).bindState fun _ _ h1 => (ModeSim.nativeVariance i).bindState fun _ _ _ =>
    (ModeSim.self i).bindState fun m m' hm => by
      subst h1 hm
      exact (ModeSim.lift _).bindState fun _ _ h2 => ModeStill.state ((ModeStill.explained false sv e i _ Xs _).bind fun _ => ModeStill.lift _) (ModeStill.lift _)

theorem ModeState.publicPredict {α : Type} (sv : Solvers) (e : Env) (i : ℕ) (method : MultiGP → (List (Arr2 ℝ) → Except PyErr Predicted) → Except PyErr α) (Xs : List (NDArr ℝ)) :
    ModeState P (publicPredict false sv e i method Xs) (publicPredict false sv e i method Xs) := by
  refine (ModeSim.self i).bindState fun m m' hm => ?_
  subst hm
  show ModeState P (match padDims m.gp.inputDim Xs with | .error _ => _ | .ok Xs' => if m.gp.queriesFit Xs' then _ else _)
    (match padDims m.gp.inputDim Xs with | .error _ => _ | .ok Xs' => if m.gp.queriesFit Xs' then _ else _)
  cases padDims m.gp.inputDim Xs with
  | error x => exact ModeStill.state (ModeStill.lift _) (ModeStill.lift _)
  | ok Xs' =>
    simp only
    split_ifs
    · exact ModeState.rawPredict sv e i Xs'
    · exact ModeStill.state (ModeStill.lift _) (ModeStill.lift _)

theorem ModeState.publicUnknown {α : Type} (sv : Solvers) (e : Env) (i : ℕ) (method : MultiGP → (List (Arr2 ℝ) → Except PyErr Predicted) → Except PyErr α) (Xs : List (NDArr ℝ)) :
    ModeState P (Verif.publicPredict false sv e i method Xs) (Verif.publicUnknown false sv e i method Xs) := by
  refine (ModeSim.self i).bindState fun m m' hm => ?_
  subst hm
  show ModeState P (match padDims m.gp.inputDim Xs with | .error _ => _ | .ok Xs' => if m.gp.queriesFit Xs' then _ else _)
    (match padDims m.gp.inputDim Xs with | .error _ => _ | .ok Xs' => if m.gp.queriesFit Xs' then _ else _)
  cases padDims m.gp.inputDim Xs with
  | error x => exact ModeStill.state (ModeStill.lift _) (ModeStill.lift _)
  | ok Xs' =>
    simp only
    split_ifs
    · exact ModeState.rawUnknown sv e i Xs'
    · exact ModeStill.state (ModeStill.lift _) (ModeStill.lift _)

theorem ModeState.thenPure {α β α' β' : Type} {x : PyM α} {y : PyM α'} (h : ModeState P x y) (f : α → β) (g : α' → β') :
    ModeState P (x >>= fun a => (pure (f a) : PyM β)) (y >>= fun a => (pure (g a) : PyM β')) := by
  intro w w' hw
  have h2 := h w w' hw
  rw [py_bind, py_bind]
  rcases hx : x w with ⟨r, v⟩
  rcases hy : y w' with ⟨r', v'⟩
  rw [hx, hy] at h2
  cases r <;> cases r' <;> exact h2

theorem ModeSim.toState {α β : Type} {V : α → β → Prop} {x : PyM α} {y : PyM β} (h : ModeSim P V x y) : ModeState P x y := fun w w' hw => (h w w' hw).2

theorem ModeState.askPredict (sv : Solvers) (e : Env) (i : ℕ) (q : Query) : ModeState P (askM false sv e i q) (askM false sv e i q) := by
  cases q with
  | predict Xs => exact (ModeState.publicPredict sv e i _ Xs).thenPure _ _
  | quantiles Xs qs => exact (ModeState.publicPredict sv e i _ Xs).thenPure _ _
  | covariance => exact ModeStill.state ((ModeStill.cached _ _ _ _ i).bind fun _ => ModeStill.lift (.ok _)) ((ModeStill.cached _ _ _ _ i).bind fun _ => ModeStill.lift (.ok _))
  | logDet => exact (ModeSim.logDet i).toState.thenPure _ _
  | normalQuadratic => exact (ModeSim.normalQuadratic i).toState.thenPure _ _
  | logLikelihood => exact (ModeSim.logLikelihood i).toState.thenPure _ _

theorem ModeSim.ask (sv : Solvers) (e : Env) (i : ℕ) (q : Query) (hq : (Op.ask i q e).asksPrediction = false) : ModeSim P Eq (askM false sv e i q) (askM false sv e i q) := by
  cases q with
  | predict Xs => cases hq
  | quantiles Xs qs => cases hq
  | covariance => exact (ModeSim.dense i).bind fun l l' h => by subst h; exact ModeSim.pure _
  | logDet => exact (ModeSim.logDet i).bind fun l l' h => by subst h; exact ModeSim.pure _
  | normalQuadratic => exact (ModeSim.normalQuadratic i).bind fun l l' h => by subst h; exact ModeSim.pure _
  | logLikelihood => exact (ModeSim.logLikelihood i).bind fun l l' h => by subst h; exact ModeSim.pure _

theorem ModeSim.allocate (m : LLGP) : ModeSim P Eq (allocate m) (allocate m) := by
  intro w w' hw
  have hP := (hw.fresh w.next (le_refl _)).2
  refine ⟨?_, ⟨?_, fun j => ?_, fun j hj => ?_⟩⟩
  · show SameUpTo Eq (.ok w.next) (.ok w'.next)
    exact hw.next.symm
  · show w'.next + 1 = w.next + 1
    rw [hw.next]
  · show (if j = w'.next then some m else w'.heap j) = (if j = w.next then some m else w.heap j).map _
    rw [hw.next]
    by_cases hj : j = w.next
    · rw [if_pos hj, if_pos hj, hj, hP]; rfl
    · rw [if_neg hj, if_neg hj, hw.heap j]
  · have hj' : w.next + 1 ≤ j := hj
    obtain ⟨h1, h2⟩ := hw.fresh j (by omega)
    refine ⟨?_, h2⟩
    show (if j = w.next then some m else w.heap j) = none
    rw [if_neg (by omega), h1]

/-- an ordinary operation, in two states that are the same up to modes -/
theorem known_step (sv : Solvers) (b : ℕ → Bool) (o : Op) {w w' : World} (hw : Like P w w') :
    Like P (execOp false sv o w).2 (execKnown false sv b o w').2 ∧ (o.asksPrediction = false → (execOp false sv o w).1 = (execKnown false sv b o w').1) := by
  have fin : ∀ {x y : PyM Answer}, ModeSim P Eq x y → Like P (x w).2 (y w').2 ∧ ((x w).1 = (y w').1) := by
    intro x y h
    obtain ⟨h1, h2⟩ := h w w' hw
    refine ⟨h2, ?_⟩
    rcases hx : (x w).1 with e | a <;> rcases hy : (y w').1 with e' | a' <;> rw [hx, hy] at h1
    · rw [show e = e' from h1]
    · exact absurd h1 id
    · exact absurd h1 id
    · rw [show a = a' from h1]
  cases o with
  | new a e =>
    have : ModeSim P Eq (execOp false sv (.new a e)) (execKnown false sv b (.new a e)) :=
      (ModeSim.lift _).bind fun m m' h => by
        subst h
        exact (ModeSim.allocate m).bind fun i i' h => by
          subst h
          exact (ModeSim.parametersChanged sv e i).bind fun _ _ _ => ModeSim.pure _
    exact ⟨(fin this).1, fun _ => (fin this).2⟩
  | set i fk e =>
    have : ModeSim P Eq (execOp false sv (.set i fk e)) (execKnown false sv b (.set i fk e)) :=
      (ModeSim.modify i _ _ (by intro _; rfl)).bind fun _ _ _ => (ModeSim.parametersChanged sv e i).bind fun _ _ _ => ModeSim.pure _
    exact ⟨(fin this).1, fun _ => (fin this).2⟩
  | optimize i =>
    have : ModeSim P Eq (execOp false sv (.optimize i)) (execKnown false sv b (.optimize i)) := (ModeSim.modify i _ _ (by intro _; rfl)).bind fun _ _ _ => ModeSim.pure _
    exact ⟨(fin this).1, fun _ => (fin this).2⟩
  | ask i q e =>
    show Like P (askM false sv e i q w).2 ((if b i then askUnknown false sv e i q else askM false sv e i q) w').2 ∧
      (_ → (askM false sv e i q w).1 = ((if b i then askUnknown false sv e i q else askM false sv e i q) w').1)
    by_cases hb : b i
    · rw [if_pos hb]
      cases q with
      | predict Xs => exact ⟨((ModeState.publicUnknown sv e i _ Xs).thenPure _ _) w w' hw, fun h => by cases h⟩
      | quantiles Xs qs => exact ⟨((ModeState.publicUnknown sv e i _ Xs).thenPure _ _) w w' hw, fun h => by cases h⟩
      | covariance => exact ⟨ModeState.askPredict sv e i .covariance w w' hw, fun h => (fin (ModeSim.ask sv e i .covariance h)).2⟩
      | logDet => exact ⟨ModeState.askPredict sv e i .logDet w w' hw, fun h => (fin (ModeSim.ask sv e i .logDet h)).2⟩
      | normalQuadratic => exact ⟨ModeState.askPredict sv e i .normalQuadratic w w' hw, fun h => (fin (ModeSim.ask sv e i .normalQuadratic h)).2⟩
      | logLikelihood => exact ⟨ModeState.askPredict sv e i .logLikelihood w w' hw, fun h => (fin (ModeSim.ask sv e i .logLikelihood h)).2⟩
    · rw [if_neg hb]
      exact ⟨ModeState.askPredict sv e i q w w' hw, fun h => (fin (ModeSim.ask sv e i q h)).2⟩

/-- how the state of a program with assignments of modes is related to that of the program without them: `f` are the modes last assigned -/
def Follows (f : ℕ → Option String) (s : ModeWorld) (w : World) : Prop :=
  ∃ P, Like P w s.world ∧ ∀ j, match f j with
    | none => P j = none ∧ s.unknown j = false
    | some t => match predMode t with
      | some p => P j = some p ∧ s.unknown j = false
      | none => s.unknown j = true

theorem otherResults_cons (o : Op) (r : Except PyErr Answer) (l : List (Op × Except PyErr Answer)) :
    otherResults ((o, r) :: l) = if o.asksPrediction then otherResults l else (o, r) :: otherResults l := by
  unfold otherResults
  rw [List.filter_cons]
  cases ho : o.asksPrediction <;> simp [ho]

theorem follows_history (sv : Solvers) : ∀ (M : List ModeOp) (f : ℕ → Option String) (s : ModeWorld) (w : World), Follows f s w →
    Follows (fun i => lastMode i (f i) (M.zip (modeHistory false sv M s).1)) (modeHistory false sv M s).2 (history false sv (withoutModes M) w).2 ∧
      otherResults (ordinary (M.zip (modeHistory false sv M s).1)) = otherResults ((withoutModes M).zip (history false sv (withoutModes M) w).1)
  | [], f, s, w, h => ⟨h, rfl⟩
  | .op o :: M, f, s, w, h => by
    obtain ⟨P, hP, hf⟩ := h
    obtain ⟨h1, h2⟩ := known_step sv s.unknown o hP
    obtain ⟨a1, a2⟩ := follows_history sv M f (execMode false sv (.op o) s).2 (execOp false sv o w).2 ⟨P, h1, hf⟩
    refine ⟨a1, ?_⟩
    show otherResults ((o, (execKnown false sv s.unknown o s.world).1) :: ordinary (M.zip (modeHistory false sv M (execMode false sv (.op o) s).2).1)) =
      otherResults ((o, (execOp false sv o w).1) :: (withoutModes M).zip (history false sv (withoutModes M) (execOp false sv o w).2).1)
    rw [otherResults_cons, otherResults_cons, a2]
    cases ho : o.asksPrediction with
    | true => rfl
    | false => rw [h2 ho]
  | .mode i t :: M, f, s, w, h => by
    have hstep : Follows (fun j => lastMode j (f j) [(.mode i t, (execMode false sv (.mode i t) s).1)]) (execMode false sv (.mode i t) s).2 w := by
      obtain ⟨P, hP, hf⟩ := h
      unfold execMode
      simp only
      cases hm : s.world.heap i with
      | none => exact ⟨P, hP, hf⟩
      | some m =>
        have hwi : w.heap i ≠ none := fun h => by rw [hP.heap i, h] at hm; cases hm
        have hlt : ∀ j, w.next ≤ j → j ≠ i := fun j hj h => by subst h; exact hwi (hP.fresh j hj).1
        simp only
        cases hp : predMode t with
        | none =>
          refine ⟨P, hP, fun j => ?_⟩
          by_cases hj : i = j
          · subst hj
            simp only [lastMode, if_true, hp]
          · have := hf j
            simp only [lastMode, if_neg hj, if_neg (Ne.symm hj)]
            exact this
        | some p =>
          refine ⟨fun j => if j = i then some p else P j, ⟨hP.next, fun j => ?_, fun j hj => ?_⟩, fun j => ?_⟩
          · show (if j = i then (s.world.heap i).map _ else s.world.heap j) = _
            by_cases hj : j = i
            · subst hj
              rw [if_pos rfl, if_pos rfl, hP.heap j]
              cases w.heap j with
              | none => rfl
              | some m => rfl
            · rw [if_neg hj, if_neg hj, hP.heap j]
          · refine ⟨(hP.fresh j hj).1, ?_⟩
            rw [if_neg (hlt j hj)]
            exact (hP.fresh j hj).2
          · by_cases hj : i = j
            · subst hj
              simp only [lastMode, if_true, hp, and_self]
            · have := hf j
              simp only [lastMode, if_neg hj, if_neg (Ne.symm hj)]
              exact this
    obtain ⟨a1, a2⟩ := follows_history sv M _ (execMode false sv (.mode i t) s).2 w hstep
    refine ⟨?_, a2⟩
    have : ∀ j, lastMode j (lastMode j (f j) [(.mode i t, (execMode false sv (.mode i t) s).1)]) (M.zip (modeHistory false sv M (execMode false sv (.mode i t) s).2).1) =
        lastMode j (f j) ((.mode i t :: M).zip (modeHistory false sv (.mode i t :: M) s).1) := by
      intro j
      show _ = lastMode j (f j) ((.mode i t, (execMode false sv (.mode i t) s).1) :: M.zip (modeHistory false sv M (execMode false sv (.mode i t) s).2).1)
      cases (execMode false sv (.mode i t) s).1 <;> rfl
    simp only [this] at a1
    exact a1

theorem follows_start : Follows (fun _ => none) ModeWorld.start World.start :=
  ⟨fun _ => none, ⟨rfl, fun _ => rfl, fun _ _ => ⟨rfl, rfl⟩⟩, fun _ => ⟨rfl, rfl⟩⟩

/-! ### the attribute is that of the constructor -/

/-- a model made with another mode differs in the mode only -/
theorem init_mode {a : LLGPArgs} {m : LLGP} (h : llgpInit a = .ok m) {t : String} {p : PredMode} (hp : predMode t = some p) :
    llgpInit { a with prediction := t } = .ok { m with prediction := p } := by
  unfold llgpInit at h ⊢
  rw [bind_ok] at h
  obtain ⟨gp, h1, h2⟩ := h
  rw [h1, ok_bind]
  simp only at h2 ⊢
  cases hf : a.functionalKernel with
  | none => rw [hf] at h2; cases h2
  | some fk =>
    rw [hf] at h2
    simp only [hp] at h2 ⊢
    cases hm : predMode a.prediction with
    | none => rw [hm] at h2; cases h2
    | some p' =>
      rw [hm] at h2
      simp only [bind_ok] at h2
      obtain ⟨fk', h3, gr, h4, h5⟩ := h2
      rw [h3, ok_bind, h4, ok_bind]
      cases h5
      rfl

/-! ### an unknown mode -/

theorem Reads.rawUnknown (sv : Solvers) (e : Env) (i : ℕ) (m : LLGP) {k : LLKernel} (hk : m.kernel = some k) (Xs : List (Arr2 ℝ)) :
    Reads i m (rawUnknownM false sv e i Xs) (do
      let ga ← m.gridAlpha
      let _ ← m.nativeVariance
      let _ ← m.predictMean Xs ga
      .error .keyError) := by
  have h1 : Reads i m (ensureKernel false sv e i) (.ok ()) := by
    refine Reads.selfBind ?_
    simp only [hk]
    exact Reads.pure _
  have := h1.bind (f := fun _ => do
    let ga ← gridAlphaM false i
    let _ ← nativeVarianceM false i
    let m ← Verif.self i
    let _ ← PyM.lift (m.predictMean Xs ga)
    PyM.lift (.error .keyError : Except PyErr Predicted)) (g := fun _ => do
      let ga ← m.gridAlpha
      let _ ← m.nativeVariance
      let _ ← m.predictMean Xs ga
      .error .keyError) fun _ => by
      exact (Reads.cached _ _ _ i m).bind fun _ => (Reads.cached _ _ _ i m).bind fun _ => Reads.selfBind ((Reads.lift _).bind fun _ => Reads.lift _)
  exact this

/-- `_raw_predict` with an unknown mode -/
noncomputable def LLGP.rawUnknown (m : LLGP) (Xs : List (Arr2 ℝ)) : Except PyErr Predicted := do
  let ga ← m.gridAlpha
  let _ ← m.nativeVariance
  let _ ← m.predictMean Xs ga
  .error .keyError

theorem Reads.publicUnknown {α : Type} (sv : Solvers) (e : Env) (i : ℕ) (m : LLGP) {k : LLKernel} (hk : m.kernel = some k)
    (method : MultiGP → (List (Arr2 ℝ) → Except PyErr Predicted) → Except PyErr α) (Xs : List (NDArr ℝ))
    (hm : ∀ raw raw' : List (Arr2 ℝ) → Except PyErr Predicted, (∀ Xs', padDims m.gp.inputDim Xs = .ok Xs' → m.gp.queriesFit Xs' → raw Xs' = raw' Xs') →
      method m.gp raw = method m.gp raw') :
    Reads i m (Verif.publicUnknown false sv e i method Xs) (method m.gp m.rawUnknown) := by
  refine Reads.selfBind ?_
  cases hp : padDims m.gp.inputDim Xs with
  | error x =>
    have : method m.gp m.rawUnknown = method m.gp fun _ => .error .runtimeError := hm _ _ fun Xs' h => by rw [hp] at h; cases h
    rw [this]
    exact Reads.lift _
  | ok Xs' =>
    by_cases hq : m.gp.queriesFit Xs'
    · simp only [if_pos hq]
      have : method m.gp m.rawUnknown = method m.gp fun _ => m.rawUnknown Xs' := hm _ _ fun X h _ => by rw [hp] at h; cases h; rfl
      rw [this]
      intro w hw
      obtain ⟨c, hc⟩ := Reads.rawUnknown sv e i m hk Xs' w hw
      refine ⟨c, ?_⟩
      unfold callUnknown
      rw [hc]
      rfl
    · simp only [if_neg hq]
      have : method m.gp m.rawUnknown = method m.gp fun _ => .error .runtimeError := hm _ _ fun X h h' => by
        rw [hp] at h
        cases h
        exact absurd h' hq
      rw [this]
      exact Reads.lift _

/-- with an unknown mode the prediction raises; it is a `KeyError` if a known mode would predict -/
theorem rawUnknown_error (sv : Solvers) (e : Env) (m : LLGP) (Xs : List (Arr2 ℝ)) :
    (∃ x, m.rawUnknown Xs = .error x) ∧ ∀ r p, ({ m with prediction := p } : LLGP).rawPredict sv e Xs = .ok r → m.rawUnknown Xs = .error .keyError := by
  constructor
  · unfold LLGP.rawUnknown
    cases h1 : m.gridAlpha with
    | error x => exact ⟨x, rfl⟩
    | ok ga =>
      cases h2 : m.nativeVariance with
      | error x => exact ⟨x, rfl⟩
      | ok nv =>
        rw [ok_bind, ok_bind]
        cases h3 : m.predictMean Xs ga with
        | error x => exact ⟨x, rfl⟩
        | ok wm => exact ⟨_, rfl⟩
  · intro r p h
    unfold LLGP.rawPredict at h
    simp only [bind_ok] at h
    obtain ⟨ga, h1, nv, h2, wm, h3, -⟩ := h
    unfold LLGP.rawUnknown
    rw [show m.gridAlpha = .ok ga from h1, ok_bind, show m.nativeVariance = .ok nv from h2, ok_bind, show m.predictMean Xs ga = .ok wm from h3]
    rfl

end Verif
