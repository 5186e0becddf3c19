import Verif.Proofs.LLGPCache

/-! Answers are computed from the attributes of the model. -/

namespace Verif

/-- in every state in which object `i` is `m`, `x` gives `r` and changes nothing but caches -/
def Reads {α : Type} (i : ℕ) (m : LLGP) (x : PyM α) (r : Except PyErr α) : Prop := ∀ w, w.heap i = some m → ∃ c, x w = (r, { w with caches := c })

theorem Reads.bind {α β : Type} {i : ℕ} {m : LLGP} {x : PyM α} {r : Except PyErr α} {f : α → PyM β} {g : α → Except PyErr β} (h1 : Reads i m x r)
    (h2 : ∀ a, Reads i m (f a) (g a)) : Reads i m (x >>= f) (r >>= g) := by
  intro w hw
  obtain ⟨c, hc⟩ := h1 w hw
  rw [py_bind, hc]
  cases r with
  | error e => exact ⟨c, rfl⟩
  | ok a =>
    obtain ⟨c', hc'⟩ := h2 a { w with caches := c } hw
    exact ⟨c', hc'⟩

theorem Reads.pure {α : Type} {i : ℕ} {m : LLGP} (a : α) : Reads i m (pure a : PyM α) (.ok a) := fun w _ => ⟨w.caches, rfl⟩

theorem Reads.lift {α : Type} {i : ℕ} {m : LLGP} (x : Except PyErr α) : Reads i m (PyM.lift x) x := fun w _ => ⟨w.caches, rfl⟩

theorem Reads.self (i : ℕ) (m : LLGP) : Reads i m (self i) (.ok m) := by
  intro w hw
  refine ⟨w.caches, ?_⟩
  unfold Verif.self
  rw [hw]

theorem Reads.selfBind {α : Type} {i : ℕ} {m : LLGP} {f : LLGP → PyM α} {r : Except PyErr α} (h : Reads i m (f m) r) : Reads i m (Verif.self i >>= f) r := by
  intro w hw
  obtain ⟨c, hc⟩ := Reads.self i m w hw
  rw [py_bind, hc]
  exact h _ hw

theorem Reads.cached {α : Type} (get : Caches → Option (ℕ × α)) (set : Option (ℕ × α) → Caches → Caches) (compute : LLGP → Except PyErr α) (i : ℕ) (m : LLGP) :
    Reads i m (cachedCall false get set compute i) (compute m) := by
  intro w hw
  unfold cachedCall
  rw [hw]
  simp only
  cases get w.caches with
  | none =>
    simp only
    cases compute m with
    | ok v => exact ⟨_, rfl⟩
    | error e => exact ⟨w.caches, rfl⟩
  | some jv =>
    simp only [Bool.false_eq_true, false_and, if_false]
    cases compute m with
    | ok v => exact ⟨_, rfl⟩
    | error e => exact ⟨w.caches, rfl⟩

theorem Reads.explained (sv : Solvers) (e : Env) (i : ℕ) (m : LLGP) (Xs : List (Arr2 ℝ)) (Ws : List (List ℕ × Arr2 ℝ)) :
    Reads i m (explainedM false sv e i m Xs Ws) (m.explained sv e Xs Ws) := by
  unfold explainedM LLGP.explained
  cases m.prediction with
  | exact => exact (Reads.cached _ _ _ i m).bind fun _ => Reads.lift _
  | precompute => exact (Reads.cached _ _ _ i m).bind fun _ => Reads.lift _
  | onTheFly => exact Reads.lift _

theorem Reads.rawPredict (sv : Solvers) (e : Env) (i : ℕ) (m : LLGP) {k : LLKernel} (hk : m.kernel = some k) (Xs : List (Arr2 ℝ)) :
    Reads i m (rawPredictM false sv e i Xs) (m.rawPredict sv e Xs) := by
  have h1 : Reads i m (ensureKernel false sv e i) (.ok ()) := by
    refine Reads.selfBind ?_
    simp only [hk]
    exact Reads.pure _
  have := h1.bind (f := fun _ => do
    let ga ← gridAlphaM false i
    let native ← nativeVarianceM false i
    let m ← Verif.self i
    let wm ← PyM.lift (m.predictMean Xs ga)
    let ex ← explainedM false sv e i m Xs wm.1
    PyM.lift (splitPrediction (Xs.map Arr2.rows) wm.2 native ex)) (g := fun _ => m.rawPredict sv e Xs) fun _ => by
      unfold LLGP.rawPredict
      exact (Reads.cached _ _ _ i m).bind fun _ => (Reads.cached _ _ _ i m).bind fun _ => Reads.selfBind ((Reads.lift _).bind fun _ =>
        (Reads.explained sv e i m Xs _).bind fun _ => Reads.lift _)
  exact this

theorem predict_congr (gp : MultiGP) (raw raw' : List (Arr2 ℝ) → Except PyErr Predicted) (Xs : List (NDArr ℝ))
    (h : ∀ Xs', padDims gp.inputDim Xs = .ok Xs' → gp.queriesFit Xs' → raw Xs' = raw' Xs') : gp.predict raw Xs = gp.predict raw' Xs := by
  unfold MultiGP.predict
  cases hp : padDims gp.inputDim Xs with
  | error e => rfl
  | ok Xs' =>
    rw [ok_bind, ok_bind]
    unfold MultiGP.predictWith
    by_cases h1 : Xs'.length = gp.outputDim
    · by_cases h2 : ∀ X ∈ Xs', X.cols = gp.inputDim
      · rw [h Xs' hp ⟨h1, h2⟩]
      · rw [if_neg (not_not.2 h1), if_pos h2, if_neg (not_not.2 h1), if_pos h2]
    · rw [if_pos h1, if_pos h1]

theorem quantiles_congr (gp : MultiGP) (raw raw' : List (Arr2 ℝ) → Except PyErr Predicted) (Xs : List (NDArr ℝ)) (qs : List ℝ)
    (h : ∀ Xs', padDims gp.inputDim Xs = .ok Xs' → gp.queriesFit Xs' → raw Xs' = raw' Xs') : gp.predictQuantiles raw Xs qs = gp.predictQuantiles raw' Xs qs := by
  unfold MultiGP.predictQuantiles
  cases hp : padDims gp.inputDim Xs with
  | error e => rfl
  | ok Xs' =>
    rw [ok_bind, ok_bind]
    have : gp.predictWith raw Xs' false = gp.predictWith raw' Xs' false := by
      unfold MultiGP.predictWith
      by_cases h1 : Xs'.length = gp.outputDim
      · by_cases h2 : ∀ X ∈ Xs', X.cols = gp.inputDim
        · rw [h Xs' hp ⟨h1, h2⟩]
        · rw [if_neg (not_not.2 h1), if_pos h2, if_neg (not_not.2 h1), if_pos h2]
      · rw [if_pos h1, if_pos h1]
    rw [this]

theorem Reads.publicPredict {α : Type} (sv : Solvers) (e : Env) (i : ℕ) (m : LLGP) {k : LLKernel} (hk : m.kernel = some k)
    (method : MultiGP → (List (Arr2 ℝ) → Except PyErr Predicted) → Except PyErr α) (Xs : List (NDArr ℝ))
    (hm : ∀ raw raw' : List (Arr2 ℝ) → Except PyErr Predicted, (∀ Xs', padDims m.gp.inputDim Xs = .ok Xs' → m.gp.queriesFit Xs' → raw Xs' = raw' Xs') →
      method m.gp raw = method m.gp raw') :
    Reads i m (Verif.publicPredict false sv e i method Xs) (method m.gp (m.rawPredict sv e)) := by
  refine Reads.selfBind ?_
  cases hp : padDims m.gp.inputDim Xs with
  | error x =>
    have : method m.gp (m.rawPredict sv e) = method m.gp fun _ => .error .runtimeError := hm _ _ fun Xs' h => by rw [hp] at h; cases h
    rw [this]
    exact Reads.lift _
  | ok Xs' =>
    by_cases hq : m.gp.queriesFit Xs'
    · simp only [if_pos hq]
      have : method m.gp (m.rawPredict sv e) = method m.gp fun _ => m.rawPredict sv e Xs' := hm _ _ fun X h _ => by rw [hp] at h; cases h; rfl
      rw [this]
      intro w hw
      obtain ⟨c, hc⟩ := Reads.rawPredict sv e i m hk Xs' w hw
      refine ⟨c, ?_⟩
      unfold callRaw
      rw [hc]
    · simp only [if_neg hq]
      have : method m.gp (m.rawPredict sv e) = method m.gp fun _ => .error .runtimeError := hm _ _ fun X h h' => by
        rw [hp] at h
        cases h
        exact absurd h' hq
      rw [this]
      exact Reads.lift _

theorem except_map_bind {α β : Type} (x : Except PyErr α) (f : α → β) : x.map f = x >>= fun a => .ok (f a) := by
  cases x <;> rfl

theorem Reads.ask (sv : Solvers) (e : Env) (i : ℕ) (m : LLGP) {k : LLKernel} (hk : m.kernel = some k) (q : Query) :
    Reads i m (askM false sv e i q) (m.answer sv e q) := by
  unfold LLGP.answer
  cases q with
  | predict Xs =>
    simp only [except_map_bind]
    exact (Reads.publicPredict sv e i m hk _ Xs fun raw raw' h => predict_congr m.gp raw raw' Xs h).bind fun _ => Reads.pure _
  | quantiles Xs qs =>
    simp only [except_map_bind]
    exact (Reads.publicPredict sv e i m hk _ Xs fun raw raw' h => quantiles_congr m.gp raw raw' Xs qs h).bind fun _ => Reads.pure _
  | covariance =>
    simp only [except_map_bind]
    exact (Reads.cached _ _ _ i m).bind fun _ => Reads.pure _
  | logDet =>
    have : (m.dense.map fun l => Answer.extended (logDetOf l)) = (do let l ← m.dense; .ok (logDetOf l)) >>= fun d => .ok (.extended d) := by cases m.dense <;> rfl
    simp only [this]
    exact ((Reads.cached _ _ _ i m).bind fun _ => Reads.pure _).bind fun _ => Reads.pure _
  | normalQuadratic =>
    simp only [except_map_bind]
    exact (Reads.selfBind (Reads.lift _)).bind fun _ => Reads.pure _
  | logLikelihood =>
    simp only [except_map_bind]
    exact ((Reads.cached _ _ _ i m).bind fun _ => Reads.selfBind (Reads.lift _)).bind fun _ => Reads.pure _

/-- with valid caches, an answer is computed from the attributes of the model -/
theorem ask_answer {sv : Solvers} {w : World} (hw : CachesOK sv w) {e : Env} (he : e.Works) {i : ℕ} {m : LLGP} (hm : w.heap i = some m) {k : LLKernel}
    (hk : m.kernel = some k) (q : Query) : ∃ c, askM true sv e i q w = (m.answer sv e q, { w with caches := c }) := by
  rw [(Agree.ask sv true false he i q w hw).1]
  exact Reads.ask sv e i m hk q w hm

end Verif
