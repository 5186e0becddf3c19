import Verif.Spec.LLGPState
import Verif.Proofs.LLGPThrough

/-! The class-level caches never hold anything but what the method would compute now. -/

namespace Verif

/-! ### sequencing -/

theorem py_bind {α β : Type} (x : PyM α) (f : α → PyM β) (w : World) :
    (x >>= f) w = match x w with
      | (.ok a, w') => f a w'
      | (.error e, w') => (.error e, w') := rfl

theorem py_bind_ok {α β : Type} {x : PyM α} {f : α → PyM β} {w w'' : World} {b : β} :
    (x >>= f) w = (.ok b, w'') ↔ ∃ a w', x w = (.ok a, w') ∧ f a w' = (.ok b, w'') := by
  rw [py_bind]
  rcases h : x w with ⟨r, w'⟩
  cases r with
  | ok a =>
    simp only
    constructor
    · intro hf; exact ⟨a, w', rfl, hf⟩
    · rintro ⟨a', w1, h1, h2⟩
      cases h1
      exact h2
  | error e =>
    simp only
    constructor
    · intro hf; cases hf
    · rintro ⟨a', w1, h1, h2⟩
      cases h1

/-- `x` and `y` do the same from states with `Pre`; afterwards `Mid` holds if they return and `Err` if they raise -/
def Agree {α : Type} (Pre : World → Prop) (x y : PyM α) (Mid : α → World → Prop) (Err : World → Prop) : Prop :=
  ∀ w, Pre w → x w = y w ∧ (∀ a w', x w = (.ok a, w') → Mid a w') ∧ (∀ e w', x w = (.error e, w') → Err w')

theorem Agree.bind {α β : Type} {Pre : World → Prop} {x y : PyM α} {Mid : α → World → Prop} {Err : World → Prop} {f g : α → PyM β} {Post : β → World → Prop}
    (h1 : Agree Pre x y Mid Err) (h2 : ∀ a, Agree (Mid a) (f a) (g a) Post Err) : Agree Pre (x >>= f) (y >>= g) Post Err := by
  intro w hw
  obtain ⟨e1, e2, e3⟩ := h1 w hw
  rw [py_bind, py_bind, ← e1]
  rcases h : x w with ⟨r, w'⟩
  cases r with
  | ok a => exact h2 a w' (e2 a w' h)
  | error e =>
    refine ⟨rfl, fun a w'' h' => (by cases h'), fun e' w'' h' => ?_⟩
    cases h'
    exact e3 e w' h

theorem Agree.mono {α : Type} {Pre Pre' : World → Prop} {x y : PyM α} {Mid Mid' : α → World → Prop} {Err Err' : World → Prop} (h : Agree Pre x y Mid Err)
    (h1 : ∀ w, Pre' w → Pre w) (h2 : ∀ a w, Mid a w → Mid' a w) (h3 : ∀ w, Err w → Err' w) : Agree Pre' x y Mid' Err' := by
  intro w hw
  obtain ⟨e1, e2, e3⟩ := h w (h1 w hw)
  exact ⟨e1, fun a w' h' => h2 a w' (e2 a w' h'), fun e w' h' => h3 w' (e3 e w' h')⟩

theorem Agree.pure {α : Type} {Inv : World → Prop} (a : α) : Agree Inv (pure a : PyM α) (pure a) (fun _ => Inv) Inv := by
  intro w hw
  refine ⟨rfl, fun a' w' h => ?_, fun e w' h => ?_⟩
  · cases h; exact hw
  · cases h

theorem Agree.lift {α : Type} {Inv : World → Prop} (x : Except PyErr α) : Agree Inv (PyM.lift x) (PyM.lift x) (fun _ => Inv) Inv := by
  intro w hw
  refine ⟨rfl, fun a' w' h => ?_, fun e w' h => ?_⟩ <;> cases h <;> exact hw

theorem Agree.checkpoint {Inv : World → Prop} (e : Env) (k : ℕ) : Agree Inv (checkpoint e k) (checkpoint e k) (fun _ => Inv) Inv := by
  intro w hw
  refine ⟨rfl, fun a' w' h => ?_, fun e' w' h => ?_⟩
  · have e1 : w = w' := congrArg Prod.snd h
    rw [← e1]; exact hw
  · have e1 : w = w' := congrArg Prod.snd h
    rw [← e1]; exact hw

theorem Agree.self {Inv : World → Prop} (i : ℕ) : Agree Inv (self i) (self i) (fun _ => Inv) Inv := by
  intro w hw
  refine ⟨rfl, fun a' w' h => ?_, fun e' w' h => ?_⟩
  · have e1 : w = w' := congrArg Prod.snd h
    rw [← e1]; exact hw
  · have e1 : w = w' := congrArg Prod.snd h
    rw [← e1]; exact hw

/-! ### the invariant -/

theorem starmap_inv {α β : Type} {p : PoolArg} {f : α → Except PyErr β} {ls : List α} {out : List β} [hβ : Nonempty β] (hp : p.Works ls.length) (h : starmap p f ls = .ok out) :
    ∃ g : α → β, (∀ x ∈ ls, f x = .ok (g x)) ∧ out = ls.map g := by
  have h0 := h
  unfold starmap at h
  rw [bind_ok] at h
  obtain ⟨o, h1, -⟩ := h
  have hne : ¬ ∃ x ∈ ls, ∃ e, f x = .error e := by
    intro hx
    obtain ⟨e, he⟩ := (C64_starmap_raises f ls p hp).1.2 hx
    rw [h1] at he
    cases he
  have hex : ∀ x ∈ ls, ∃ y, f x = .ok y := by
    intro x hx
    cases hf : f x with
    | ok y => exact ⟨y, rfl⟩
    | error e => exact absurd ⟨x, hx, e, hf⟩ hne
  classical
  obtain ⟨y0⟩ := hβ
  have : ∃ g : α → β, ∀ x ∈ ls, f x = .ok (g x) := by
    refine ⟨fun x => if h : ∃ y, f x = .ok y then h.choose else y0, fun x hx => ?_⟩
    have hx' := hex x hx
    simp only [dif_pos hx']
    exact hx'.choose_spec
  obtain ⟨g, hg⟩ := this
  have h2 := starmap_ok hp hg
  rw [h0] at h2
  cases h2
  exact ⟨g, hg, rfl⟩

/-- the value does not depend on the pool -/
theorem nu_env {sv : Solvers} {m : LLGP} {e e' : Env} (he : e.Works) (he' : e'.Works) {v : List ℝ} (h : m.nu sv e = .ok v) : m.nu sv e' = .ok v := by
  unfold LLGP.nu at h ⊢
  split_ifs at h ⊢ with hl
  simp only [bind_ok] at h ⊢
  obtain ⟨WW, h1, k, h2, KUU, h3, Wm, h4, KXU, h5, WTm, h6, KUX, h7, h8⟩ := h
  refine ⟨WW, h1, k, h2, KUU, h3, Wm, h4, KXU, h5, WTm, h6, KUX, h7, ?_⟩
  obtain ⟨g, hg, rfl⟩ := starmap_inv (by rw [List.length_range]; exact he _) h8
  exact starmap_ok (by rw [List.length_range]; exact he' _) hg

/-- every cached value is what the method returns for the object it belongs to -/
structure CachesOK (sv : Solvers) (w : World) : Prop where
  dense : ∀ j v, w.caches.dense = some (j, v) → ∃ m, w.heap j = some m ∧ m.dense = .ok v
  gridAlpha : ∀ j v, w.caches.gridAlpha = some (j, v) → ∃ m, w.heap j = some m ∧ m.gridAlpha = .ok v
  nativeVariance : ∀ j v, w.caches.nativeVariance = some (j, v) → ∃ m, w.heap j = some m ∧ m.nativeVariance = .ok v
  nu : ∀ j v, w.caches.nu = some (j, v) → ∃ m, w.heap j = some m ∧ ∀ e : Env, e.Works → m.nu sv e = .ok v

theorem cachesOK_empty {sv : Solvers} {w : World} (h : w.caches = Caches.empty) : CachesOK sv w := by
  constructor <;> intro j v hj <;> rw [h] at hj <;> cases hj

/-- a cached call: with a valid entry the cache makes no difference -/
theorem Agree.cached {sv : Solvers} {α : Type} (get : Caches → Option (ℕ × α)) (set : Option (ℕ × α) → Caches → Caches) (compute : LLGP → Except PyErr α) (i : ℕ)
    (hget : ∀ w, CachesOK sv w → ∀ j v, get w.caches = some (j, v) → ∃ m, w.heap j = some m ∧ compute m = .ok v)
    (hset : ∀ w, CachesOK sv w → ∀ m v, w.heap i = some m → compute m = .ok v → CachesOK sv { w with caches := set (some (i, v)) w.caches })
    (hself : ∀ c x, get c = some x → set (some x) c = c) (u u' : Bool) :
    Agree (CachesOK sv) (cachedCall u get set compute i) (cachedCall u' get set compute i) (fun _ => CachesOK sv) (CachesOK sv) := by
  have key : ∀ u w, CachesOK sv w → cachedCall u get set compute i w =
      match w.heap i with
      | none => (.error .runtimeError, w)
      | some m => match compute m with
        | .ok v => (.ok v, { w with caches := set (some (i, v)) w.caches })
        | .error e => (.error e, w) := by
    intro u w hw
    unfold cachedCall
    cases hm : w.heap i with
    | none => rfl
    | some m =>
      simp only
      cases hg : get w.caches with
      | none => rfl
      | some jv =>
        obtain ⟨j, v⟩ := jv
        simp only
        split_ifs with hu
        · obtain ⟨m', h1, h2⟩ := hget w hw j v hg
          rw [hu.2, hm] at h1
          cases h1
          rw [h2]
          simp only
          rw [← hu.2, hself w.caches (j, v) hg]
        · rfl
  intro w hw
  rw [key u w hw, key u' w hw]
  refine ⟨rfl, fun a w' h => ?_, fun e w' h => ?_⟩
  · cases hm : w.heap i with
    | none => rw [hm] at h; cases h
    | some m =>
      rw [hm] at h
      simp only at h
      cases hc : compute m with
      | error e => rw [hc] at h; cases h
      | ok v =>
        rw [hc] at h
        cases h
        exact hset w hw m _ hm hc
  · cases hm : w.heap i with
    | none => rw [hm] at h; cases h; exact hw
    | some m =>
      rw [hm] at h
      simp only at h
      cases hc : compute m with
      | error e => rw [hc] at h; cases h; exact hw
      | ok v => rw [hc] at h; cases h

theorem Agree.dense (sv : Solvers) (u u' : Bool) (i : ℕ) : Agree (CachesOK sv) (denseM u i) (denseM u' i) (fun _ => CachesOK sv) (CachesOK sv) := by
  refine Agree.cached _ _ _ _ (fun w h => h.dense) (fun w h m v hm hv => ⟨?_, h.gridAlpha, h.nativeVariance, h.nu⟩) (fun c x h => ?_) u u'
  · intro j v' hj
    cases hj
    exact ⟨m, hm, hv⟩
  · simp only [← h]

theorem Agree.gridAlpha (sv : Solvers) (u u' : Bool) (i : ℕ) : Agree (CachesOK sv) (gridAlphaM u i) (gridAlphaM u' i) (fun _ => CachesOK sv) (CachesOK sv) := by
  refine Agree.cached _ _ _ _ (fun w h => h.gridAlpha) (fun w h m v hm hv => ⟨h.dense, ?_, h.nativeVariance, h.nu⟩) (fun c x h => ?_) u u'
  · intro j v' hj
    cases hj
    exact ⟨m, hm, hv⟩
  · simp only [← h]

theorem Agree.nativeVariance (sv : Solvers) (u u' : Bool) (i : ℕ) :
    Agree (CachesOK sv) (nativeVarianceM u i) (nativeVarianceM u' i) (fun _ => CachesOK sv) (CachesOK sv) := by
  refine Agree.cached _ _ _ _ (fun w h => h.nativeVariance) (fun w h m v hm hv => ⟨h.dense, h.gridAlpha, ?_, h.nu⟩) (fun c x h => ?_) u u'
  · intro j v' hj
    cases hj
    exact ⟨m, hm, hv⟩
  · simp only [← h]

theorem Agree.nu (sv : Solvers) {e : Env} (he : e.Works) (u u' : Bool) (i : ℕ) :
    Agree (CachesOK sv) (nuM u sv e i) (nuM u' sv e i) (fun _ => CachesOK sv) (CachesOK sv) := by
  refine Agree.cached _ _ _ _ (fun w h j v hj => ?_) (fun w h m v hm hv => ⟨h.dense, h.gridAlpha, h.nativeVariance, ?_⟩) (fun c x h => ?_) u u'
  · obtain ⟨m, h1, h2⟩ := h.nu j v hj
    exact ⟨m, h1, h2 e he⟩
  · intro j v' hj
    cases hj
    exact ⟨m, hm, fun e' he' => nu_env he he' hv⟩
  · simp only [← h]

/-- changing attributes that no cached method reads -/
theorem Agree.modify (sv : Solvers) (i : ℕ) (f : LLGP → LLGP) (h1 : ∀ m, (f m).dense = m.dense) (h2 : ∀ m, (f m).gridAlpha = m.gridAlpha)
    (h3 : ∀ m, (f m).nativeVariance = m.nativeVariance) (h4 : ∀ m e, (f m).nu sv e = m.nu sv e) :
    Agree (CachesOK sv) (modifySelf i f) (modifySelf i f) (fun _ => CachesOK sv) (CachesOK sv) := by
  intro w hw
  have hh : ∀ j m, w.heap j = some m → ∃ m', (if j = i then (w.heap i).map f else w.heap j) = some m' ∧ (m' = m ∨ m' = f m) := by
    intro j m hj
    by_cases e : j = i
    · subst e
      rw [if_pos rfl, hj]
      exact ⟨f m, rfl, .inr rfl⟩
    · rw [if_neg e]
      exact ⟨m, hj, .inl rfl⟩
  have inv : CachesOK sv { w with heap := fun j => if j = i then (w.heap i).map f else w.heap j } := by
    constructor
    · intro j v hj
      obtain ⟨m, a, b⟩ := hw.dense j v hj
      obtain ⟨m', c, d⟩ := hh j m a
      refine ⟨m', c, ?_⟩
      rcases d with rfl | rfl
      · exact b
      · rw [h1]; exact b
    · intro j v hj
      obtain ⟨m, a, b⟩ := hw.gridAlpha j v hj
      obtain ⟨m', c, d⟩ := hh j m a
      refine ⟨m', c, ?_⟩
      rcases d with rfl | rfl
      · exact b
      · rw [h2]; exact b
    · intro j v hj
      obtain ⟨m, a, b⟩ := hw.nativeVariance j v hj
      obtain ⟨m', c, d⟩ := hh j m a
      refine ⟨m', c, ?_⟩
      rcases d with rfl | rfl
      · exact b
      · rw [h3]; exact b
    · intro j v hj
      obtain ⟨m, a, b⟩ := hw.nu j v hj
      obtain ⟨m', c, d⟩ := hh j m a
      refine ⟨m', c, ?_⟩
      rcases d with rfl | rfl
      · exact b
      · intro e he
        rw [h4]; exact b e he
  refine ⟨rfl, fun a w' h => ?_, fun e w' h => ?_⟩
  · cases h
    exact inv
  · cases h

/-! ### `parameters_changed` -/

theorem Agree.logLikelihood (sv : Solvers) (u u' : Bool) (i : ℕ) : Agree (CachesOK sv) (logLikelihoodM u i) (logLikelihoodM u' i) (fun _ => CachesOK sv) (CachesOK sv) :=
  (Agree.dense sv u u' i).bind fun _ => (Agree.self i).bind fun _ => Agree.lift _

theorem Agree.logDet (sv : Solvers) (u u' : Bool) (i : ℕ) : Agree (CachesOK sv) (logDetM u i) (logDetM u' i) (fun _ => CachesOK sv) (CachesOK sv) :=
  (Agree.dense sv u u' i).bind fun _ => Agree.pure _

theorem Agree.normalQuadratic (sv : Solvers) (i : ℕ) : Agree (CachesOK sv) (normalQuadraticM i) (normalQuadraticM i) (fun _ => CachesOK sv) (CachesOK sv) :=
  (Agree.self i).bind fun _ => Agree.lift _

theorem Agree.debugMessages (sv : Solvers) (u u' : Bool) (e : Env) (i : ℕ) :
    Agree (CachesOK sv) (debugMessages u e i) (debugMessages u' e i) (fun _ => CachesOK sv) (CachesOK sv) := by
  unfold Verif.debugMessages
  split_ifs
  · exact (Agree.logLikelihood sv u u' i).bind fun _ => (Agree.normalQuadratic sv i).bind fun _ => (Agree.logDet sv u u' i).bind fun _ => Agree.pure _
  · exact Agree.pure _

theorem Agree.storeGradient (sv : Solvers) (i : ℕ) : Agree (CachesOK sv) (storeGradient i) (storeGradient i) (fun _ => CachesOK sv) (CachesOK sv) :=
  (Agree.self i).bind fun _ => (Agree.lift _).bind fun _ => (Agree.lift _).bind fun _ =>
    Agree.modify sv i _ (fun _ => rfl) (fun _ => rfl) (fun _ => rfl) (fun _ _ => rfl)

theorem Agree.withMetrics (sv : Solvers) (i : ℕ) (f : LLGP → Option Metrics) :
    Agree (CachesOK sv) (modifySelf i fun m => m.withMetrics (f m)) (modifySelf i fun m => m.withMetrics (f m)) (fun _ => CachesOK sv) (CachesOK sv) :=
  Agree.modify sv i _ (fun _ => rfl) (fun _ => rfl) (fun _ => rfl) (fun _ _ => rfl)

theorem Agree.recordMetrics (sv : Solvers) (u u' : Bool) (e : Env) (i : ℕ) :
    Agree (CachesOK sv) (recordMetrics u e i) (recordMetrics u' e i) (fun _ => CachesOK sv) (CachesOK sv) := by
  unfold Verif.recordMetrics
  refine (Agree.self i).bind fun m => ?_
  cases m.metrics with
  | none => exact Agree.pure _
  | some x =>
    exact (Agree.lift _).bind fun _ => (Agree.dense sv u u' i).bind fun _ => (Agree.lift _).bind fun _ => (Agree.lift _).bind fun _ => (Agree.lift _).bind fun _ =>
      (Agree.withMetrics sv i _).bind fun _ => (Agree.checkpoint e 5).bind fun _ => (Agree.logLikelihood sv u u' i).bind fun _ => Agree.withMetrics sv i _

/-- the caches are empty -/
def Emptied (w : World) : Prop := w.caches = Caches.empty

theorem Agree.modifyEmptied (i : ℕ) (f : LLGP → LLGP) : Agree Emptied (modifySelf i f) (modifySelf i f) (fun _ => Emptied) Emptied := by
  intro w hw
  refine ⟨rfl, fun a w' h => ?_, fun e w' h => ?_⟩
  · cases h
    exact hw
  · cases h

theorem Agree.replaceKernel (sv : Solvers) (e : Env) (i : ℕ) : Agree Emptied (replaceKernel sv e i) (replaceKernel sv e i) (fun _ => Emptied) Emptied :=
  (Agree.self i).bind fun _ => (Agree.checkpoint e 0).bind fun _ => (Agree.lift _).bind fun _ => (Agree.checkpoint e 1).bind fun _ => (Agree.lift _).bind fun _ =>
    (Agree.modifyEmptied i _).bind fun _ => (Agree.checkpoint e 2).bind fun _ => (Agree.lift _).bind fun _ => Agree.modifyEmptied i _

theorem Agree.clearCaches : Agree (fun _ => True) clearCaches clearCaches (fun _ => Emptied) Emptied := by
  intro w _
  refine ⟨rfl, fun a w' h => ?_, fun e w' h => ?_⟩
  · cases h
    rfl
  · cases h

theorem Agree.parametersChanged (sv : Solvers) (u u' : Bool) (e : Env) (i : ℕ) :
    Agree (fun _ => True) (parametersChanged u sv e i) (parametersChanged u' sv e i) (fun _ => CachesOK sv) (CachesOK sv) := by
  have hE : ∀ w, Emptied w → CachesOK sv w := fun w h => cachesOK_empty h
  refine (Agree.clearCaches.mono (fun _ h => h) (fun _ _ h => h) hE).bind fun _ => ?_
  refine ((Agree.replaceKernel sv e i).mono (fun _ h => h) (fun _ => hE) hE).bind fun _ => ?_
  exact (Agree.checkpoint e 3).bind fun _ => (Agree.debugMessages sv u u' e i).bind fun _ => (Agree.storeGradient sv i).bind fun _ => (Agree.checkpoint e 4).bind fun _ =>
    Agree.recordMetrics sv u u' e i

/-! ### the public methods -/

theorem Agree.ensureKernel (sv : Solvers) (u u' : Bool) (e : Env) (i : ℕ) :
    Agree (CachesOK sv) (ensureKernel u sv e i) (ensureKernel u' sv e i) (fun _ => CachesOK sv) (CachesOK sv) := by
  refine (Agree.self i).bind fun m => ?_
  cases m.kernel with
  | none => exact (Agree.parametersChanged sv u u' e i).mono (fun _ _ => trivial) (fun _ _ h => h) (fun _ h => h)
  | some k => exact Agree.pure _

theorem Agree.explained (sv : Solvers) (u u' : Bool) {e : Env} (he : e.Works) (i : ℕ) (m : LLGP) (Xs : List (Arr2 ℝ)) (Ws : List (List ℕ × Arr2 ℝ)) :
    Agree (CachesOK sv) (explainedM u sv e i m Xs Ws) (explainedM u' sv e i m Xs Ws) (fun _ => CachesOK sv) (CachesOK sv) := by
  unfold explainedM
  cases m.prediction with
  | exact => exact (Agree.dense sv u u' i).bind fun _ => Agree.lift _
  | precompute => exact (Agree.nu sv he u u' i).bind fun _ => Agree.lift _
  | onTheFly => exact Agree.lift _

theorem Agree.rawPredict (sv : Solvers) (u u' : Bool) {e : Env} (he : e.Works) (i : ℕ) (Xs : List (Arr2 ℝ)) :
    Agree (CachesOK sv) (rawPredictM u sv e i Xs) (rawPredictM u' sv e i Xs) (fun _ => CachesOK sv) (CachesOK sv) :=
  (Agree.ensureKernel sv u u' e i).bind fun _ => (Agree.gridAlpha sv u u' i).bind fun _ => (Agree.nativeVariance sv u u' i).bind fun _ => (Agree.self i).bind fun m =>
    (Agree.lift _).bind fun _ => (Agree.explained sv u u' he i m Xs _).bind fun _ => Agree.lift _

theorem Agree.callRaw {α : Type} (sv : Solvers) (u u' : Bool) {e : Env} (he : e.Works) (i : ℕ) (Xs : List (Arr2 ℝ)) (method : Except PyErr Predicted → Except PyErr α) :
    Agree (CachesOK sv) (callRaw u sv e i Xs method) (callRaw u' sv e i Xs method) (fun _ => CachesOK sv) (CachesOK sv) := by
  intro w hw
  obtain ⟨h1, h2, h3⟩ := Agree.rawPredict sv u u' he i Xs w hw
  have hinv : CachesOK sv (rawPredictM u sv e i Xs w).2 := by
    rcases h : rawPredictM u sv e i Xs w with ⟨r, w'⟩
    cases r with
    | ok a => exact h2 a w' h
    | error x => exact h3 x w' h
  refine ⟨?_, fun a w' h => ?_, fun x w' h => ?_⟩
  · unfold Verif.callRaw
    rw [h1]
  · have e1 : (rawPredictM u sv e i Xs w).2 = w' := congrArg Prod.snd h
    rw [← e1]; exact hinv
  · have e1 : (rawPredictM u sv e i Xs w).2 = w' := congrArg Prod.snd h
    rw [← e1]; exact hinv

theorem Agree.publicPredict {α : Type} (sv : Solvers) (u u' : Bool) {e : Env} (he : e.Works) (i : ℕ)
    (method : MultiGP → (List (Arr2 ℝ) → Except PyErr Predicted) → Except PyErr α) (Xs : List (NDArr ℝ)) :
    Agree (CachesOK sv) (publicPredict u sv e i method Xs) (publicPredict u' sv e i method Xs) (fun _ => CachesOK sv) (CachesOK sv) := by
  refine (Agree.self i).bind fun m => ?_
  cases padDims m.gp.inputDim Xs with
  | error x => exact Agree.lift _
  | ok Xs' =>
    by_cases hq : m.gp.queriesFit Xs'
    · simp only [if_pos hq]
      exact Agree.callRaw sv u u' he i Xs' _
    · simp only [if_neg hq]
      exact Agree.lift _

theorem Agree.ask (sv : Solvers) (u u' : Bool) {e : Env} (he : e.Works) (i : ℕ) (q : Query) :
    Agree (CachesOK sv) (askM u sv e i q) (askM u' sv e i q) (fun _ => CachesOK sv) (CachesOK sv) := by
  cases q with
  | predict Xs => exact (Agree.publicPredict sv u u' he i _ Xs).bind fun _ => Agree.pure _
  | quantiles Xs qs => exact (Agree.publicPredict sv u u' he i _ Xs).bind fun _ => Agree.pure _
  | covariance => exact (Agree.dense sv u u' i).bind fun _ => Agree.pure _
  | logDet => exact (Agree.logDet sv u u' i).bind fun _ => Agree.pure _
  | normalQuadratic => exact (Agree.normalQuadratic sv i).bind fun _ => Agree.pure _
  | logLikelihood => exact (Agree.logLikelihood sv u u' i).bind fun _ => Agree.pure _

theorem Agree.op (sv : Solvers) (u u' : Bool) {op : Op} (ho : op.Works) :
    Agree (CachesOK sv) (execOp u sv op) (execOp u' sv op) (fun _ => CachesOK sv) (CachesOK sv) := by
  cases op with
  | new a e =>
    refine (Agree.lift _).bind fun m => ?_
    have halloc : Agree (CachesOK sv) (allocate m) (allocate m) (fun _ _ => True) (CachesOK sv) := by
      intro w hw
      refine ⟨rfl, fun a w' h => trivial, fun e w' h => (by cases h)⟩
    exact halloc.bind fun i => (Agree.parametersChanged sv u u' e i).bind fun _ => Agree.pure _
  | set i fk e =>
    have hset : Agree (CachesOK sv) (modifySelf i fun m => { m with fk := fk }) (modifySelf i fun m => { m with fk := fk }) (fun _ _ => True) (CachesOK sv) := by
      intro w hw
      refine ⟨rfl, fun a w' h => trivial, fun e w' h => (by cases h)⟩
    exact hset.bind fun _ => (Agree.parametersChanged sv u u' e i).bind fun _ => Agree.pure _
  | optimize i => exact (Agree.withMetrics sv i _).bind fun _ => Agree.pure _
  | ask i q e => exact Agree.ask sv u u' (ho e rfl) i q

theorem history_agree (sv : Solvers) (u u' : Bool) : ∀ (ops : List Op), (∀ op ∈ ops, op.Works) → ∀ w, CachesOK sv w →
    history u sv ops w = history u' sv ops w ∧ CachesOK sv (history u sv ops w).2
  | [], _, w, hw => ⟨rfl, hw⟩
  | op :: ops, ho, w, hw => by
    obtain ⟨h1, h2, h3⟩ := Agree.op sv u u' (ho op (by simp)) w hw
    have hinv : CachesOK sv (execOp u sv op w).2 := by
      rcases h : execOp u sv op w with ⟨r, w'⟩
      cases r with
      | ok a => exact h2 a w' h
      | error x => exact h3 x w' h
    obtain ⟨h4, h5⟩ := history_agree sv u u' ops (fun o h => ho o (by simp [h])) _ hinv
    refine ⟨?_, h5⟩
    simp only [history]
    rw [← h1, h4]

end Verif
