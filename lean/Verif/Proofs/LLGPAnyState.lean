import Verif.Proofs.LLGPHistory

/-! The shape of predictions in every state a program can reach. -/

namespace Verif

/-- `x` does not change the data of any model, whether it returns or raises -/
def KeepsGP {α : Type} (x : PyM α) : Prop := ∀ w j, ((x w).2.heap j).map LLGP.gp = (w.heap j).map LLGP.gp

theorem KeepsGP.of_keeps {α : Type} {x : PyM α} (h : Keeps x) : KeepsGP x := by
  intro w j
  have := (h w).2 j
  revert this
  cases (x w).2.heap j with
  | none =>
    cases w.heap j with
    | none => intro _; rfl
    | some m => intro h; cases h
  | some m' =>
    cases w.heap j with
    | none => intro h; cases h
    | some m =>
      intro h
      have : m'.core = m.core := Option.some.inj h
      exact congrArg some (show m'.core.gp = m.core.gp by rw [this])

theorem KeepsGP.bind {α β : Type} {x : PyM α} {f : α → PyM β} (h1 : KeepsGP x) (h2 : ∀ a, KeepsGP (f a)) : KeepsGP (x >>= f) := by
  intro w j
  rw [py_bind]
  have := h1 w j
  rcases h : x w with ⟨r, w'⟩
  rw [h] at this
  cases r with
  | error e => exact this
  | ok a => exact (h2 a w' j).trans this

theorem KeepsGP.modify (i : ℕ) (f : LLGP → LLGP) (h : ∀ m, (f m).gp = m.gp) : KeepsGP (modifySelf i f) := by
  intro w j
  show (if j = i then (w.heap i).map f else w.heap j).map LLGP.gp = _
  by_cases e : j = i
  · rw [if_pos e, e]
    cases w.heap i with
    | none => rfl
    | some m => exact congrArg some (h m)
  · rw [if_neg e]

theorem KeepsGP.pure {α : Type} (a : α) : KeepsGP (pure a : PyM α) := .of_keeps (Keeps.pure a)
theorem KeepsGP.lift {α : Type} (x : Except PyErr α) : KeepsGP (PyM.lift x) := .of_keeps (Keeps.lift x)
theorem KeepsGP.self (i : ℕ) : KeepsGP (self i) := .of_keeps (Keeps.self i)
theorem KeepsGP.checkpoint (e : Env) (k : ℕ) : KeepsGP (checkpoint e k) := .of_keeps (Keeps.checkpoint e k)
theorem KeepsGP.cached {α : Type} (u : Bool) (get : Caches → Option (ℕ × α)) (set : Option (ℕ × α) → Caches → Caches) (compute : LLGP → Except PyErr α) (i : ℕ) :
    KeepsGP (cachedCall u get set compute i) := .of_keeps (Keeps.cached u get set compute i)

theorem KeepsGP.replace (sv : Solvers) (e : Env) (i : ℕ) : KeepsGP (replaceKernel sv e i) := by
  unfold replaceKernel
  refine (KeepsGP.self i).bind fun _ => (KeepsGP.checkpoint e 0).bind fun _ => (KeepsGP.lift _).bind fun _ => (KeepsGP.checkpoint e 1).bind fun _ =>
    (KeepsGP.lift _).bind fun _ => KeepsGP.bind (KeepsGP.modify i _ ?_) fun _ => (KeepsGP.checkpoint e 2).bind fun _ => (KeepsGP.lift _).bind fun _ =>
      KeepsGP.modify i _ ?_
  · intro m; rfl
  · intro m; rfl

theorem KeepsGP.parametersChanged (u : Bool) (sv : Solvers) (e : Env) (i : ℕ) : KeepsGP (parametersChanged u sv e i) :=
  (KeepsGP.of_keeps Keeps.clear).bind fun _ => (KeepsGP.replace sv e i).bind fun _ => (KeepsGP.checkpoint e 3).bind fun _ =>
    (KeepsGP.of_keeps (Keeps.debug u e i)).bind fun _ => (KeepsGP.of_keeps (Keeps.store i)).bind fun _ => (KeepsGP.checkpoint e 4).bind fun _ =>
      KeepsGP.of_keeps (Keeps.record u e i)

theorem KeepsGP.rawPredict (u : Bool) (sv : Solvers) (e : Env) (i : ℕ) (Xs : List (Arr2 ℝ)) : KeepsGP (rawPredictM u sv e i Xs) := by
  unfold rawPredictM ensureKernel
  refine KeepsGP.bind ((KeepsGP.self i).bind fun m => ?_) fun _ => (KeepsGP.cached u _ _ _ i).bind fun _ => (KeepsGP.cached u _ _ _ i).bind fun _ =>
    (KeepsGP.self i).bind fun m => (KeepsGP.lift _).bind fun _ => KeepsGP.bind ?_ fun _ => KeepsGP.lift _
  · cases m.kernel with
    | none => exact KeepsGP.parametersChanged u sv e i
    | some k => exact KeepsGP.pure _
  · unfold explainedM
    cases m.prediction with
    | exact => exact (KeepsGP.cached u _ _ _ i).bind fun _ => KeepsGP.lift _
    | precompute => exact (KeepsGP.cached u _ _ _ i).bind fun _ => KeepsGP.lift _
    | onTheFly => exact KeepsGP.lift _

theorem KeepsGP.publicPredict {α : Type} (u : Bool) (sv : Solvers) (e : Env) (i : ℕ)
    (method : MultiGP → (List (Arr2 ℝ) → Except PyErr Predicted) → Except PyErr α) (Xs : List (NDArr ℝ)) : KeepsGP (publicPredict u sv e i method Xs) := by
  unfold Verif.publicPredict
  refine (KeepsGP.self i).bind fun m => ?_
  cases padDims m.gp.inputDim Xs with
  | error x => exact KeepsGP.lift _
  | ok Xs' =>
    simp only
    split_ifs
    · exact fun w j => KeepsGP.rawPredict u sv e i Xs' w j
    · exact KeepsGP.lift _

theorem KeepsGP.ask (u : Bool) (sv : Solvers) (e : Env) (i : ℕ) (q : Query) : KeepsGP (askM u sv e i q) := by
  cases q with
  | predict Xs => exact (KeepsGP.publicPredict u sv e i _ Xs).bind fun _ => KeepsGP.pure _
  | quantiles Xs qs => exact (KeepsGP.publicPredict u sv e i _ Xs).bind fun _ => KeepsGP.pure _
  | covariance => exact (KeepsGP.cached u _ _ _ i).bind fun _ => KeepsGP.pure _
  | logDet => exact ((KeepsGP.cached u _ _ _ i).bind fun _ => KeepsGP.pure _).bind fun _ => KeepsGP.pure _
  | normalQuadratic => exact ((KeepsGP.self i).bind fun _ => KeepsGP.lift _).bind fun _ => KeepsGP.pure _
  | logLikelihood => exact ((KeepsGP.cached u _ _ _ i).bind fun _ => (KeepsGP.self i).bind fun _ => KeepsGP.lift _).bind fun _ => KeepsGP.pure _

/-- every model was made by the constructor -/
def AllMade (w : World) : Prop := ∀ j m, w.heap j = some m → GPReady m.gp ∧ 0 < m.gp.outputDim

theorem AllMade.keeps {α : Type} {x : PyM α} (hx : KeepsGP x) {w : World} (h : AllMade w) : AllMade (x w).2 := by
  intro j m hm
  have := hx w j
  rw [hm] at this
  cases hw : w.heap j with
  | none => rw [hw] at this; cases this
  | some m' =>
    rw [hw] at this
    have e : m.gp = m'.gp := Option.some.inj this
    rw [e]
    exact h j m' hw

theorem multiGP_outputs {Xs Ys : List (NDArr ℝ)} {n : Bool} {gp : MultiGP} (h : multiGPNew Xs Ys n = .ok gp) : GPReady gp ∧ 0 < gp.outputDim := by
  obtain ⟨h1, h2⟩ := gpReady_of_new h
  refine ⟨h1, ?_⟩
  rw [h2]
  unfold multiGPNew at h
  rw [bind_ok] at h
  obtain ⟨pd, h, -⟩ := h
  unfold validateIO at h
  by_cases c : Xs = []
  · rw [if_pos c] at h; cases h
  · exact List.length_pos_iff.2 c

theorem AllMade.op {u : Bool} {sv : Solvers} {w : World} (h : AllMade w) (op : Op) : AllMade (execOp u sv op w).2 := by
  cases op with
  | new a e =>
    show AllMade ((do
      let m ← PyM.lift (llgpInit a)
      let i ← allocate m
      Verif.parametersChanged u sv e i
      return Answer.model i : PyM Answer) w).2
    rw [py_bind, lift_run]
    cases hm : llgpInit a with
    | error x => exact h
    | ok m =>
      simp only
      rw [py_bind]
      unfold allocate
      simp only
      refine AllMade.keeps ((KeepsGP.parametersChanged u sv e w.next).bind fun _ => KeepsGP.pure _) fun j m' hm' => ?_
      change (if j = w.next then some m else w.heap j) = some m' at hm'
      by_cases ej : j = w.next
      · rw [if_pos ej] at hm'
        cases hm'
        exact multiGP_outputs (init_fields hm).2.2.2.2.2
      · rw [if_neg ej] at hm'
        exact h j m' hm'
  | set i fk e =>
    exact h.keeps (x := execOp u sv (.set i fk e)) ((KeepsGP.modify i (fun m => { m with fk := fk }) fun _ => rfl).bind fun _ =>
      (KeepsGP.parametersChanged u sv e i).bind fun _ => KeepsGP.pure _)
  | optimize i =>
    unfold execOp
    simp only
    refine h.keeps ((KeepsGP.modify i _ ?_).bind fun _ => KeepsGP.pure _)
    intro m; rfl
  | ask i q e => exact h.keeps (KeepsGP.ask u sv e i q)

theorem AllMade.history {u : Bool} {sv : Solvers} (ops : List Op) : ∀ {w : World}, AllMade w → AllMade (history u sv ops w).2 := by
  induction ops with
  | nil => intro w h; exact h
  | cons op ops ih => intro w h; exact ih (h.op op)

theorem allMade_start : AllMade World.start := fun _ _ h => by cases h

/-! ### the shape of a returned prediction -/

theorem rawM_fits {u : Bool} {sv : Solvers} {e : Env} {i : ℕ} {Xs : List (Arr2 ℝ)} (hne : Xs ≠ []) {w w' : World} {p : Predicted}
    (h : rawPredictM u sv e i Xs w = (.ok p, w')) : PredictionFits p (Xs.map Arr2.rows) := by
  unfold rawPredictM at h
  rw [py_bind_ok] at h
  obtain ⟨_, w1, -, h⟩ := h
  rw [py_bind_ok] at h
  obtain ⟨ga, w2, -, h⟩ := h
  rw [py_bind_ok] at h
  obtain ⟨native, w3, -, h⟩ := h
  rw [py_bind_ok] at h
  obtain ⟨m, w4, -, h⟩ := h
  rw [py_bind_ok] at h
  obtain ⟨wm, w5, h5, h⟩ := h
  rw [py_bind_ok] at h
  obtain ⟨ex, w6, -, h⟩ := h
  rw [lift_run] at h5 h
  exact splitPrediction_fits (by simpa using hne) (predictMean_length (Prod.mk.inj h5).1) (Prod.mk.inj h).1

theorem padDims_ok {P : ℕ} : ∀ {Qs : List (NDArr ℝ)} {Xs : List (Arr2 ℝ)}, padDims P Qs = .ok Xs → (∀ X ∈ Qs, ∃ n, PointsShape X n P) ∧ Xs = padded P Qs := by
  intro Qs
  induction Qs with
  | nil =>
    intro Xs h
    cases h
    exact ⟨(fun X hX => by cases hX), rfl⟩
  | cons Q Qs ih =>
    intro Xs h
    have h' : (do
      let b ← padDim P Q
      let bs ← padDims P Qs
      return b :: bs) = Except.ok Xs := h
    simp only [bind_ok, pure_ok] at h'
    obtain ⟨b, h1, bs, h2, rfl⟩ := h'
    obtain ⟨i1, i2⟩ := ih h2
    obtain ⟨shape, data⟩ := Q
    have hb : (∃ n, PointsShape ⟨shape, data⟩ n P) ∧ b = ⟨shape.headD 0, P, data⟩ := by
      unfold padDim at h1
      simp only at h1
      match shape, h1 with
      | [], h1 => cases h1
      | [n], h1 =>
        simp only at h1
        by_cases c : 1 ≠ P
        · rw [if_pos c] at h1; cases h1
        · rw [if_neg c] at h1
          have c : 1 = P := not_not.1 c
          cases h1
          subst c
          exact ⟨⟨n, .inl ⟨rfl, rfl⟩⟩, rfl⟩
      | [n, k], h1 =>
        simp only at h1
        by_cases c : k ≠ P
        · rw [if_pos c] at h1; cases h1
        · rw [if_neg c] at h1
          have c : k = P := not_not.1 c
          cases h1
          subst c
          exact ⟨⟨n, .inr rfl⟩, rfl⟩
      | _ :: _ :: _ :: _, h1 => cases h1
    refine ⟨fun X hX => ?_, ?_⟩
    · rcases List.mem_cons.1 hX with rfl | hX
      · exact hb.1
      · exact i1 X hX
    · rw [hb.2, i2]
      rfl

theorem predict_raw_ok {gp : MultiGP} {r : Except PyErr Predicted} {Qs : List (NDArr ℝ)} {p : Predicted} (h : gp.predict (fun _ => r) Qs = .ok p) : ∃ p', r = .ok p' := by
  unfold MultiGP.predict at h
  rw [bind_ok] at h
  obtain ⟨Xs, -, h⟩ := h
  unfold MultiGP.predictWith at h
  by_cases c1 : Xs.length ≠ gp.outputDim
  · rw [if_pos c1] at h; cases h
  rw [if_neg c1] at h
  by_cases c2 : ¬ ∀ X ∈ Xs, X.cols = gp.inputDim
  · rw [if_pos c2] at h; cases h
  rw [if_neg c2, bind_ok] at h
  obtain ⟨p', h, -⟩ := h
  exact ⟨p', h⟩

theorem askPredict_fits {u : Bool} {sv : Solvers} {e : Env} {i : ℕ} {Qs : List (NDArr ℝ)} {w w' : World} (hw : AllMade w) {a : Answer}
    (h : askM u sv e i (.predict Qs) w = (.ok a, w')) : ∃ r, a = .predicted r ∧ PredictionFits r (queryLens Qs) := by
  unfold askM at h
  simp only at h
  rw [py_bind_ok] at h
  obtain ⟨r, w1, h1, h2⟩ := h
  obtain ⟨ha, -⟩ := Prod.mk.inj h2
  refine ⟨r, (Except.ok.inj ha).symm, ?_⟩
  unfold publicPredict at h1
  rw [py_bind_ok] at h1
  obtain ⟨m, w2, hm, h1⟩ := h1
  unfold Verif.self at hm
  cases hi : w.heap i with
  | none =>
    rw [hi] at hm
    cases (Prod.mk.inj hm).1
  | some m' =>
    rw [hi] at hm
    obtain ⟨hmm, rfl⟩ := Prod.mk.inj hm
    cases hmm
    obtain ⟨hgp, hpos⟩ := hw i m hi
    cases hp : padDims m.gp.inputDim Qs with
    | error x =>
      rw [hp] at h1
      simp only at h1
      rw [lift_run] at h1
      obtain ⟨p', hp'⟩ := predict_raw_ok (Prod.mk.inj h1).1
      cases hp'
    | ok Xs =>
      rw [hp] at h1
      simp only at h1
      by_cases hq : m.gp.queriesFit Xs
      · rw [if_pos hq] at h1
        unfold callRaw at h1
        obtain ⟨h3, -⟩ := Prod.mk.inj h1
        obtain ⟨p', hp'⟩ := predict_raw_ok h3
        obtain ⟨q1, q2⟩ := padDims_ok hp
        have hlen : Qs.length = m.gp.outputDim := by
          have := hq.1
          rw [q2] at this
          simpa [padded] using this
        have hne : Xs ≠ [] := by
          rintro rfl
          have := hq.1
          simp at this
          omega
        rcases hraw : rawPredictM u sv e i Xs w with ⟨rr, ww⟩
        rw [hraw] at hp' h3
        simp only at hp' h3
        subst hp'
        have hf := rawM_fits hne hraw
        have hl : Xs.map Arr2.rows = queryLens Qs := by
          rw [q2]
          unfold padded queryLens
          rw [List.map_map]
          rfl
        rw [hl] at hf
        obtain ⟨r', r1, r2⟩ := predict_fits m.gp hgp (fun _ => .ok p') Qs ⟨hlen, q1⟩ p' rfl hf
        rw [r1] at h3
        cases h3
        exact r2
      · rw [if_neg hq] at h1
        rw [lift_run] at h1
        obtain ⟨p', hp'⟩ := predict_raw_ok (Prod.mk.inj h1).1
        cases hp'

end Verif
