import Verif.Proofs.LLGPValid

/-! What is left behind by an update that raised. -/

namespace Verif

theorem history_append (u : Bool) (sv : Solvers) (ops : List Op) : ∀ (ops' : List Op) (w : World), history u sv (ops ++ ops') w =
    ((history u sv ops w).1 ++ (history u sv ops' (history u sv ops w).2).1, (history u sv ops' (history u sv ops w).2).2) := by
  induction ops with
  | nil => intro ops' w; rfl
  | cons op ops ih =>
    intro ops' w
    simp only [List.cons_append, history]
    rw [ih]

theorem history_two (u : Bool) (sv : Solvers) (op op' : Op) (w : World) : (history u sv [op, op'] w).1 = [(execOp u sv op w).1, (execOp u sv op' (execOp u sv op w).2).1] := rfl

/-! ### means of the old, variances of the new parameters -/

theorem splitPrediction_mix {lens : List ℕ} {m₁ n₁ e₁ m₂ n₂ e₂ : List ℝ} {p₁ p₂ : Predicted} (h₁ : splitPrediction lens m₁ n₁ e₁ = .ok p₁)
    (h₂ : splitPrediction lens m₂ n₂ e₂ = .ok p₂) : splitPrediction lens m₁ n₂ e₂ = .ok (p₁.1, p₂.2) := by
  unfold splitPrediction at h₁ h₂ ⊢
  simp only at h₁ h₂ ⊢
  split_ifs at h₁ h₂ ⊢
  cases h₁
  cases h₂
  rfl

theorem denormalize_mix {norms : List Norm} {p₁ p₂ r₁ r₂ : Predicted} (h₁ : denormalize norms p₁ = .ok r₁) (h₂ : denormalize norms p₂ = .ok r₂) :
    denormalize norms (p₁.1, p₂.2) = .ok (r₁.1, r₂.2) := by
  unfold denormalize at h₁ h₂ ⊢
  simp only [bind_ok, pure_ok] at h₁ h₂ ⊢
  obtain ⟨mu₁, a1, v₁, a2, rfl⟩ := h₁
  obtain ⟨mu₂, b1, v₂, b2, rfl⟩ := h₂
  exact ⟨mu₁, a1, v₂, b2, rfl⟩

theorem predict_mix {gp : MultiGP} {raw₁ raw₂ raw₃ : List (Arr2 ℝ) → Except PyErr Predicted} {Qs : List (NDArr ℝ)} {r₁ r₂ : Predicted}
    (h : ∀ Xs p₁ p₂, raw₁ Xs = .ok p₁ → raw₂ Xs = .ok p₂ → raw₃ Xs = .ok (p₁.1, p₂.2)) (h₁ : gp.predict raw₁ Qs = .ok r₁) (h₂ : gp.predict raw₂ Qs = .ok r₂) :
    gp.predict raw₃ Qs = .ok (r₁.1, r₂.2) := by
  unfold MultiGP.predict at h₁ h₂ ⊢
  rw [bind_ok] at h₁ h₂ ⊢
  obtain ⟨Xs, x1, h₁⟩ := h₁
  obtain ⟨Xs', x2, h₂⟩ := h₂
  rw [x1] at x2
  cases x2
  refine ⟨Xs, x1, ?_⟩
  unfold MultiGP.predictWith at h₁ h₂ ⊢
  by_cases c1 : Xs.length ≠ gp.outputDim
  · rw [if_pos c1] at h₁; cases h₁
  rw [if_neg c1] at h₁ h₂ ⊢
  by_cases c2 : ¬ ∀ X ∈ Xs, X.cols = gp.inputDim
  · rw [if_pos c2] at h₁; cases h₁
  rw [if_neg c2] at h₁ h₂ ⊢
  rw [bind_ok] at h₁ h₂ ⊢
  obtain ⟨p₁, a1, h₁⟩ := h₁
  obtain ⟨p₂, a2, h₂⟩ := h₂
  refine ⟨_, h Xs p₁ p₂ a1 a2, ?_⟩
  cases hn : gp.normalizer with
  | none =>
    rw [hn] at h₁ h₂
    simp only [pure_ok] at h₁ h₂ ⊢
    rw [h₁, h₂]
  | some norms =>
    rw [hn] at h₁ h₂
    simp only at h₁ h₂ ⊢
    by_cases c : norms ≠ [] ∧ True
    · rw [if_pos c] at h₁ h₂ ⊢
      exact denormalize_mix h₁ h₂
    · rw [if_neg c] at h₁ h₂ ⊢
      simp only [pure_ok] at h₁ h₂ ⊢
      rw [h₁, h₂]

/-- a model with the `kernel` attribute of `m₁` and the parameters of `m₂`, in `'exact'` mode: means of the one, variances of the other -/
theorem raw_mix {sv : Solvers} {e : Env} {m₁ m₂ m₃ : LLGP} (g1 : m₃.grids = m₁.grids) (g2 : m₂.grids = m₁.grids) (gp1 : m₃.gp = m₁.gp) (gp2 : m₂.gp = m₁.gp)
    (k : m₃.kernel = m₁.kernel) (f : m₃.fk = m₂.fk) (ad : m₃.fk.activeDims = m₁.fk.activeDims) (e2 : m₂.prediction = .exact) (e3 : m₃.prediction = .exact)
    (Xs : List (Arr2 ℝ)) (p₁ p₂ : Predicted) (h₁ : m₁.rawPredict sv e Xs = .ok p₁) (h₂ : m₂.rawPredict sv e Xs = .ok p₂) :
    m₃.rawPredict sv e Xs = .ok (p₁.1, p₂.2) := by
  obtain ⟨ga₁, n₁, wm₁, ex₁, a1, a2, a3, a4, a5⟩ := raw_parts h₁
  obtain ⟨ga₂, n₂, wm₂, ex₂, b1, b2, b3, b4, b5⟩ := raw_parts h₂
  have q1 : m₃.gridAlpha = m₁.gridAlpha := by
    unfold LLGP.gridAlpha LLGP.interp LLGP.theKernel
    rw [g1, k, ad]
  have q2 : m₃.nativeVariance = m₂.nativeVariance := by
    unfold LLGP.nativeVariance
    rw [f]
  have q3 : m₃.predictMean Xs = m₁.predictMean Xs := by
    unfold LLGP.predictMean
    have : m₃.predictGroup Xs = m₁.predictGroup Xs := by
      unfold LLGP.predictGroup LLGP.gridAxes
      rw [g1]
    rw [this]
  have q4 : ∀ Ws Ws', m₃.explained sv e Xs Ws = m₂.explained sv e Xs Ws' := by
    intro Ws Ws'
    unfold LLGP.explained
    rw [e2, e3]
    simp only
    unfold LLGP.dense LLGP.varExact
    rw [f, gp1, gp2]
  unfold LLGP.rawPredict
  rw [q1, a1, q2, b2]
  simp only [ok_bind]
  rw [q3, a3]
  simp only [ok_bind]
  rw [q4 wm₁.1 wm₂.1, b4]
  simp only [ok_bind]
  exact splitPrediction_mix a5 b5

theorem answer_mix {sv : Solvers} {e : Env} {m₁ m₂ m₃ : LLGP} (g1 : m₃.grids = m₁.grids) (g2 : m₂.grids = m₁.grids) (gp1 : m₃.gp = m₁.gp) (gp2 : m₂.gp = m₁.gp)
    (k : m₃.kernel = m₁.kernel) (f : m₃.fk = m₂.fk) (ad : m₃.fk.activeDims = m₁.fk.activeDims) (e2 : m₂.prediction = .exact) (e3 : m₃.prediction = .exact)
    {Qs : List (NDArr ℝ)} {p₁ p₂ : Predicted} (h₁ : m₁.gp.predict (m₁.rawPredict sv e) Qs = .ok p₁) (h₂ : m₂.gp.predict (m₂.rawPredict sv e) Qs = .ok p₂) :
    m₃.answer sv e (.predict Qs) = .ok (.predicted (p₁.1, p₂.2)) := by
  unfold LLGP.answer
  simp only
  rw [gp2] at h₂
  rw [gp1, predict_mix (raw_mix (sv := sv) (e := e) g1 g2 gp1 gp2 k f ad e2 e3) h₁ h₂]
  rfl

/-! ### the interrupted update -/

theorem interrupted_update {sv : Solvers} (hs : sv.Fit) {e : Env} (he : e.Works) {k : ℕ} (hk : k < 3) (hi : e.interrupt = some k) {m : LLGP} {P : ℕ} (h : m.OK P)
    {i : ℕ} {w : World} (hw : w.heap i = some m) (u : Bool) :
    ∃ w' m', parametersChanged u sv e i w = (.error .keyboardInterrupt, w') ∧ w'.heap i = some m' ∧ m'.core = m.core := by
  obtain ⟨K, gks, g1, g2, g3, g4, -⟩ := genGridKernel_model h
  have hK : SquareOp K m.n (m.fk.skiFull m.axesOf m.fk.extraOf m.gp.Xs) := ⟨g4, g2, g3⟩
  obtain ⟨ks, d, x, a1, -⟩ := approxFirst_ok hs he h hK
  have hself : Verif.self i { w with caches := Caches.empty } = (.ok m, { w with caches := Caches.empty }) := self_run hw
  have hno : ∀ j, j ≠ k → ¬ e.interrupt = some j := fun j hj hh => by
    rw [hi] at hh
    exact hj (Option.some.inj hh).symm
  have hclear : clearCaches w = (.ok (), { w with caches := Caches.empty }) := rfl
  unfold parametersChanged
  rw [py_bind, hclear]
  simp only
  rw [py_bind]
  unfold replaceKernel
  rw [py_bind, hself]
  simp only
  rw [py_bind, checkpoint_run]
  by_cases k0 : k = 0
  · subst k0
    rw [if_pos hi]
    exact ⟨_, m, rfl, hw, rfl⟩
  rw [if_neg (hno 0 (Ne.symm k0))]
  simp only
  rw [py_bind, lift_run, g1]
  simp only
  rw [py_bind, checkpoint_run]
  by_cases k1 : k = 1
  · subst k1
    rw [if_pos hi]
    exact ⟨_, m, rfl, hw, rfl⟩
  rw [if_neg (hno 1 (Ne.symm k1))]
  simp only
  rw [py_bind, lift_run, a1]
  simp only
  rw [py_bind, modify_run (w := { w with caches := Caches.empty }) hw]
  simp only
  rw [py_bind, checkpoint_run]
  have k2 : k = 2 := by omega
  subst k2
  rw [if_pos hi]
  exact ⟨_, _, rfl, put_heap _ _ _, rfl⟩

theorem interrupted_set {sv : Solvers} (hs : sv.Fit) {e : Env} (he : e.Works) {k : ℕ} (hk : k < 3) (hi : e.interrupt = some k) {m : LLGP} {P : ℕ} {fk' : FK} (h : m.OK P)
    (hr : m.fk.Retuned fk') {i : ℕ} {w : World} (hw : w.heap i = some m) (u : Bool) :
    ∃ w' m', execOp u sv (.set i fk' e) w = (.error .keyboardInterrupt, w') ∧ w'.heap i = some m' ∧ m'.core = ({ m with fk := fk' } : LLGP).core := by
  obtain ⟨w', m', h1, h2, h3⟩ := interrupted_update hs he hk hi (h.retuned hr) (i := i) (w := w.put i { m with fk := fk' }) (put_heap _ _ _) u
  refine ⟨w', m', ?_, h2, h3⟩
  unfold execOp
  simp only
  rw [py_bind, modify_run hw]
  simp only
  rw [py_bind, h1]

/-- an update that is not interrupted while the kernel is replaced leaves it up to date, whether it raises or not -/
theorem set_refreshes {sv : Solvers} (hs : sv.Fit) {e : Env} (he : e.Works) (hi : ∀ k < 3, e.interrupt ≠ some k) {m : LLGP} {P : ℕ} {fk' : FK} (h : m.OK P)
    (hr : m.fk.Retuned fk') {i : ℕ} {w : World} (hw : w.heap i = some m) (u : Bool) :
    ∃ m' k, (execOp u sv (.set i fk' e) w).2.heap i = some m' ∧ m'.Current sv k ∧ ({ m' with kernel := none } : LLGP).core = ({ m with fk := fk', kernel := none } : LLGP).core := by
  have hok := h.retuned hr
  have hsnd : (execOp u sv (.set i fk' e) w).2 = (parametersChanged u sv e i (w.put i { m with fk := fk' })).2 := by
    unfold execOp
    simp only
    rw [py_bind, modify_run hw]
    simp only
    rw [py_bind]
    rcases parametersChanged u sv e i (w.put i { m with fk := fk' }) with ⟨r, w'⟩
    cases r <;> rfl
  rw [hsnd]
  obtain ⟨-, -, h3⟩ := update_outcome sv u he (i := i) (w := w.put i { m with fk := fk' }) (put_heap _ _ _)
  rcases h3 with ⟨m', k, q1, q2, q3⟩ | ⟨-, -, hbad⟩
  · exact ⟨m', k, q1, q2, q3⟩
  · exfalso
    obtain ⟨K, gks, g1, g2, g3, g4, -⟩ := genGridKernel_model hok
    have hK : SquareOp K ({ m with fk := fk' } : LLGP).n (fk'.skiFull ({ m with fk := fk' } : LLGP).axesOf fk'.extraOf m.gp.Xs) := ⟨g4, g2, g3⟩
    obtain ⟨ks, d, x, a1, -⟩ := approxFirst_ok hs he hok hK
    rcases hbad with ⟨k, hk, hi'⟩ | ⟨y, hy⟩ | ⟨Kg, y, hy, hy'⟩ | ⟨y, hy⟩
    · exact hi k hk hi'
    · rw [g1] at hy; cases hy
    · rw [g1] at hy
      cases hy
      rw [a1] at hy'
      cases hy'
    · obtain ⟨fs, hfs⟩ := exists_gradFns hok
      rw [evalKernelGradients_model hok hfs] at hy
      cases hy

end Verif
