import Verif.Proofs.Modes
import Verif.Props.LLGPViolated

/-! C122: the prediction mode of a model may be changed at any time. -/

namespace Verif

/-- the mode histories with and without caches, and the state they end in -/
theorem modes_plain {sv : Solvers} {M : List ModeOp} (hw : ModesWork M) :
    modeHistory true sv M ModeWorld.start = modeHistory false sv M ModeWorld.start ∧ CachesOK sv (modeHistory true sv M ModeWorld.start).2.world :=
  modeHistory_agree sv true false M hw ModeWorld.start (cachesOK_empty rfl)

theorem modesWork_without : ∀ {M : List ModeOp}, ModesWork M → ∀ op ∈ withoutModes M, op.Works
  | [], _, op, h => by cases h
  | .op o :: M, hM, op, h => by
    rcases List.mem_cons.1 h with rfl | h
    · exact hM _ (by simp)
    · exact modesWork_without (fun o' h' => hM o' (List.mem_cons_of_mem _ h')) op h
  | .mode i t :: M, hM, op, h => modesWork_without (M := M) (fun o' h' => hM o' (List.mem_cons_of_mem _ h')) op h

theorem modeHistory_append (u : Bool) (sv : Solvers) : ∀ (M M' : List ModeOp) (s : ModeWorld),
    modeHistory u sv (M ++ M') s = ((modeHistory u sv M s).1 ++ (modeHistory u sv M' (modeHistory u sv M s).2).1, (modeHistory u sv M' (modeHistory u sv M s).2).2)
  | [], _, _ => rfl
  | o :: M, M', s => by
    show ((execMode u sv o s).1 :: (modeHistory u sv (M ++ M') (execMode u sv o s).2).1, (modeHistory u sv (M ++ M') (execMode u sv o s).2).2) = _
    rw [modeHistory_append u sv M M' (execMode u sv o s).2]
    rfl

theorem modeResults_one (sv : Solvers) (M : List ModeOp) (o : ModeOp) :
    modeResults sv (M ++ [o]) = modeResults sv M ++ [(execMode true sv o (modeHistory true sv M ModeWorld.start).2).1] := by
  unfold modeResults
  rw [modeHistory_append]
  rfl

/-- the state of the program with assignments of modes follows that of the program without them -/
theorem modes_follow {sv : Solvers} {M : List ModeOp} (hw : ModesWork M) :
    Follows (fun i => lastMode i none (modeTrace sv M)) (modeHistory true sv M ModeWorld.start).2 (history true sv (withoutModes M) World.start).2 ∧
      otherResults (ordinary (modeTrace sv M)) = otherResults (trace sv (withoutModes M)) := by
  unfold modeTrace modeResults trace
  rw [(modes_plain hw).1, (history_agree sv true false _ (modesWork_without hw) World.start (cachesOK_empty rfl)).1]
  exact follows_history sv M (fun _ => none) ModeWorld.start World.start follows_start

theorem setUp_other (i : ℕ) : ∀ (l : List (Op × Except PyErr Answer)) (s : Option (LLGPArgs × Option FK)), setUp i s (otherResults l) = setUp i s l
  | [], _ => rfl
  | (.new a e, r) :: l, s => by rw [otherResults_cons]; exact setUp_other i l _
  | (.set j fk e, r) :: l, s => by rw [otherResults_cons]; exact setUp_other i l _
  | (.optimize j, r) :: l, s => by rw [otherResults_cons]; exact setUp_other i l _
  | (.ask j q e, r) :: l, s => by
    rw [otherResults_cons]
    show _ = setUp i s l
    split_ifs
    · exact setUp_other i l s
    · exact setUp_other i l s

theorem completed_other (l : List (Op × Except PyErr Answer)) : Completed (otherResults l) ↔ Completed l := by
  constructor
  · intro h p hp hc
    refine h p (List.mem_filter.2 ⟨hp, ?_⟩) hc
    obtain ⟨o, r⟩ := p
    cases o with
    | ask i q e => exact absurd hc id
    | new a e => rfl
    | set i fk e => rfl
    | optimize i => rfl
  · exact fun h p hp => h p (List.mem_filter.1 hp).1

/-- C122: the class-level caches make no difference either in a program that assigns modes. -/
theorem C122_caches (sv : Solvers) (M : List ModeOp) (hw : ModesWork M) : modeResults sv M = (modeHistory false sv M ModeWorld.start).1 := by
  unfold modeResults
  rw [(modes_plain hw).1]

/-- C122: every operation other than a question for a prediction returns or raises what it does in the program without the assignments of modes,
whatever was assigned. -/
theorem C122_others (sv : Solvers) (M : List ModeOp) (hw : ModesWork M) : otherResults (ordinary (modeTrace sv M)) = otherResults (trace sv (withoutModes M)) :=
  (modes_follow hw).2

/-- the model in the program with assignments of modes -/
theorem mode_model {sv : Solvers} {M : List ModeOp} (hw : ModesWork M) (hc : Completed (ordinary (modeTrace sv M))) {i : ℕ} {a : LLGPArgs} {given : Option FK}
    (h : setUp i none (ordinary (modeTrace sv M)) = some (a, given)) :
    ∃ m m₀ k p, (modeHistory true sv M ModeWorld.start).2.world.heap i = some m ∧ m.Current sv k ∧ llgpInit a = .ok m₀ ∧ m.fk = given.getD m₀.fk ∧ m.gp = m₀.gp ∧
      m.grids = m₀.grids ∧ m.nIt = m₀.nIt ∧ m.tol = m₀.tol ∧ m.prediction = p ∧
      match lastMode i none (modeTrace sv M) with
      | none => p = m₀.prediction ∧ (modeHistory true sv M ModeWorld.start).2.unknown i = false
      | some t => match predMode t with
        | some p' => p = p' ∧ (modeHistory true sv M ModeWorld.start).2.unknown i = false
        | none => (modeHistory true sv M ModeWorld.start).2.unknown i = true := by
  obtain ⟨⟨P, hP, hf⟩, h2⟩ := modes_follow (sv := sv) hw
  have hwo := modesWork_without hw
  have hc' : Completed (trace sv (withoutModes M)) := by rw [← completed_other, ← h2, completed_other]; exact hc
  have h' : setUp i none (trace sv (withoutModes M)) = some (a, given) := by rw [← setUp_other, ← h2, setUp_other]; exact h
  cases hm : modelsAfter sv (withoutModes M) i with
  | none =>
    have := (settled_history _ hwo (settled_start sv i) hc').absent hm
    change setUp i none (trace sv (withoutModes M)) = none at this
    rw [h'] at this
    cases this
  | some m =>
    obtain ⟨a₁, g₁, m₁, k₁, e1, e2, e3, f1, f2, f3, f4, f5, f6⟩ := C48_current sv _ hwo hc' i m hm
    rw [h'] at e1
    cases e1
    refine ⟨m.inMode (P i), m₁, k₁, (P i).getD m.prediction, ?_, ⟨f6.kernel, f6.built, f6.solved⟩, e2, e3, f1, f2, f4, f5, rfl, ?_⟩
    · rw [hP.heap i, show (history true sv (withoutModes M) World.start).2.heap i = some m from hm]
      rfl
    · have := hf i
      simp only at this
      cases hl : lastMode i none (modeTrace sv M) with
      | none =>
        simp only [hl] at this ⊢
        exact ⟨by rw [this.1]; exact f3, this.2⟩
      | some t =>
        simp only [hl] at this ⊢
        cases hp : predMode t with
        | none => simp only [hp] at this ⊢; exact this
        | some p => simp only [hp] at this ⊢; exact ⟨by rw [this.1]; rfl, this.2⟩

theorem plain_model {sv : Solvers} {ops : List Op} (hw : ∀ op ∈ ops, op.Works) (hc : Completed (trace sv ops)) {i : ℕ} {a : LLGPArgs} {given : Option FK}
    (h : setUp i none (trace sv ops) = some (a, given)) : ∃ m m₀ k, modelsAfter sv ops i = some m ∧ m.Current sv k ∧ llgpInit a = .ok m₀ ∧ m.fk = given.getD m₀.fk ∧
      m.gp = m₀.gp ∧ m.grids = m₀.grids ∧ m.prediction = m₀.prediction ∧ m.nIt = m₀.nIt ∧ m.tol = m₀.tol := by
  cases hm : modelsAfter sv ops i with
  | none =>
    have := (settled_history _ hw (settled_start sv i) hc).absent hm
    change setUp i none (trace sv ops) = none at this
    rw [h] at this
    cases this
  | some m =>
    obtain ⟨a₁, g₁, m₁, k₁, e1, e2, e3, f1, f2, f3, f4, f5, f6⟩ := C48_current sv _ hw hc i m hm
    rw [h] at e1
    cases e1
    exact ⟨m, m₁, k₁, rfl, f6, e2, e3, f1, f2, f3, f4, f5⟩

theorem init_predMode {a : LLGPArgs} {m : LLGP} (h : llgpInit a = .ok m) : predMode a.prediction = some m.prediction := by
  unfold llgpInit at h
  rw [bind_ok] at h
  obtain ⟨gp, -, h⟩ := h
  cases hf : a.functionalKernel with
  | none => rw [hf] at h; cases h
  | some fk =>
    rw [hf] at h
    cases hm : predMode a.prediction with
    | none => simp only [hm] at h; cases h
    | some p =>
      simp only [hm, bind_ok] at h
      obtain ⟨fk', -, gr, -, h5⟩ := h
      cases h5
      rfl

/-- C122: whatever a program did before, with this model and others, and whichever modes it assigned when, a question is answered as by a model that had
the mode last assigned from the start: one made in any program without assignments with this mode as argument `prediction`, the other arguments
and the last parameter values being the same. -/
theorem C122_modes (sv : Solvers) (M : List ModeOp) (hw : ModesWork M) (hc : Completed (ordinary (modeTrace sv M))) (ops' : List Op) (hw' : ∀ op ∈ ops', op.Works)
    (hc' : Completed (trace sv ops')) (i i' : ℕ) (a : LLGPArgs) (given : Option FK) (h : setUp i none (ordinary (modeTrace sv M)) = some (a, given))
    (h' : setUp i' none (trace sv ops') = some ({ a with prediction := (lastMode i none (modeTrace sv M)).getD a.prediction }, given)) (q : Query) (e : Env) (he : e.Works) :
    ∃ x, modeResults sv (M ++ [.op (.ask i q e)]) = modeResults sv M ++ [x] ∧ results sv (ops' ++ [.ask i' q e]) = results sv ops' ++ [x] := by
  obtain ⟨m, m₀, k, p, hm, hk, hi, e1, e2, e3, e4, e5, e6, e7⟩ := mode_model hw hc h
  obtain ⟨m', m₁, k', hm', hk', hi', f1, f2, f3, f4, f5, f6⟩ := plain_model hw' hc' h'
  have hmode := init_predMode hi'
  simp only at hmode
  have key : m.prediction = m₁.prediction ∧ (modeHistory true sv M ModeWorld.start).2.unknown i = false := by
    cases hl : lastMode i none (modeTrace sv M) with
    | none =>
      rw [hl] at e7 hi'
      simp only [Option.getD_none] at hi' e7
      rw [hi] at hi'
      cases hi'
      exact ⟨e6.trans e7.1, e7.2⟩
    | some t =>
      rw [hl] at e7 hmode
      simp only [Option.getD_some] at hmode e7
      rw [hmode] at e7
      exact ⟨e6.trans e7.1, e7.2⟩
  have hinit := init_mode hi hmode
  rw [hi'] at hinit
  have hm₁ : m₁ = { m₀ with prediction := m₁.prediction } := Except.ok.inj hinit
  have q1 : m₁.gp = m₀.gp := by rw [hm₁]
  have q2 : m₁.fk = m₀.fk := by rw [hm₁]
  have q3 : m₁.grids = m₀.grids := by rw [hm₁]
  have q4 : m₁.nIt = m₀.nIt := by rw [hm₁]
  have q5 : m₁.tol = m₀.tol := by rw [hm₁]
  obtain ⟨c, hx⟩ := ask_answer (modes_plain hw).2 he hm hk.kernel q
  refine ⟨m.answer sv e q, ?_, ?_⟩
  · rw [modeResults_one]
    have : (execMode true sv (.op (.ask i q e)) (modeHistory true sv M ModeWorld.start).2).1 = (askM true sv e i q (modeHistory true sv M ModeWorld.start).2.world).1 := by
      unfold execMode execKnown
      simp only [key.2]
      rfl
    rw [this, hx]
  · rw [(C48_answers sv ops' hw' i' m' hm' (by rw [hk'.kernel]; simp) q e he).1]
    congr 2
    refine answer_congr hk' hk ?_ e q
    simp only [LLGP.core, LLGP.mk.injEq, and_true]
    exact ⟨by rw [f2, e2, q1], by rw [f1, e1, q2], by rw [f3, e3, q3], f4.trans key.1.symm, by rw [f5, e4, q4], by rw [f6, e5, q5]⟩

/-! ### unknown modes -/

theorem predictWith_raise {gp : MultiGP} {raw : List (Arr2 ℝ) → Except PyErr Predicted} {Xs : List (Arr2 ℝ)} {b : Bool} (hr : ∃ x, raw Xs = .error x) :
    ∃ x, gp.predictWith raw Xs b = .error x := by
  obtain ⟨x, hx⟩ := hr
  unfold MultiGP.predictWith
  split_ifs
  all_goals first | exact ⟨_, rfl⟩ | exact ⟨x, by rw [hx]; rfl⟩

theorem predictWith_key {gp : MultiGP} {raw raw' : List (Arr2 ℝ) → Except PyErr Predicted} {Xs : List (Arr2 ℝ)} {b : Bool} {r : Predicted}
    (h : gp.predictWith raw Xs b = .ok r) (hr : ∀ r, raw Xs = .ok r → raw' Xs = .error .keyError) : gp.predictWith raw' Xs b = .error .keyError := by
  unfold MultiGP.predictWith at h ⊢
  split_ifs at h ⊢ with h1 h2
  rw [bind_ok] at h
  obtain ⟨r', hr', -⟩ := h
  rw [hr r' hr']
  rfl

/-- the answer with an unknown mode -/
noncomputable def LLGP.answerUnknown (sv : Solvers) (e : Env) (m : LLGP) : Query → Except PyErr Answer
  | .predict Xs => (m.gp.predict m.rawUnknown Xs).map .predicted
  | .quantiles Xs qs => (m.gp.predictQuantiles m.rawUnknown Xs qs).map .quantiles
  | q => m.answer sv e q

theorem askUnknown_answer {sv : Solvers} {w : World} (hw : CachesOK sv w) {e : Env} (he : e.Works) {i : ℕ} {m : LLGP} (hm : w.heap i = some m) {k : LLKernel}
    (hk : m.kernel = some k) (q : Query) : (askUnknown true sv e i q w).1 = m.answerUnknown sv e q := by
  rw [(Agree.askUnknown sv true false he i q w hw).1]
  have map_bind : ∀ {α : Type} (x : Except PyErr α) (f : α → Answer), (do let a ← x; (.ok (f a) : Except PyErr Answer)) = x.map f := by
    intro α x f; cases x <;> rfl
  cases q with
  | predict Xs =>
    obtain ⟨c, hc⟩ := ((Reads.publicUnknown sv e i m hk (fun gp raw => gp.predict raw Xs) Xs fun raw raw' h => predict_congr _ _ _ _ h).bind
      (f := fun p => pure (Answer.predicted p)) (g := fun p => .ok (.predicted p)) fun _ => Reads.pure _) w hm
    show ((do let p ← publicUnknown false sv e i (fun gp raw => gp.predict raw Xs) Xs; pure (Answer.predicted p) : PyM Answer) w).1 = _
    rw [hc, map_bind]
    rfl
  | quantiles Xs qs =>
    obtain ⟨c, hc⟩ := ((Reads.publicUnknown sv e i m hk (fun gp raw => gp.predictQuantiles raw Xs qs) Xs fun raw raw' h => quantiles_congr _ _ _ _ _ h).bind
      (f := fun p => pure (Answer.quantiles p)) (g := fun p => .ok (.quantiles p)) fun _ => Reads.pure _) w hm
    show ((do let p ← publicUnknown false sv e i (fun gp raw => gp.predictQuantiles raw Xs qs) Xs; pure (Answer.quantiles p) : PyM Answer) w).1 = _
    rw [hc, map_bind]
    rfl
  | covariance => obtain ⟨c, hc⟩ := Reads.ask sv e i m hk .covariance w hm; show (askM false sv e i .covariance w).1 = _; rw [hc]; rfl
  | logDet => obtain ⟨c, hc⟩ := Reads.ask sv e i m hk .logDet w hm; show (askM false sv e i .logDet w).1 = _; rw [hc]; rfl
  | normalQuadratic => obtain ⟨c, hc⟩ := Reads.ask sv e i m hk .normalQuadratic w hm; show (askM false sv e i .normalQuadratic w).1 = _; rw [hc]; rfl
  | logLikelihood => obtain ⟨c, hc⟩ := Reads.ask sv e i m hk .logLikelihood w hm; show (askM false sv e i .logLikelihood w).1 = _; rw [hc]; rfl

theorem answerUnknown_error (sv : Solvers) (e : Env) (m : LLGP) {q : Query} {i : ℕ} (hq : (Op.ask i q e).asksPrediction = true) :
    (∃ x, m.answerUnknown sv e q = .error x) ∧ ∀ p y, ({ m with prediction := p } : LLGP).answer sv e q = .ok y → m.answerUnknown sv e q = .error .keyError := by
  cases q with
  | predict Xs =>
    have h0 : ∀ x, m.gp.predict m.rawUnknown Xs = .error x → m.answerUnknown sv e (.predict Xs) = .error x := fun x h => by
      show (m.gp.predict m.rawUnknown Xs).map _ = _
      rw [h]; rfl
    unfold MultiGP.predict at h0
    constructor
    · cases hp : padDims m.gp.inputDim Xs with
      | error x => exact ⟨x, h0 x (by rw [hp]; rfl)⟩
      | ok Xs' =>
        obtain ⟨x, hx⟩ := predictWith_raise (gp := m.gp) (b := true) (rawUnknown_error sv e m Xs').1
        exact ⟨x, h0 x (by rw [hp, ok_bind, hx])⟩
    · intro p y hy
      have hy : (m.gp.predict (({ m with prediction := p } : LLGP).rawPredict sv e) Xs).map Answer.predicted = .ok y := hy
      refine h0 _ ?_
      cases hp : padDims m.gp.inputDim Xs with
      | error x =>
        unfold MultiGP.predict at hy
        rw [hp] at hy
        cases hy
      | ok Xs' =>
        unfold MultiGP.predict at hy
        rw [hp, ok_bind] at hy
        cases hz : m.gp.predictWith (({ m with prediction := p } : LLGP).rawPredict sv e) Xs' true with
        | error x => rw [hz] at hy; cases hy
        | ok r =>
          rw [ok_bind]
          exact predictWith_key hz fun r' hr' => (rawUnknown_error sv e m Xs').2 r' p hr'
  | quantiles Xs qs =>
    have h0 : ∀ x, m.gp.predictQuantiles m.rawUnknown Xs qs = .error x → m.answerUnknown sv e (.quantiles Xs qs) = .error x := fun x h => by
      show (m.gp.predictQuantiles m.rawUnknown Xs qs).map _ = _
      rw [h]; rfl
    unfold MultiGP.predictQuantiles at h0
    constructor
    · cases hp : padDims m.gp.inputDim Xs with
      | error x => exact ⟨x, h0 x (by rw [hp]; rfl)⟩
      | ok Xs' =>
        obtain ⟨x, hx⟩ := predictWith_raise (gp := m.gp) (b := false) (rawUnknown_error sv e m Xs').1
        exact ⟨x, h0 x (by rw [hp, ok_bind, hx]; rfl)⟩
    · intro p y hy
      have hy : (m.gp.predictQuantiles (({ m with prediction := p } : LLGP).rawPredict sv e) Xs qs).map Answer.quantiles = .ok y := hy
      refine h0 _ ?_
      cases hp : padDims m.gp.inputDim Xs with
      | error x =>
        unfold MultiGP.predictQuantiles at hy
        rw [hp] at hy
        cases hy
      | ok Xs' =>
        unfold MultiGP.predictQuantiles at hy
        rw [hp, ok_bind] at hy
        cases hz : m.gp.predictWith (({ m with prediction := p } : LLGP).rawPredict sv e) Xs' false with
        | error x => rw [hz] at hy; cases hy
        | ok r =>
          rw [ok_bind, predictWith_key hz fun r' hr' => (rawUnknown_error sv e m Xs').2 r' p hr']
          rfl
  | covariance => cases hq
  | logDet => cases hq
  | normalQuadratic => cases hq
  | logLikelihood => cases hq

/-- C122: assigning something that is no mode does not raise, but then every prediction of the model does, until a mode is assigned again
(`C122_modes`). It is a `KeyError` if the model would predict in some mode. (All other questions are answered as before, `C122_others`.) -/
theorem C122_unknown (sv : Solvers) (M : List ModeOp) (hw : ModesWork M) (hc : Completed (ordinary (modeTrace sv M))) (i : ℕ) (a : LLGPArgs) (given : Option FK)
    (h : setUp i none (ordinary (modeTrace sv M)) = some (a, given)) (t : String) (ht : t ∉ ["on-the-fly", "precompute", "exact"]) (q : Query) (e : Env) (he : e.Works)
    (hq : (Op.ask i q e).asksPrediction = true) :
    modeResults sv (M ++ [.mode i t]) = modeResults sv M ++ [.ok .unit] ∧
    (lastMode i none (modeTrace sv M) = some t →
      (∃ x, modeResults sv (M ++ [.op (.ask i q e)]) = modeResults sv M ++ [.error x]) ∧
      ∀ (ops' : List Op) (i' : ℕ) (s : String) (y : Answer), (∀ op ∈ ops', op.Works) → Completed (trace sv ops') →
        setUp i' none (trace sv ops') = some ({ a with prediction := s }, given) → results sv (ops' ++ [.ask i' q e]) = results sv ops' ++ [.ok y] →
        modeResults sv (M ++ [.op (.ask i q e)]) = modeResults sv M ++ [.error .keyError]) := by
  have hpt : predMode t = none := by
    simp only [List.mem_cons, List.not_mem_nil, or_false, not_or] at ht
    unfold predMode
    rw [if_neg ht.1, if_neg ht.2.1, if_neg ht.2.2]
  obtain ⟨m, m₀, k, p, hm, hk, hi, e1, e2, e3, e4, e5, e6, e7⟩ := mode_model hw hc h
  constructor
  · rw [modeResults_one]
    unfold execMode
    simp only [hm, hpt]
  · intro hl
    rw [hl] at e7
    simp only [hpt] at e7
    have hx : (execMode true sv (.op (.ask i q e)) (modeHistory true sv M ModeWorld.start).2).1 = m.answerUnknown sv e q := by
      rw [← askUnknown_answer (modes_plain hw).2 he hm hk.kernel q]
      unfold execMode execKnown
      simp only [e7]
      rfl
    obtain ⟨g1, g2⟩ := answerUnknown_error sv e m hq
    refine ⟨?_, ?_⟩
    · obtain ⟨x, hx'⟩ := g1
      exact ⟨x, by rw [modeResults_one, hx, hx']⟩
    · intro ops' i' s y hw' hc' h' hy
      obtain ⟨m', m₁, k', hm', hk', hi', f1, f2, f3, f4, f5, f6⟩ := plain_model hw' hc' h'
      have hinit := init_mode hi (init_predMode hi')
      simp only at hi' hinit
      rw [hi'] at hinit
      have hm₁ : m₁ = { m₀ with prediction := m₁.prediction } := by
        have := Except.ok.inj hinit
        exact this
      rw [(C48_answers sv ops' hw' i' m' hm' (by rw [hk'.kernel]; simp) q e he).1] at hy
      have hy := List.append_cancel_left hy
      simp only [List.cons.injEq, and_true] at hy
      have hk2 : ({ m with prediction := m₁.prediction } : LLGP).Current sv k := ⟨hk.kernel, hk.built, hk.solved⟩
      have : ({ m with prediction := m₁.prediction } : LLGP).answer sv e q = .ok y := by
        rw [← hy]
        refine answer_congr hk2 hk' ?_ e q
        have q1 : m₁.gp = m₀.gp := by rw [hm₁]
        have q2 : m₁.fk = m₀.fk := by rw [hm₁]
        have q3 : m₁.grids = m₀.grids := by rw [hm₁]
        have q4 : m₁.nIt = m₀.nIt := by rw [hm₁]
        have q5 : m₁.tol = m₀.tol := by rw [hm₁]
        simp only [LLGP.core, LLGP.mk.injEq, and_true]
        exact ⟨by rw [e2, f2, q1], by rw [e1, f1, q2], by rw [e3, f3, q3], f4.symm, by rw [e4, f5, q4], by rw [e5, f6, q5]⟩
      rw [modeResults_one, hx, g2 _ _ this]

/-! ### a program -/

/-- The hypotheses can be met: a program makes a model in mode `'exact'` and switches it to `'precompute'`; it answers as a model made in this mode. Then it
assigns something that is no mode, and predictions raise `KeyError`. -/
example : ∃ (fk : FK) (Qs : List (NDArr ℝ)) (r : Predicted), (tinyArgs fk).prediction = "exact" ∧
    results exactSolvers [.new { tinyArgs fk with prediction := "precompute" } quiet, .ask 0 (.predict Qs) quiet] = [.ok (.model 0), .ok (.predicted r)] ∧
    modeResults exactSolvers [.op (.new (tinyArgs fk) quiet), .mode 0 "precompute", .op (.ask 0 (.predict Qs) quiet)] = [.ok (.model 0), .ok .unit, .ok (.predicted r)] ∧
    modeResults exactSolvers [.op (.new (tinyArgs fk) quiet), .mode 0 "fast", .op (.ask 0 (.predict Qs) quiet)] = [.ok (.model 0), .ok .unit, .error .keyError] := by
  obtain ⟨fk, m₀, hd, hf, hi, ht⟩ := exists_tiny
  have hfit := exactSolvers_fit
  have hd' : ({ tinyArgs fk with prediction := "precompute" } : LLGPArgs).Documented 1 fk :=
    ⟨hd.data, hd.arraysX, hd.arraysY, hd.filled, hd.kernel, hd.fresh, hd.wf, hd.some, hd.outputs, hd.valid, hd.dims, by simp, hd.lo, hd.hi, hd.m, hd.sizes, hd.spread⟩
  set a' : LLGPArgs := { tinyArgs fk with prediction := "precompute" } with ha'
  obtain ⟨m, k, c, h1, -⟩ := new_completes hfit (by norm_num) hd (by norm_num [tinyArgs]) hf quiet_calm (fun h => by simp [quiet, tinyArgs] at h) true World.start
  obtain ⟨m', k', c', h1', h2', h3', h4', h5'⟩ := new_completes hfit (by norm_num) hd' (by norm_num [ha', tinyArgs]) hf quiet_calm
    (fun h => by simp [quiet, ha', tinyArgs] at h) true World.start
  have works : ∀ a : LLGPArgs, ∀ op ∈ [Op.new a quiet], op.Works := fun a op ho e he => by
    rw [List.mem_singleton.1 ho] at he
    cases he
    exact quiet_calm.1
  have worksM : ∀ t, ModesWork [.op (.new (tinyArgs fk) quiet), .mode 0 t] := fun t o ho => by
    simp only [List.mem_cons, ModeOp.op.injEq, reduceCtorEq, List.not_mem_nil, or_false] at ho
    exact works (tinyArgs fk) o (by rw [ho]; simp)
  have res' : results exactSolvers [.new a' quiet] = [.ok (.model 0)] := by
    show [(execOp true exactSolvers (.new a' quiet) World.start).1] = _
    rw [h1']
    rfl
  have hM : ∀ t, modeResults exactSolvers [.op (.new (tinyArgs fk) quiet), .mode 0 t] = [.ok (.model 0), .ok .unit] := by
    intro t
    have hx : (execMode true exactSolvers (.op (.new (tinyArgs fk) quiet)) ModeWorld.start) =
        ((execOp true exactSolvers (.new (tinyArgs fk) quiet) World.start).1, ⟨(execOp true exactSolvers (.new (tinyArgs fk) quiet) World.start).2, fun _ => false⟩) := rfl
    show [(execMode true exactSolvers (.op (.new (tinyArgs fk) quiet)) ModeWorld.start).1,
      (execMode true exactSolvers (.mode 0 t) (execMode true exactSolvers (.op (.new (tinyArgs fk) quiet)) ModeWorld.start).2).1] = _
    rw [hx, h1]
    unfold execMode
    simp only
    cases predMode t <;> rfl
  have tr' : trace exactSolvers [.new a' quiet] = [(.new a' quiet, .ok (.model 0))] := by
    show [Op.new a' quiet].zip (results exactSolvers [.new a' quiet]) = _
    rw [res']
    rfl
  have trM : ∀ t, modeTrace exactSolvers [.op (.new (tinyArgs fk) quiet), .mode 0 t] = [(.op (.new (tinyArgs fk) quiet), .ok (.model 0)), (.mode 0 t, .ok .unit)] := by
    intro t
    unfold modeTrace
    rw [hM]
    rfl
  have comp' : Completed (trace exactSolvers [.new a' quiet]) := by
    rw [tr']
    intro p hp _
    rw [List.mem_singleton.1 hp]
    exact ⟨_, rfl⟩
  have compM : ∀ t, Completed (ordinary (modeTrace exactSolvers [.op (.new (tinyArgs fk) quiet), .mode 0 t])) := by
    intro t
    rw [trM]
    intro p hp _
    rw [List.mem_singleton.1 hp]
    exact ⟨_, rfl⟩
  set Qs : List (NDArr ℝ) := [⟨[2], [0, 1]⟩] with hQs
  have hQ : QueriesOK 1 1 Qs := ⟨rfl, fun X hX => by rw [List.mem_singleton.1 hX]; exact ⟨2, .inl ⟨rfl, rfl⟩⟩⟩
  have hW : ∀ Q ∈ Qs, Q.WF := fun X hX => by rw [List.mem_singleton.1 hX]; rfl
  have hm' : modelsAfter exactSolvers [.new a' quiet] 0 = some m' := by
    show (execOp true exactSolvers (.new a' quiet) World.start).2.heap 0 = _
    rw [h1']
    rfl
  have ask : Asked exactSolvers m' 1 k' Qs := ⟨hfit, h2', h5', by rw [h3', ht.D]; exact hQ, hW⟩
  have hmode : m'.prediction = .precompute := by
    obtain ⟨x, x₀, kx, x1, -, x3, -, -, -, x7, -⟩ := plain_model (sv := exactSolvers) (works a') comp' (i := 0) (a := a') (given := none) (by rw [tr']; rfl)
    rw [hm'] at x1
    cases x1
    have := init_predMode x3
    rw [x7]
    exact (Option.some.inj this).symm
  obtain ⟨r, r1⟩ := (C43_returns exactSolvers m' 1 k' Qs ask quiet quiet_calm.1).2.2 ⟨by rw [h3', ht.kernels]; intro k hk; rw [List.mem_singleton.1 hk]; trivial, by
    unfold LLGP.CanPredict
    simp only [hmode, h3', ht.group]
    exact ⟨_, rfl, rfl⟩⟩
  have rr : results exactSolvers ([.new a' quiet] ++ [.ask 0 (.predict Qs) quiet]) = results exactSolvers [.new a' quiet] ++ [.ok (.predicted r)] := by
    rw [(C48_answers exactSolvers _ (works a') 0 m' hm' (by rw [h5'.kernel]; simp) (.predict Qs) quiet quiet_calm.1).1]
    unfold LLGP.answer
    simp only
    rw [r1]
    rfl
  refine ⟨fk, Qs, r, rfl, ?_, ?_, ?_⟩
  · rw [res'] at rr
    exact rr
  · obtain ⟨x, x1, x2⟩ := C122_modes exactSolvers _ (worksM "precompute") (compM _) [.new a' quiet] (works a') comp' 0 0 (tinyArgs fk) none (by rw [trM]; rfl) (by rw [trM, tr']; rfl)
      (.predict Qs) quiet quiet_calm.1
    rw [rr] at x2
    have x2 := List.append_cancel_left x2
    simp only [List.cons.injEq, and_true] at x2
    rw [← x2, hM] at x1
    exact x1
  · have x1 := ((C122_unknown exactSolvers _ (worksM "fast") (compM _) 0 (tinyArgs fk) none (by rw [trM]; rfl) "fast" (by decide) (.predict Qs) quiet quiet_calm.1 rfl).2
      (by rw [trM]; rfl)).2 [.new a' quiet] 0 "precompute" (.predicted r) (works a') comp' (by rw [tr']; rfl) rr
    rw [hM] at x1
    exact x1

end Verif
