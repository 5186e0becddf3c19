import Verif.Spec.Values
import Verif.Proofs.Uncoupled

/-! Lemmas for C85: how predictions depend on the observed values. -/

namespace Verif

open Matrix

/-- two models with the same parameters, inputs and grids -/
structure SameInputs (P : ℕ) (m m' : LLGP) : Prop where
  ok : m.OK P
  ok' : m'.OK P
  fk : m'.fk = m.fk
  mode : m'.prediction = m.prediction
  axes : m'.axesOf = m.axesOf
  inputs : m'.gp.Xs = m.gp.Xs

/-- what the observations explain: the same exception, or the same numbers -/
theorem explained_same {sv : Solvers} (hs : sv.Fit) (hx : sv.Exact) {m m' : LLGP} {P : ℕ} (R : SameInputs P m m') {k k' : LLKernel} (hc : m.Current sv k)
    (hc' : m'.Current sv k') (hso : m.fk.Sound) (hn : ∀ ad ∈ m.fk.activeDims.map Prod.fst, ad.Nodup) {e e' : Env} (he : e.Works) (he' : e'.Works)
    {Xs : List (Arr2 ℝ)} (hX : InputsOK m.fk.D P Xs) :
    (∃ x, m.explained sv e Xs (m.queryWs Xs) = .error x ∧ m'.explained sv e' Xs (m'.queryWs Xs) = .error x) ∨
    ∃ f, m.explained sv e Xs (m.queryWs Xs) = .ok (vmk (Xs.map Arr2.rows).sum f) ∧ m'.explained sv e' Xs (m'.queryWs Xs) = .ok (vmk (Xs.map Arr2.rows).sum f) := by
  have hso' : m'.fk.Sound := by rw [R.fk]; exact hso
  have hn' : ∀ ad ∈ m'.fk.activeDims.map Prod.fst, ad.Nodup := by rw [R.fk]; exact hn
  have hX' : InputsOK m'.fk.D P Xs := by rw [R.fk]; exact hX
  have hxs := exact_of_current hs hx R.ok hc hso hn
  have hxs' := exact_of_current hs hx R.ok' hc' hso' hn'
  have hpd := covMat_posDef R.ok.ready.wf R.ok.data.inputs.len hso.kernels hso.kappa hso.noise
  have hpd' := covMat_posDef R.ok'.ready.wf R.ok'.data.inputs.len hso'.kernels hso'.kappa hso'.noise
  cases hm : m.prediction with
  | exact => exact .inr ⟨_, (explained_exact R.ok hm hX sv e _).1 hpd, by rw [(explained_exact R.ok' (R.mode.trans hm) hX' sv e' _).1 hpd', R.fk, R.inputs]⟩
  | onTheFly =>
    by_cases h0 : 0 < (Xs.map Arr2.rows).sum
    · exact .inr ⟨_, explained_fly_exact hs R.ok hm hc (hxs _) he hX h0 _, by
        rw [explained_fly_exact hs R.ok' (R.mode.trans hm) hc' (hxs' _) he' hX' h0 _, R.fk, R.inputs, R.axes]⟩
    · have h0 : (Xs.map Arr2.rows).sum = 0 := by omega
      exact .inl ⟨_, explained_fly_none R.ok hm hc hX (he 0) h0 _, explained_fly_none R.ok' (R.mode.trans hm) hc' hX' (he' 0) h0 _⟩
  | precompute =>
    have hm' := R.mode.trans hm
    obtain ⟨f1, f2⟩ := explained_pre_fails (sv := sv) R.ok hm e Xs (m.queryWs Xs)
    obtain ⟨f1', f2'⟩ := explained_pre_fails (sv := sv) R.ok' hm' e' Xs (m'.queryWs Xs)
    by_cases hl : m.fk.activeDims.length = 1
    · obtain ⟨g, hg⟩ := List.length_eq_one_iff.1 hl
      by_cases hg1 : g.1 = List.range P
      · exact .inr ⟨_, explained_pre_exact hs R.ok hm hc (hxs _) he hX hg hg1, by
          rw [explained_pre_exact hs R.ok' hm' hc' (hxs' _) he' hX' (by rw [R.fk]; exact hg) hg1, R.fk, R.inputs, R.axes]⟩
      · exact .inl ⟨_, f2 g hg hg1, f2' g (by rw [R.fk]; exact hg) hg1⟩
    · exact .inl ⟨_, f1 hl, f1' (by rw [R.fk]; exact hl)⟩

/-- predictions of two such models: the same exception, or the same variances in normalised units and the conditional means of their values -/
theorem predict_same {sv : Solvers} (hx : sv.Exact) {m m' : LLGP} {P : ℕ} (R : SameInputs P m m') {k k' : LLKernel} {Qs : List (NDArr ℝ)}
    (h : Asked sv m P k Qs) (h' : Asked sv m' P k' Qs) (hso : m.fk.Sound) (hn : ∀ ad ∈ m.fk.activeDims.map Prod.fst, ad.Nodup) {e e' : Env}
    (he : e.Works) (he' : e'.Works) :
    (∃ x, m.gp.predict (m.rawPredict sv e) Qs = .error x ∧ m'.gp.predict (m'.rawPredict sv e') Qs = .error x) ∨
    ∃ (r r' : Predicted) (v : ℕ → ℕ → ℝ), m.gp.predict (m.rawPredict sv e) Qs = .ok r ∧ m'.gp.predict (m'.rawPredict sv e') Qs = .ok r' ∧
      PredictedAs r m.fk.D (queryLens Qs) (fun d i => m.fk.skiMean m.axesOf m.fk.extraOf m.gp.Xs m.gp.Ys d (queryPoint P Qs d i) * (normOf m.gp d).1 + (normOf m.gp d).2)
        (fun d i => v d i * (normOf m.gp d).1 ^ 2) ∧
      PredictedAs r' m.fk.D (queryLens Qs) (fun d i => m.fk.skiMean m.axesOf m.fk.extraOf m.gp.Xs m'.gp.Ys d (queryPoint P Qs d i) * (normOf m'.gp d).1 + (normOf m'.gp d).2)
        (fun d i => v d i * (normOf m'.gp d).1 ^ 2) := by
  have hso' : m'.fk.Sound := by rw [R.fk]; exact hso
  have hn' : ∀ ad ∈ m'.fk.activeDims.map Prod.fst, ad.Nodup := by rw [R.fk]; exact hn
  rcases explained_same h.fit hx R h.current h'.current hso hn he he' h.inputs with ⟨x, h1, h2⟩ | ⟨f, h1, h2⟩
  · exact .inl ⟨x, predict_error h (raw_explained_error h.fit h.ok h.current h.inputs e hso.plain h1),
      predict_error h' (raw_explained_error h'.fit h'.ok h'.current h'.inputs e' hso'.plain h2)⟩
  · rw [padded_lens] at h1 h2
    obtain ⟨r, r1, -, r3⟩ := predict_from h hso.plain e h1
    obtain ⟨r', s1, -, s3⟩ := predict_from h' hso'.plain e' h2
    simp only [meanWith_exact h.ok h.current (exact_of_current h.fit hx h.ok h.current hso hn _)] at r3
    simp only [meanWith_exact h'.ok h'.current (exact_of_current h'.fit hx h'.ok h'.current hso' hn' _)] at s3
    rw [R.fk, R.axes, R.inputs] at s3
    exact .inr ⟨r, r', _, r1, s1, r3, s3⟩

theorem skiMean_combines {fk : FK} {axes : List ℕ → List (List ℝ)} {extra : List ℕ × List ℕ → ℝ} {Xs : List (Arr2 ℝ)} {Y1 Y2 Y3 : List (List ℝ)} {s t : ℝ}
    (h : ∀ r < (Xs.map Arr2.rows).sum, Y3.flatten.getD r 0 = s * Y1.flatten.getD r 0 + t * Y2.flatten.getD r 0) (d : ℕ) (x : ℕ → ℝ) :
    fk.skiMean axes extra Xs Y3 d x = s * fk.skiMean axes extra Xs Y1 d x + t * fk.skiMean axes extra Xs Y2 d x := by
  have e : toVec (Xs.map Arr2.rows).sum Y3.flatten = s • toVec (Xs.map Arr2.rows).sum Y1.flatten + t • toVec (Xs.map Arr2.rows).sum Y2.flatten := by
    funext r
    exact h r r.2
  unfold FK.skiMean
  rw [e, Matrix.mulVec_add, Matrix.mulVec_smul, Matrix.mulVec_smul, dotProduct_add, dotProduct_smul, dotProduct_smul]
  rfl

end Verif
