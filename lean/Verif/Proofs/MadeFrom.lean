import Verif.Props.Reordered

/-! Models of programs that use them as documented. -/

namespace Verif

/-- a model of a valid program was made from its constructor arguments, is up to date and has sound parameters -/
theorem valid_made {sv : Solvers} (hs : sv.Fit) {ops : List Op} (hv : ValidFrom [] ops) {i : ℕ} {a : LLGPArgs} {given : Option FK}
    (h : setUp i none (trace sv ops) = some (a, given)) {m : LLGP} (hm : modelsAfter sv ops i = some m) :
    ∃ P k, m.MadeFrom P a ∧ m.OK P ∧ m.Current sv k ∧ m.fk.Sound ∧ predMode a.prediction = some m.prediction := by
  obtain ⟨hc, hw, fks, hh, ht⟩ := healthy_program hs ops [] World.start (healthy_start sv) hv
  obtain ⟨a₁, g₁, m₁, -, e1, e2, -, f1, f2, f3, -⟩ := C48_current sv ops hw hc i m hm
  rw [h] at e1
  cases e1
  obtain ⟨P, fk₀, fk₁, fk, r1, r2, r3, r4⟩ := ht i none (fun _ _ h => by cases h) a given h
  obtain ⟨m', P', k, q1, q2, q3, -, q5⟩ := hh.model i fk r3
  rw [show (history true sv ops World.start).2.heap i = some m from hm] at q1
  cases q1
  obtain ⟨d1, -, -, d4, -⟩ := documented_fields r1 e2
  rw [r2] at d4
  have : P' = P := by rw [← q2.inputDim, f1, d1]
  subst this
  exact ⟨P', k, ⟨fk₀, m₁, r1, e2, f1, f2, by rw [q3, r4, Except.ok.inj d4]⟩, q2, q5, by rw [q3]; exact hh.sound _ (List.mem_of_getElem? r3), by rw [f3]; exact (init_fields e2).1⟩

/-- what `predict` and `predict_quantiles` use of a model -/
theorem predict_of_other {gp gp' : MultiGP} {raw raw' : List (Arr2 ℝ) → Except PyErr Predicted} {Qs Qs' : List (NDArr ℝ)} {D P : ℕ} (hQ : QueriesOK D P Qs) (hQ' : QueriesOK D P Qs')
    (hP : gp.inputDim = P) (hi : gp'.inputDim = gp.inputDim) (ho : gp'.outputDim = gp.outputDim) (hn : gp'.normalizer = gp.normalizer)
    (h : raw' (padded P Qs') = raw (padded P Qs)) : gp'.predict raw' Qs' = gp.predict raw Qs ∧ ∀ qs, gp'.predictQuantiles raw' Qs' qs = gp.predictQuantiles raw Qs qs := by
  subst hP
  have hp : padDims gp.inputDim Qs = .ok (padded gp.inputDim Qs) := padDims_dataset hQ.2
  have hp' : padDims gp'.inputDim Qs' = .ok (padded gp.inputDim Qs') := by rw [hi]; exact padDims_dataset hQ'.2
  have hcols : ∀ {Qs : List (NDArr ℝ)}, (∀ X ∈ padded gp.inputDim Qs, X.cols = gp.inputDim) := fun X hX => by
    obtain ⟨Q, -, rfl⟩ := List.mem_map.1 hX
    rfl
  have hlen : ∀ Qs : List (NDArr ℝ), (padded gp.inputDim Qs).length = Qs.length := fun Qs => by simp [padded]
  have hw : ∀ b, gp'.predictWith raw' (padded gp.inputDim Qs') b = gp.predictWith raw (padded gp.inputDim Qs) b := fun b => by
    unfold MultiGP.predictWith
    rw [hi, ho, hn, h, hlen, hlen, hQ.1, hQ'.1, if_neg (not_not.2 hcols), if_neg (not_not.2 hcols)]
  constructor
  · unfold MultiGP.predict
    rw [hp, hp', ok_bind, ok_bind, hw]
  · intro qs
    unfold MultiGP.predictQuantiles
    rw [hp, hp', ok_bind, ok_bind, hw, hn]

end Verif
