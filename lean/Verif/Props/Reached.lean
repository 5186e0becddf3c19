import Verif.Proofs.Reached
import Verif.Spec.Reached
import Verif.Props.Uncoupled
import Verif.Props.Values
import Verif.Props.Beyond
import Verif.Props.Tolerance

/-! What is proved about single models holds for every model that a documented program reaches (C69), and some of it written out for programs
(C72, C81, C84, C85, C94). -/

namespace Verif

open Matrix

/-- C69: after any program that uses its models as documented, every model is in the state that the theorems about predictions assume (`MadeFrom` the arguments of its
constructor, with sound parameters, up to date), for whatever points it is asked next, and its answers are those of these theorems. -/
theorem C69_reaches (sv : Solvers) (hs : sv.Fit) (ops : List Op) (hv : ValidFrom [] ops) (i : ℕ) (m : LLGP) (hm : modelsAfter sv ops i = some m) :
    ∃ P a given k, m.gp.inputDim = P ∧ m.gp.outputDim = m.fk.D ∧ setUp i none (trace sv ops) = some (a, given) ∧ m.MadeFrom P a ∧ m.fk.Sound ∧
      (∀ Qs, QueriesOK m.fk.D P Qs → (∀ Q ∈ Qs, Q.WF) → Asked sv m P k Qs) ∧
      ∀ Qs e, e.Works → results sv (ops ++ [.ask i (.predict Qs) e]) = results sv ops ++ [(m.gp.predict (m.rawPredict sv e) Qs).map .predicted] := by
  obtain ⟨hc, hall⟩ := C69_valid_program sv hs ops hv
  obtain ⟨P, k, hok, hcur, hso⟩ := hall i m hm
  have hw := validFrom_works ops [] hv
  obtain ⟨a, given, m₁, -, e1, e2, e3, f1, f2, -⟩ := C48_current sv ops hw hc i m hm
  have hrec := recorded_program hs ops (healthy_start sv) (settled_start sv i) hv (s := none) (by intro a o h; cases h)
  obtain ⟨P', fk, m₀, d1, d2, d3⟩ := hrec a given e1
  rw [e2] at d2
  cases d2
  have hP : P' = P := by
    obtain ⟨i1, -⟩ := documented_fields d1 e2
    rw [← hok.inputDim, f1, i1]
  subst hP
  exact ⟨P', a, given, k, hok.inputDim, hok.outputDim, e1, ⟨fk, m₁, d1, e2, f1, f2, by rw [e3, d3]⟩, hso, fun Qs h1 h2 => ⟨hs, hok, hcur, h1, h2⟩,
    fun Qs e he => (C48_answers sv ops hw i m hm (by rw [hcur.kernel]; simp) (.predict Qs) e he).1⟩

/-- the facts about a model in a program -/
theorem Held.facts {sv : Solvers} (hs : sv.Fit) {ops : List Op} {i : ℕ} {a : LLGPArgs} {m : LLGP} (h : Held sv ops i a m) :
    ∃ k, m.MadeFrom m.gp.inputDim a ∧ m.fk.Sound ∧ m.gp.outputDim = m.fk.D ∧ (∀ Qs, m.Accepts Qs → Asked sv m m.gp.inputDim k Qs) ∧ m.OK m.gp.inputDim ∧ m.Current sv k ∧
      ∀ Qs e, e.Works → Predicts sv ops i Qs e (m.gp.predict (m.rawPredict sv e) Qs) := by
  obtain ⟨P, a', given, k, rfl, h2, h3, h4, h5, h6, h7⟩ := C69_reaches sv hs ops h.valid i m h.model
  obtain ⟨g, hg⟩ := h.args
  rw [h3] at hg
  cases hg
  obtain ⟨-, hall⟩ := C69_valid_program sv hs ops h.valid
  obtain ⟨P, k', hok, hcur, -⟩ := hall i m h.model
  have hP : m.gp.inputDim = P := hok.inputDim
  refine ⟨k', h4, h5, h2, fun Qs hQ => ⟨hs, by rw [hP]; exact hok, hcur, by rw [← h2]; exact hQ.1, hQ.2⟩, by rw [hP]; exact hok, hcur, h7⟩

theorem same_inputDim {m m' : LLGP} {P P' : ℕ} (h : m.OK P) (h' : m'.OK P') (hfk : m'.fk = m.fk) : P' = P := by
  have := h'.ready.input
  rw [hfk, h.ready.input] at this
  exact (Option.some.inj this).symm

/-- the mode of a model is the one it was made with -/
theorem held_mode {sv : Solvers} (hs : sv.Fit) {ops : List Op} {i : ℕ} {a : LLGPArgs} {m : LLGP} (h : Held sv ops i a m) : predMode a.prediction = some m.prediction := by
  obtain ⟨hc, -⟩ := C69_valid_program sv hs ops h.valid
  obtain ⟨a₁, g₁, m₁, -, e1, e2, -, -, -, p3, -⟩ := C48_current sv ops (validFrom_works ops [] h.valid) hc i m h.model
  obtain ⟨g, hg⟩ := h.args
  rw [e1] at hg
  cases hg
  rw [p3]
  exact (init_fields e2).1

/-- models made with the same prediction mode -/
theorem held_prediction {sv : Solvers} (hs : sv.Fit) {ops ops' : List Op} {i i' : ℕ} {a a' : LLGPArgs} {m m' : LLGP} (h : Held sv ops i a m) (h' : Held sv ops' i' a' m')
    (he : a'.prediction = a.prediction) : m'.prediction = m.prediction := by
  have h1 := held_mode hs h
  have h2 := held_mode hs h'
  rw [he, h1] at h2
  exact (Option.some.inj h2).symm

theorem held_exact {sv : Solvers} (hs : sv.Fit) {ops : List Op} {i : ℕ} {a : LLGPArgs} {m : LLGP} (h : Held sv ops i a m) (he : a.prediction = "exact") : m.prediction = .exact := by
  have := held_mode hs h
  rw [he] at this
  simpa [predMode] using this.symm

theorem predicts_unique {sv : Solvers} {ops : List Op} {i : ℕ} {Qs : List (NDArr ℝ)} {e : Env} {r : Predicted} {x : Except PyErr Predicted} (h : Predicts sv ops i Qs e (.ok r))
    (h' : Predicts sv ops i Qs e x) : x = .ok r := by
  unfold Predicts at h h'
  rw [h] at h'
  have := List.append_cancel_left h'
  simp only [List.cons.injEq, and_true] at this
  cases x with
  | error y => cases this
  | ok y => cases this; rfl

/-- C81 for programs: two programs (or one) that hold two models in `'exact'` mode with the same parameters, one of which was made with all the observed points of the other
and possibly more. -/
theorem C81_program (sv : Solvers) (hs : sv.Fit) (ops ops' : List Op) (i i' : ℕ) (a a' : LLGPArgs) (m m' : LLGP) (h : Held sv ops i a m) (h' : Held sv ops' i' a' m')
    (hm : m.prediction = .exact) (hm' : m'.prediction = .exact) (hfk : m'.fk = m.fk) (hw : a.Within m.gp.inputDim a') (Qs : List (NDArr ℝ)) (hQ : m.Accepts Qs) (e e' : Env)
    (he : e.Works) (he' : e'.Works) :
    ∃ r r', Predicts sv ops i Qs e (.ok r) ∧ Predicts sv ops' i' Qs e' (.ok r') ∧
      ∀ d < m.gp.outputDim, ∀ j < (queryLens Qs).getD d 0, 0 < a.scaleOf d ∧ 0 < a'.scaleOf d ∧
        m.fk.noise.getD d 0 ≤ (r'.2.getD d []).getD j 0 / a'.scaleOf d ^ 2 ∧
        (r'.2.getD d []).getD j 0 / a'.scaleOf d ^ 2 ≤ (r.2.getD d []).getD j 0 / a.scaleOf d ^ 2 ∧
        (r.2.getD d []).getD j 0 / a.scaleOf d ^ 2 ≤ m.fk.priorVar d (queryPoint m.gp.inputDim Qs d j) := by
  obtain ⟨k, f1, f2, f3, f4, f5, -, f7⟩ := h.facts hs
  obtain ⟨k', g1, -, g3, g4, g5, -, g7⟩ := h'.facts hs
  have hP := same_inputDim f5 g5 hfk
  have hQ' : m'.Accepts Qs := by unfold LLGP.Accepts; rw [hP, g3, hfk, ← f3]; exact hQ
  have ask' := g4 Qs hQ'
  rw [hP] at g1 ask'
  obtain ⟨r, r', r1, r2, r3⟩ := C81_more_points sv _ Qs m m' k k' (f4 Qs hQ) ask' e e' hm hm' f2 hfk a a' f1 g1 hw
  refine ⟨r, r', r1 ▸ f7 Qs e he, r2 ▸ g7 Qs e' he', ?_⟩
  rw [f3]
  exact r3

/-- C84 for programs: two programs that hold models made with the same arguments except for the values of outputs that are not coupled to those in `S`. -/
theorem C84_program (sv : Solvers) (hs : sv.Fit) (hx : sv.Exact) (ops ops' : List Op) (i i' : ℕ) (a a' : LLGPArgs) (m m' : LLGP) (h : Held sv ops i a m)
    (h' : Held sv ops' i' a' m') (hn : ∀ ad ∈ m.fk.activeDims.map Prod.fst, ad.Nodup) (hfk : m'.fk = m.fk) (hsame : a' = { a with Ys := a'.Ys }) (S : Finset ℕ)
    (hS : ∀ d ∈ S, a'.Ys.getD d ⟨[], []⟩ = a.Ys.getD d ⟨[], []⟩) (hu : m.fk.Uncoupled S) (Qs : List (NDArr ℝ)) (hQ : m.Accepts Qs) (e e' : Env) (he : e.Works) (he' : e'.Works) :
    (∃ x, Predicts sv ops i Qs e (.error x) ∧ Predicts sv ops' i' Qs e' (.error x)) ∨
    ∃ r r', Predicts sv ops i Qs e (.ok r) ∧ Predicts sv ops' i' Qs e' (.ok r') ∧
      ∀ d ∈ S, d < m.gp.outputDim → r'.1.getD d [] = r.1.getD d [] ∧ r'.2.getD d [] = r.2.getD d [] := by
  obtain ⟨k, f1, f2, f3, f4, f5, -, f7⟩ := h.facts hs
  obtain ⟨k', g1, -, g3, g4, g5, -, g7⟩ := h'.facts hs
  have hP := same_inputDim f5 g5 hfk
  have hQ' : m'.Accepts Qs := by unfold LLGP.Accepts; rw [hP, g3, hfk, ← f3]; exact hQ
  have ask' := g4 Qs hQ'
  rw [hP] at g1 ask'
  have hpred := held_prediction hs h h' (by rw [hsame])
  have F := f7 Qs e he
  have G := g7 Qs e' he'
  rcases C84_values sv hx _ Qs m m' k k' (f4 Qs hQ) ask' e e' he he' f2 hn hfk hpred a a' f1 g1 hsame S hS hu with ⟨x, x1, x2⟩ | ⟨r, r', r1, r2, r3⟩
  · exact .inl ⟨x, x1 ▸ F, x2 ▸ G⟩
  · refine .inr ⟨r, r', r1 ▸ F, r2 ▸ G, ?_⟩
    rw [f3]
    exact r3

/-- C85 for programs: the variances of two models made with the same arguments except for the observed values. -/
theorem C85_program (sv : Solvers) (hs : sv.Fit) (hx : sv.Exact) (ops ops' : List Op) (i i' : ℕ) (a a' : LLGPArgs) (m m' : LLGP) (h : Held sv ops i a m)
    (h' : Held sv ops' i' a' m') (hn : ∀ ad ∈ m.fk.activeDims.map Prod.fst, ad.Nodup) (hfk : m'.fk = m.fk) (hv : a.OtherValues a') (Qs : List (NDArr ℝ)) (hQ : m.Accepts Qs)
    (e e' : Env) (he : e.Works) (he' : e'.Works) :
    (∃ x, Predicts sv ops i Qs e (.error x) ∧ Predicts sv ops' i' Qs e' (.error x)) ∨
    ∃ r r', Predicts sv ops i Qs e (.ok r) ∧ Predicts sv ops' i' Qs e' (.ok r') ∧
      ∀ d < m.gp.outputDim, ∀ j < (queryLens Qs).getD d 0, 0 < a.scaleOf d ∧ 0 < a'.scaleOf d ∧
        (r'.2.getD d []).getD j 0 / a'.scaleOf d ^ 2 = (r.2.getD d []).getD j 0 / a.scaleOf d ^ 2 := by
  obtain ⟨k, f1, f2, f3, f4, f5, -, f7⟩ := h.facts hs
  obtain ⟨k', g1, -, g3, g4, g5, -, g7⟩ := h'.facts hs
  have hP := same_inputDim f5 g5 hfk
  have hQ' : m'.Accepts Qs := by unfold LLGP.Accepts; rw [hP, g3, hfk, ← f3]; exact hQ
  have ask' := g4 Qs hQ'
  rw [hP] at g1 ask'
  have hpred := held_prediction hs h h' (by rw [hv])
  have F := f7 Qs e he
  have G := g7 Qs e' he'
  rcases C85_variance sv hx _ Qs m m' k k' (f4 Qs hQ) ask' e e' he he' f2 hn hfk hpred a a' f1 g1 hv with ⟨x, x1, x2⟩ | ⟨r, r', r1, r2, r3⟩
  · exact .inl ⟨x, x1 ▸ F, x2 ▸ G⟩
  · refine .inr ⟨r, r', r1 ▸ F, r2 ▸ G, ?_⟩
    rw [f3]
    exact r3

/-- C85 for programs: the means of a model made with combinations of the values of two others. -/
theorem C85_linear_program (sv : Solvers) (hs : sv.Fit) (hx : sv.Exact) (ops₁ ops₂ ops₃ : List Op) (i₁ i₂ i₃ : ℕ) (a₁ a₂ a₃ : LLGPArgs) (m₁ m₂ m₃ : LLGP)
    (h₁ : Held sv ops₁ i₁ a₁ m₁) (h₂ : Held sv ops₂ i₂ a₂ m₂) (h₃ : Held sv ops₃ i₃ a₃ m₃) (hn : ∀ ad ∈ m₁.fk.activeDims.map Prod.fst, ad.Nodup) (hfk₂ : m₂.fk = m₁.fk)
    (hfk₃ : m₃.fk = m₁.fk) (hv₂ : a₁.OtherValues a₂) (hv₃ : a₁.OtherValues a₃) (hnn : a₁.normalize = false) (s t : ℝ) (hc : LLGPArgs.Combines s t a₁ a₂ a₃)
    (Qs : List (NDArr ℝ)) (hQ : m₁.Accepts Qs) (e₁ e₂ e₃ : Env) (he₁ : e₁.Works) (he₂ : e₂.Works) (he₃ : e₃.Works) :
    (∃ x, Predicts sv ops₁ i₁ Qs e₁ (.error x) ∧ Predicts sv ops₂ i₂ Qs e₂ (.error x) ∧ Predicts sv ops₃ i₃ Qs e₃ (.error x)) ∨
    ∃ r₁ r₂ r₃, Predicts sv ops₁ i₁ Qs e₁ (.ok r₁) ∧ Predicts sv ops₂ i₂ Qs e₂ (.ok r₂) ∧ Predicts sv ops₃ i₃ Qs e₃ (.ok r₃) ∧
      r₂.2 = r₁.2 ∧ r₃.2 = r₁.2 ∧ ∀ d < m₁.gp.outputDim, ∀ j < (queryLens Qs).getD d 0,
        (r₃.1.getD d []).getD j 0 = s * (r₁.1.getD d []).getD j 0 + t * (r₂.1.getD d []).getD j 0 := by
  obtain ⟨k, f1, f2, f3, f4, f5, -, f7⟩ := h₁.facts hs
  obtain ⟨k', g1, -, g3, g4, g5, -, g7⟩ := h₂.facts hs
  obtain ⟨k'', b1, -, b3, b4, b5, -, b7⟩ := h₃.facts hs
  have hP := same_inputDim f5 g5 hfk₂
  have hP' := same_inputDim f5 b5 hfk₃
  have ask' := g4 Qs (by unfold LLGP.Accepts; rw [hP, g3, hfk₂, ← f3]; exact hQ)
  have ask'' := b4 Qs (by unfold LLGP.Accepts; rw [hP', b3, hfk₃, ← f3]; exact hQ)
  rw [hP] at g1 ask'
  rw [hP'] at b1 ask''
  have F := f7 Qs e₁ he₁
  have G := g7 Qs e₂ he₂
  have B := b7 Qs e₃ he₃
  rcases C85_linear sv hx _ Qs m₁ m₂ m₃ k k' k'' (f4 Qs hQ) ask' ask'' e₁ e₂ e₃ he₁ he₂ he₃ f2 hn hfk₂ hfk₃ (held_prediction hs h₁ h₂ (by rw [hv₂]))
    (held_prediction hs h₁ h₃ (by rw [hv₃])) a₁ a₂ a₃ f1 g1 b1 hv₂ hv₃ hnn s t hc with ⟨x, x1, x2, x3⟩ | ⟨r₁, r₂, r₃, x1, x2, x3, x4, x5, x6⟩
  · exact .inl ⟨x, x1 ▸ F, x2 ▸ G, x3 ▸ B⟩
  · refine .inr ⟨r₁, r₂, r₃, x1 ▸ F, x2 ▸ G, x3 ▸ B, x4, x5, ?_⟩
    rw [f3]
    exact x6

/-- C94 for programs: the means of points that the grids do not tell apart. -/
theorem C94_program (sv : Solvers) (hs : sv.Fit) (ops : List Op) (i : ℕ) (a : LLGPArgs) (m : LLGP) (h : Held sv ops i a m) (Qs Qs' : List (NDArr ℝ)) (hQ : m.Accepts Qs)
    (hQ' : m.Accepts Qs') (e e' : Env) (he : e.Works) (he' : e'.Works) (r r' : Predicted) (hr : Predicts sv ops i Qs e (.ok r)) (hr' : Predicts sv ops i Qs' e' (.ok r'))
    (d : ℕ) (hd : d < m.gp.outputDim) (j j' : ℕ) (hj : j < (queryLens Qs).getD d 0) (hj' : j' < (queryLens Qs').getD d 0)
    (hx : m.SeenAlike (queryPoint m.gp.inputDim Qs d j) (queryPoint m.gp.inputDim Qs' d j')) :
    (r.1.getD d []).getD j 0 = (r'.1.getD d []).getD j' 0 := by
  obtain ⟨k, f1, f2, f3, f4, f5, -, f7⟩ := h.facts hs
  refine C94_mean_constant sv m _ k Qs Qs' (f4 Qs hQ) (f4 Qs' hQ') e e' r r' ?_ ?_ d (by rw [← f3]; exact hd) j j' hj hj' hx
  · exact predicts_unique hr (f7 Qs e he)
  · exact predicts_unique hr' (f7 Qs' e' he')

/-- C72 for programs: for given data, bounds and parameters and every `ε` there is a number of grid cells from which on every model, of whatever program, that was made with
these data and bounds and with grids of at least that many cells, and has these parameters, reports a log likelihood within `ε` of the exact one and predictions within `ε`
of those of the exact Gaussian process. -/
theorem C72_program (P : ℕ) (hP : 0 < P) (fk : FK) (hr : fk.Regular P) (Xs Ys : List (NDArr ℝ)) (normalize : Bool) (lo hi : GridOpt) (ε : ℝ) (hε : 0 < ε) :
    ∃ N, 0 < N ∧ ∀ sv : Solvers, sv.Fit → sv.Exact → ∀ ops i a m, Held sv ops i a m → a.Xs = Xs → a.Ys = Ys → a.normalize = normalize → a.lo = lo → a.hi = hi → a.Cells P N →
      m.fk = fk →
      (∀ e : Env, e.Works → ∃ v, results sv (ops ++ [.ask i .logLikelihood e]) = results sv ops ++ [.ok (.extended (some v))] ∧ |v - fk.logLik m.gp.Xs m.gp.Ys| ≤ ε) ∧
      ∀ Qs, m.Accepts Qs → (m.prediction = .precompute → ∃ g, fk.activeDims = [g] ∧ g.1 = List.range P) → ∀ e : Env, e.Works →
        ∀ r, Predicts sv ops i Qs e (.ok r) → ∀ d < fk.D, ∀ j < (queryLens Qs).getD d 0, a.Surrounds P (queryPoint P Qs d j) →
          |(r.1.getD d []).getD j 0 - (fk.condMean m.gp.Xs m.gp.Ys d (queryPoint P Qs d j) * (normOf m.gp d).1 + (normOf m.gp d).2)| ≤ ε ∧
          |(r.2.getD d []).getD j 0 - fk.condVar m.gp.Xs d (queryPoint P Qs d j) * (normOf m.gp d).1 ^ 2| ≤ ε := by
  obtain ⟨N, hN, H⟩ := C72_converges P hP fk hr Xs Ys normalize lo hi ε hε
  refine ⟨N, hN, ?_⟩
  rintro sv hs hx ops i a m h h1 h2 h3 h4 h5 h6 h7
  obtain ⟨k, f1, f2, f3, f4, f5, f6, f7⟩ := h.facts hs
  have hP' : m.gp.inputDim = P := by
    have := f5.ready.input
    rw [h7, hr.ready.input] at this
    exact (Option.some.inj this).symm
  rw [hP'] at f1 f4 f5
  have hn : ∀ ad ∈ m.fk.activeDims.map Prod.fst, ad.Nodup := by
    rw [h7]
    intro ad had
    obtain ⟨g, hg, rfl⟩ := List.mem_map.1 had
    exact hr.nodup g hg
  obtain ⟨⟨l, v, c1, c2, c3⟩, c4⟩ := H a m sv k h1 h2 h3 h4 h5 h6 f1 f5 h7 hs f6 (exact_of_current hs hx f5 f6 f2 hn)
  refine ⟨fun e he => ⟨v, ?_, c3⟩, fun Qs hQ hg e he r hrr d hd j hj hsur => c4 Qs (f4 Qs hQ) hg e he r (predicts_unique hrr (f7 Qs e he)) d hd j hj hsur⟩
  rw [(C48_answers sv ops (validFrom_works ops [] h.valid) i m h.model (by rw [f6.kernel]; simp) .logLikelihood e he).1]
  show results sv ops ++ [(do let l ← m.dense; m.logLikelihoodOf l).map .extended] = _
  rw [c1]
  show results sv ops ++ [(m.logLikelihoodOf l).map .extended] = _
  rw [c2]
  rfl

/-- a program that makes one model holds it -/
theorem held_new {sv : Solvers} (hs : sv.Fit) {a : LLGPArgs} {fk fk' : FK} {P : ℕ} (hP : 0 < P) (hd : a.Documented P fk) (ht : 0 < a.traceIterations) (hmet : a.metrics = false)
    (hf : fk.setInputDim P = .ok fk') (hso : fk'.Sound) : ∃ m, Held sv [.new a quiet] 0 a m ∧ m.fk = fk' := by
  obtain ⟨v, s, m, h1, h2⟩ := new_program hs hP hd ht hmet hf hso
  exact ⟨m, ⟨v, h1, none, s⟩, h2⟩

/-- two programs that make models in `'exact'` mode with the same parameters: the second is given a third point, and other values, for the first output.
Its variances, in units of its own scales, are no larger. -/
example : ∃ (a a' : LLGPArgs) (r r' : Predicted), Predicts exactSolvers [.new a quiet] 0 [⟨[1, 2], [0, 0]⟩, ⟨[2, 2], [0, 1, 1, 1]⟩] quiet (.ok r) ∧
    Predicts exactSolvers [.new a' quiet] 0 [⟨[1, 2], [0, 0]⟩, ⟨[2, 2], [0, 1, 1, 1]⟩] quiet (.ok r') ∧ a.Ys ≠ a'.Ys ∧
    (r'.2.getD 1 []).getD 1 0 / a'.scaleOf 1 ^ 2 ≤ (r.2.getD 1 []).getD 1 0 / a.scaleOf 1 ^ 2 := by
  obtain ⟨fk, ⟨h1, h2, h3, h4, -⟩, h⟩ := exists_documented_grid
  have hd := h .exact false none (by simp)
  have hd' := documented_with_data hd (Xs := [⟨[3, 2], [1, 1, 2, 2, 0, 0]⟩, ⟨[2, 2], [0, 1, 1, 0]⟩]) (Ys := [⟨[3], [2, 4, 3]⟩, ⟨[2], [5, 7]⟩])
    ⟨by simp, rfl, fun d hd => by
        have : d < 2 := hd
        interval_cases d
        · exact ⟨3, rfl, .inr rfl⟩
        · exact ⟨2, rfl, .inr rfl⟩, fun Y hY => .inr (by
        simp only [List.mem_cons, List.not_mem_nil, or_false] at hY
        rcases hY with rfl | rfl
        · have hv : varOf [2, 4, 3] = 2 / 3 := by
            simp [varOf, meanOf, Finset.sum_range_succ]
            norm_num
          simp [sdOf, hv]
        · have hv : varOf [5, 7] = 1 := by
            simp [varOf, meanOf, Finset.sum_range_succ]
            norm_num
          simp [sdOf, hv])⟩
    (fun X hX => by
      simp only [List.mem_cons, List.not_mem_nil, or_false] at hX
      rcases hX with rfl | rfl <;> rfl)
    (fun Y hY => by
      simp only [List.mem_cons, List.not_mem_nil, or_false] at hY
      rcases hY with rfl | rfl <;> exact ⟨rfl, by simp⟩) rfl
    (fun c hc => ⟨⟨3, 2, [1, 1, 2, 2, 0, 0]⟩, by simp [padded], 0, by norm_num, ⟨3, 2, [1, 1, 2, 2, 0, 0]⟩, by simp [padded], 1, by norm_num, by
      interval_cases c <;> norm_num [Arr2.get]⟩)
  obtain ⟨m₀, -, i2, -, i4, i5, -, i7, -, i6⟩ := model_of_documented hd (mode := .exact) (metrics := false) rfl rfl h1 h2 h3 h4 rfl
  obtain ⟨m, hm, f⟩ := held_new exactSolvers_fit (by norm_num) hd (by norm_num) rfl i6 i4
  obtain ⟨m', hm', f'⟩ := held_new exactSolvers_fit (by norm_num) hd' (by norm_num) rfl i6 i4
  obtain ⟨k, x1, -, x3, x4, x5, -⟩ := hm.facts exactSolvers_fit
  have hP : m.gp.inputDim = 2 := same_inputDim i2 x5 f
  have hD : m.gp.outputDim = 2 := by rw [x3, f, i5]
  have hl0 : located 2 [⟨[2, 2], [0, 0, 1, 1]⟩, ⟨[2, 2], [0, 1, 1, 0]⟩] 0 = [[0, 0], [1, 1]] := by
    simp [located, queryLens, queryPoint, vmk, List.range_succ]
  have hl1 : located 2 [⟨[3, 2], [1, 1, 2, 2, 0, 0]⟩, ⟨[2, 2], [0, 1, 1, 0]⟩] 0 = [[1, 1], [2, 2], [0, 0]] := by
    simp [located, queryLens, queryPoint, vmk, List.range_succ]
  obtain ⟨r, r', r1, r2, r3⟩ := C81_program exactSolvers exactSolvers_fit _ _ 0 0 _ _ m m' hm hm' (held_exact exactSolvers_fit hm rfl) (held_exact exactSolvers_fit hm' rfl) (by rw [f, f'])
    (by
      rw [hP]
      refine ⟨rfl, fun d hd => ?_⟩
      have : d < 2 := hd
      interval_cases d
      · show (located 2 [⟨[2, 2], [0, 0, 1, 1]⟩, ⟨[2, 2], [0, 1, 1, 0]⟩] 0).Subperm (located 2 [⟨[3, 2], [1, 1, 2, 2, 0, 0]⟩, ⟨[2, 2], [0, 1, 1, 0]⟩] 0)
        rw [hl0, hl1]
        exact (List.Perm.swap ([1, 1] : List ℝ) [0, 0] []).subperm.trans (List.Sublist.cons_cons _ (List.Sublist.cons _ (List.Sublist.refl _))).subperm
      · exact List.Subperm.refl _)
    [⟨[1, 2], [0, 0]⟩, ⟨[2, 2], [0, 1, 1, 1]⟩] ⟨by
      rw [hP, hD]
      refine ⟨rfl, fun X hX => ?_⟩
      simp only [List.mem_cons, List.not_mem_nil, or_false] at hX
      rcases hX with rfl | rfl
      · exact ⟨1, .inr rfl⟩
      · exact ⟨2, .inr rfl⟩, fun X hX => by
      simp only [List.mem_cons, List.not_mem_nil, or_false] at hX
      rcases hX with rfl | rfl <;> rfl⟩ quiet quiet quiet_calm.1 quiet_calm.1
  exact ⟨_, _, r, r', r1, r2, by simp, (r3 1 (by rw [hD]; norm_num) 1 (by simp [queryLens])).2.2.2.1⟩

/-- however small `ε`, a program that makes one model of two outputs, with fine enough grids, gets a log likelihood within `ε` of that of the exact Gaussian process -/
example (mode : PredMode) (ε : ℝ) (hε : 0 < ε) : ∃ (a : LLGPArgs) (m : LLGP) (v : ℝ), a.prediction = mode.name ∧ Held exactSolvers [.new a quiet] 0 a m ∧
    results exactSolvers ([.new a quiet] ++ [.ask 0 .logLikelihood quiet]) = results exactSolvers [.new a quiet] ++ [.ok (.extended (some v))] ∧
    |v - m.fk.logLik m.gp.Xs m.gp.Ys| ≤ ε := by
  obtain ⟨fk0, ⟨hk, hκ, hn, hD, hL, -⟩, hdoc⟩ := exists_documented_grid
  obtain ⟨m1, -, o1, -, s1, d1, -, a1, l1, i1⟩ := model_of_documented (mode := .exact) (hdoc .exact false none (by simp)) rfl rfl hk hκ hn hD rfl
  have hr : m1.fk.Regular 2 := by
    refine ⟨o1.ready, o1.groups, s1, fun g hg => ?_, fun g hg => ?_⟩
    · rw [a1] at hg
      simp only [List.mem_cons, List.not_mem_nil, or_false] at hg
      subst hg
      simp
    · rw [a1] at hg
      simp only [List.mem_cons, List.not_mem_nil, or_false] at hg
      subst hg
      rintro ⟨-, h | h⟩
      · have := h 0 (by simp)
        unfold FK.IsIndep at this
        rw [l1, hL] at this
        omega
      · have := (h 0 (by simp)).1
        rw [l1, hL] at this
        omega
  obtain ⟨N, hN, H⟩ := C72_program 2 (by norm_num) m1.fk hr [⟨[2, 2], [0, 0, 1, 1]⟩, ⟨[2, 2], [0, 1, 1, 0]⟩] [⟨[2], [1, 3]⟩, ⟨[2], [5, 7]⟩] true .none .none ε hε
  have hd := hdoc mode false (some N) (by simp; omega)
  obtain ⟨m, hm, f⟩ := held_new exactSolvers_fit (by norm_num) hd (by norm_num) rfl i1 s1
  obtain ⟨h1, -⟩ := H exactSolvers exactSolvers_fit (fun K n A tol hK _ => exactSolvers_exact hK tol) _ 0 _ m hm rfl rfl rfl rfl rfl (by
    intro c hc n hn
    have hn : ([(N : ℝ), N] : List ℝ).getD c 0 = n := hn
    have : (N : ℝ) = n := by interval_cases c <;> exact hn
    exact le_of_eq (by exact_mod_cast this)) f
  obtain ⟨v, v1, v2⟩ := h1 quiet quiet_calm.1
  exact ⟨_, m, v, rfl, hm, v1, by rw [f]; exact v2⟩

end Verif
