import Verif.Proofs.Uncoupled
import Verif.Props.Reordered

/-! C84: outputs that are not coupled do not influence each other. -/

namespace Verif

/-- C84: of two models with the same parameters and inducing grids, whose outputs in `S` have no covariance with the other outputs and have the same observations, `predict`
raises the same exception in both or returns the same means and variances for the outputs in `S`, whatever was observed of the others, and in every prediction mode. (With
linear solves that are exact; kernels do not read a dimension twice.) -/
theorem C84_uncoupled (sv : Solvers) (hx : sv.Exact) (P : ℕ) (Qs : List (NDArr ℝ)) (m m' : LLGP) (k k' : LLKernel) (h : Asked sv m P k Qs) (h' : Asked sv m' P k' Qs) (e e' : Env)
    (he : e.Works) (he' : e'.Works) (hs : m.fk.Sound) (hn : ∀ ad ∈ m.fk.activeDims.map Prod.fst, ad.Nodup) (hfk : m'.fk = m.fk) (hm : m'.prediction = m.prediction)
    (hg : m'.axesOf = m.axesOf) (a a' : LLGPArgs) (ha : m.MadeFrom P a) (ha' : m'.MadeFrom P a') (S : Finset ℕ) (hS : a.SameOn S a') (hu : m.fk.Uncoupled S) :
    (∃ x, m.gp.predict (m.rawPredict sv e) Qs = .error x ∧ m'.gp.predict (m'.rawPredict sv e') Qs = .error x) ∨
    ∃ r r', m.gp.predict (m.rawPredict sv e) Qs = .ok r ∧ m'.gp.predict (m'.rawPredict sv e') Qs = .ok r' ∧
      ∀ d ∈ S, d < m.fk.D → r'.1.getD d [] = r.1.getD d [] ∧ r'.2.getD d [] = r.2.getD d [] :=
  predict_uncoupled hx (hS.alike h.ok h'.ok ha ha' hfk hm hg) h h' hs hu hn he he'

/-- models made from the same inputs have the same grids -/
theorem same_axes {a a' : LLGPArgs} {P : ℕ} {m m' : LLGP} (ha : m.MadeFrom P a) (ha' : m'.MadeFrom P a') (hsame : a' = { a with Ys := a'.Ys }) : m'.axesOf = m.axesOf := by
  obtain ⟨fk, m0, hd, hi, -, g1, -⟩ := ha
  obtain ⟨fk', m0', hd', hi', -, g2, -⟩ := ha'
  obtain ⟨-, -, -, s1, s2⟩ := documented_fields hd hi
  obtain ⟨-, -, -, t1, t2⟩ := documented_fields hd' hi'
  have hX : a'.Xs = a.Xs := by rw [hsame]
  have hlo : a'.lo = a.lo := by rw [hsame]
  have hhi : a'.hi = a.hi := by rw [hsame]
  have hmm : a'.m = a.m := by rw [hsame]
  have hke : a'.functionalKernel = a.functionalKernel := by rw [hsame]
  have hff : fk' = fk := by
    have := hd'.kernel
    rw [hke, hd.kernel] at this
    exact (Option.some.inj this).symm
  subst hff
  rw [s1] at t1
  rw [(documented_gp hd hi).1] at s2
  rw [← Except.ok.inj t1, (documented_gp hd' hi').1, hX, hlo, hhi, hmm, s2] at t2
  funext ad
  unfold LLGP.axesOf
  rw [g1, g2, Except.ok.inj t2]

/-- C84: with the same inputs, the values observed of the other outputs do not matter. -/
theorem C84_values (sv : Solvers) (hx : sv.Exact) (P : ℕ) (Qs : List (NDArr ℝ)) (m m' : LLGP) (k k' : LLKernel) (h : Asked sv m P k Qs) (h' : Asked sv m' P k' Qs) (e e' : Env)
    (he : e.Works) (he' : e'.Works) (hs : m.fk.Sound) (hn : ∀ ad ∈ m.fk.activeDims.map Prod.fst, ad.Nodup) (hfk : m'.fk = m.fk) (hm : m'.prediction = m.prediction)
    (a a' : LLGPArgs) (ha : m.MadeFrom P a) (ha' : m'.MadeFrom P a') (hsame : a' = { a with Ys := a'.Ys }) (S : Finset ℕ)
    (hS : ∀ d ∈ S, a'.Ys.getD d ⟨[], []⟩ = a.Ys.getD d ⟨[], []⟩) (hu : m.fk.Uncoupled S) :
    (∃ x, m.gp.predict (m.rawPredict sv e) Qs = .error x ∧ m'.gp.predict (m'.rawPredict sv e') Qs = .error x) ∨
    ∃ r r', m.gp.predict (m.rawPredict sv e) Qs = .ok r ∧ m'.gp.predict (m'.rawPredict sv e') Qs = .ok r' ∧
      ∀ d ∈ S, d < m.fk.D → r'.1.getD d [] = r.1.getD d [] ∧ r'.2.getD d [] = r.2.getD d [] :=
  C84_uncoupled sv hx P Qs m m' k k' h h' e e' he he' hs hn hfk hm (same_axes ha ha' hsame) a a' ha ha' S
    ⟨by rw [hsame], by rw [hsame], fun d _ => by rw [hsame], hS⟩ hu

/-- C84: with only independent GPs no output is coupled to another. -/
theorem C84_independent (fk : FK) (hw : fk.WF) (h1 : fk.numLmcTotal = 0) (h2 : fk.numSlfmTotal = 0) (S : Finset ℕ) : fk.Uncoupled S := by
  intro q hq a ha b hb hbS
  have hab : a ≠ b := fun e => hbS (e ▸ ha)
  unfold FK.B
  rw [if_neg hab, add_zero]
  exact Finset.sum_eq_zero fun r _ => by rw [hw.indep q (by omega), zero_mul]

/-- two outputs with two kernels whose coregionalization matrices are diagonal; the second output has other values in the second model. Both predict the same for the first. -/
theorem exists_uncoupled (sv : Solvers) (hsv : sv.Fit) (mode : PredMode) : ∃ (a a' : LLGPArgs) (m m' : LLGP) (k k' : LLKernel),
    Asked sv m 2 k [⟨[1, 2], [0, 0]⟩, ⟨[2, 2], [0, 1, 1, 1]⟩] ∧ Asked sv m' 2 k' [⟨[1, 2], [0, 0]⟩, ⟨[2, 2], [0, 1, 1, 1]⟩] ∧ m.fk.Sound ∧
      (∀ ad ∈ m.fk.activeDims.map Prod.fst, ad.Nodup) ∧ m'.fk = m.fk ∧ m.prediction = mode ∧ m'.prediction = mode ∧ m.MadeFrom 2 a ∧ m'.MadeFrom 2 a' ∧ a' = { a with Ys := a'.Ys } ∧
      (∀ d ∈ ({0} : Finset ℕ), a'.Ys.getD d ⟨[], []⟩ = a.Ys.getD d ⟨[], []⟩) ∧ a'.Ys ≠ a.Ys ∧ m.fk.Uncoupled {0} ∧ m.fk.D = 2 ∧ ∃ g, m.fk.activeDims = [g] ∧ g.1 = List.range 2 := by
  obtain ⟨fk, ⟨h1, h2, h3, h4, -⟩, hB, h⟩ := exists_documented_from fun _ i j => if i = j then 1 else 0
  have hd := h mode false none (by simp)
  have hd' := documented_with_data hd (Xs := [⟨[2, 2], [0, 0, 1, 1]⟩, ⟨[2, 2], [0, 1, 1, 0]⟩]) (Ys := [⟨[2], [1, 3]⟩, ⟨[2], [7, 9]⟩])
    ⟨by simp, rfl, fun d hd => by
        have : d < 2 := hd
        interval_cases d
        · exact ⟨2, rfl, .inr rfl⟩
        · exact ⟨2, rfl, .inr rfl⟩, fun Y hY => .inr (by
        simp only [List.mem_cons, List.not_mem_nil, or_false] at hY
        rcases hY with rfl | rfl
        · have hv : varOf [1, 3] = 1 := by
            simp [varOf, meanOf, Finset.sum_range_succ]
            norm_num
          simp [sdOf, hv]
        · have hv : varOf [7, 9] = 1 := by
            simp [varOf, meanOf, Finset.sum_range_succ]
            norm_num
          simp [sdOf, hv])⟩
    (fun X hX => by
      simp only [List.mem_cons, List.not_mem_nil, or_false] at hX
      rcases hX with rfl | rfl <;> rfl)
    (fun Y hY => by
      simp only [List.mem_cons, List.not_mem_nil, or_false] at hY
      rcases hY with rfl | rfl <;> exact ⟨rfl, by simp⟩) rfl
    (fun c hc => ⟨⟨2, 2, [0, 1, 1, 0]⟩, by simp [padded], c, hc, ⟨2, 2, [0, 1, 1, 0]⟩, by simp [padded], 1 - c, by show 1 - c < 2; omega, by
      interval_cases c <;> norm_num [Arr2.get]⟩)
  obtain ⟨m, i1, i2, i3, i4, i5, -, i7, -, i6⟩ := model_of_documented hd (mode := mode) (metrics := false) rfl rfl h1 h2 h3 h4 rfl
  obtain ⟨m', j1, j2, j3, j4, j5, -, -, -, j6⟩ := model_of_documented hd' (mode := mode) (metrics := false) rfl rfl h1 h2 h3 h4 rfl
  obtain ⟨k, c1, c2⟩ := exists_current hsv i2
  obtain ⟨k', c1', c2'⟩ := exists_current hsv j2
  have hq : ∀ m0 : LLGP, m0.fk.D = 2 → QueriesOK m0.fk.D 2 [⟨[1, 2], [0, 0]⟩, ⟨[2, 2], [0, 1, 1, 1]⟩] := fun m0 e => by
    refine ⟨by rw [e]; rfl, fun X hX => ?_⟩
    simp only [List.mem_cons, List.not_mem_nil, or_false] at hX
    rcases hX with rfl | rfl
    · exact ⟨1, .inr rfl⟩
    · exact ⟨2, .inr rfl⟩
  have ha : ∀ Q ∈ ([⟨[1, 2], [0, 0]⟩, ⟨[2, 2], [0, 1, 1, 1]⟩] : List (NDArr ℝ)), Q.WF := fun X hX => by
    simp only [List.mem_cons, List.not_mem_nil, or_false] at hX
    rcases hX with rfl | rfl <;> rfl
  have hfk : m'.fk = m.fk := by
    rw [i6] at j6
    exact (Except.ok.inj j6).symm
  have hun : m.fk.Uncoupled {0} := by
    obtain ⟨fk'', g1, g2⟩ := setInputDim_fresh fk 2 hd.fresh
    rw [i6] at g1
    have g1 := Except.ok.inj g1
    have hB' := hB (fun r => by rcases r with _ | _ | r <;> simp)
    intro q hq a haS b hb hbS
    rw [Finset.mem_singleton] at haS hbS
    rw [i5] at hb
    have hb1 : b = 1 := by omega
    subst haS hb1
    have hq' : q < fk.Q := by
      have : m.fk.kernels.length = fk.kernels.length := by rw [g1]; exact g2.klen
      unfold FK.Q at hq ⊢
      rw [← this]; exact hq
    have := (hB' q hq').1
    rw [g1, g2.same]
    exact this
  refine ⟨_, _, { m with kernel := some k }, { m' with kernel := some k' }, k, k', ⟨hsv, c2, c1, hq _ i5, ha⟩, ⟨hsv, c2', c1', hq _ j5, ha⟩, i4, ?_, hfk, i3, j3,
    ⟨fk, m, hd, i1, rfl, rfl, rfl⟩, ⟨fk, m', hd', j1, rfl, rfl, rfl⟩, rfl, fun d hd => ?_, ?_, hun, i5, _, i7, rfl⟩
  · show ∀ ad ∈ m.fk.activeDims.map Prod.fst, ad.Nodup
    rw [i7]
    simp
  · rw [Finset.mem_singleton] at hd
    subst hd
    rfl
  · intro hc
    have := congrArg (fun Ys => ((Ys.getD 1 ⟨[], []⟩).data.getD 0 0 : ℝ)) hc
    norm_num at this

/-- the example in all modes -/
example (mode : PredMode) : ∃ (a a' : LLGPArgs) (m m' : LLGP) (r r' : Predicted), m.MadeFrom 2 a ∧ m'.MadeFrom 2 a' ∧ a.Ys ≠ a'.Ys ∧ m.prediction = mode ∧
    m.gp.predict (m.rawPredict exactSolvers quiet) [⟨[1, 2], [0, 0]⟩, ⟨[2, 2], [0, 1, 1, 1]⟩] = .ok r ∧
    m'.gp.predict (m'.rawPredict exactSolvers quiet) [⟨[1, 2], [0, 0]⟩, ⟨[2, 2], [0, 1, 1, 1]⟩] = .ok r' ∧ r'.1.getD 0 [] = r.1.getD 0 [] ∧ r'.2.getD 0 [] = r.2.getD 0 [] := by
  obtain ⟨a, a', m, m', k, k', x1, x2, x3, x4, x5, x6, x7, x8, x9, x10, x11, x12, x13, x14, x15⟩ := exists_uncoupled exactSolvers exactSolvers_fit mode
  rcases C84_values exactSolvers (fun K n A tol hK _ => exactSolvers_exact hK tol) 2 _ m m' k k' x1 x2 quiet quiet quiet_calm.1 quiet_calm.1 x3 x4 x5 (by rw [x6, x7]) a a' x8 x9 x10 {0} x11 x13
    with ⟨x, e1, -⟩ | ⟨r, r', e1, e2, e3⟩
  · exfalso
    obtain ⟨r, hr⟩ := (C43_returns exactSolvers m 2 k _ x1 quiet quiet_calm.1).2.2 ⟨x3.plain, by
      unfold LLGP.CanPredict
      rw [x6]
      cases mode with
      | onTheFly => simp [queryLens]
      | precompute => exact x15
      | exact => exact covMat_posDef x1.ok.ready.wf x1.ok.data.inputs.len x3.kernels x3.kappa x3.noise⟩
    rw [e1] at hr
    cases hr
  · exact ⟨a, a', m, m', r, r', x8, x9, fun h => x12 h.symm, x6, e1, e2, e3 0 (by simp) (by rw [x14]; norm_num)⟩

end Verif
