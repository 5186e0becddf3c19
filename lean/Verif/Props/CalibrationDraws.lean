import Verif.Props.Calibration
import Verif.Props.BenchData
import Verif.Proofs.Cholesky

/-! C107: there are data that are drawn from the model. -/

namespace Verif

open MeasureTheory ProbabilityTheory Matrix

/-- random numbers made from independent standard normal ones with a factor of the covariance -/
theorem normal_of_factor (n : ℕ) (K : ℕ → ℕ → ℝ) (U : Matrix (Fin n) (Fin n) ℝ) (hU : ∀ r s : Fin n, K r s = ∑ k, U k r * U k s) :
    JointlyNormal (standardNormals n) n (fun z => List.ofFn fun r => ∑ k, U k r * z k) K := by
  intro t
  obtain ⟨c, hc⟩ : ∃ c : Fin n → ℝ, c = fun k => ∑ r : Fin n, t r * U k r := ⟨_, rfl⟩
  have e1 : (fun z : Fin n → ℝ => ∑ r ∈ Finset.range n, t r * (List.ofFn fun r : Fin n => ∑ k, U k r * z k).getD r 0) = fun z => ∑ k, c k * z k := by
    funext z
    rw [Finset.sum_range]
    have : ∀ r : Fin n, t r * (List.ofFn fun r : Fin n => ∑ k, U k r * z k).getD r 0 = ∑ k, t r * U k r * z k := fun r => by
      rw [List.getD_eq_getElem _ _ (by simp), List.getElem_ofFn, Finset.mul_sum]
      exact Finset.sum_congr rfl fun k _ => by ring
    rw [Finset.sum_congr rfl fun r _ => this r, Finset.sum_comm]
    refine Finset.sum_congr rfl fun k _ => ?_
    rw [hc, Finset.sum_mul]
  have e2 : ∑ k, c k ^ 2 = ∑ r ∈ Finset.range n, ∑ s ∈ Finset.range n, t r * t s * K r s := by
    rw [Finset.sum_range]
    have : ∀ r : Fin n, ∑ s ∈ Finset.range n, t r * t s * K r s = ∑ k, ∑ s : Fin n, t r * U k r * (t s * U k s) := fun r => by
      rw [Finset.sum_range, Finset.sum_comm]
      refine Finset.sum_congr rfl fun s _ => ?_
      rw [hU, Finset.mul_sum]
      exact Finset.sum_congr rfl fun k _ => by ring
    rw [Finset.sum_congr rfl fun r _ => this r, Finset.sum_comm]
    refine Finset.sum_congr rfl fun k _ => ?_
    rw [hc, sq, Finset.sum_mul_sum]
  rw [← e2, ← standardNormals_combination, e1]

theorem covNew_posDef {fk : FK} (hw : fk.WF) (hs : fk.Sound) {Xs : List (Arr2 ℝ)} (hX : Xs.length = fk.D) {d : ℕ} (hd : d < fk.D) (x : ℕ → ℝ) :
    (fnMatrix ((Xs.map Arr2.rows).sum + 1) ((Xs.map Arr2.rows).sum + 1) (fk.covNew Xs d x)).PosDef := by
  set n := (Xs.map Arr2.rows).sum with hn
  have ho : ∀ r, (if r < n then ownerOf (Xs.map Arr2.rows) r else d) < fk.D := fun r => by
    split_ifs with h
    · have := ownerOf_lt (Xs.map Arr2.rows) r h
      rw [List.length_map, hX] at this
      exact this
    · exact hd
  let o : Fin (n + 1) → Fin fk.D := fun r => ⟨_, ho r⟩
  let p : Fin (n + 1) → ℕ → ℝ := fun r => if (r : ℕ) < n then rowPoint Xs r else x
  have e : fnMatrix (n + 1) (n + 1) (fk.covNew Xs d x) = Matrix.diagonal (fun r => fk.noise.getD (o r) 0) + Matrix.of fun i j => fk.cov (o i) (o j) (p i) (p j) := by
    ext r s
    show fk.covNew Xs d x r s = Matrix.diagonal (fun r => fk.noise.getD (o r) 0) r s + fk.cov (o r) (o s) (p r) (p s)
    refine Eq.trans ?_ (add_comm _ _)
    refine congrArg (fk.cov (o r) (o s) (p r) (p s) + ·) ?_
    by_cases hrs : r = s
    · subst hrs
      rw [if_pos rfl, Matrix.diagonal_apply_eq]
    · rw [if_neg (fun h => hrs (Fin.ext h)), Matrix.diagonal_apply_ne _ hrs]
  rw [e]
  refine Matrix.PosDef.add_posSemidef ?_ (joint_psd hw hs.kernels hs.kappa o p)
  rw [Matrix.posDef_diagonal_iff]
  exact fun r => hs.noise _ (o r).2

/-- C107: for every model with sound parameters, all inputs and every point there are observations and a new observation that are drawn from it. -/
theorem C107_draws (fk : FK) (P : ℕ) (h : fk.Ready P) (hs : fk.Sound) (Xs : List (Arr2 ℝ)) (hX : Xs.length = fk.D) (d : ℕ) (hd : d < fk.D) (x : ℕ → ℝ) :
    ∃ (Y : (Fin ((Xs.map Arr2.rows).sum + 1) → ℝ) → List (NDArr ℝ)) (new : (Fin ((Xs.map Arr2.rows).sum + 1) → ℝ) → ℝ),
      fk.Draws Xs d x (standardNormals ((Xs.map Arr2.rows).sum + 1)) Y new ∧ ∀ z, ∀ y ∈ Y z, y.WF ∧ y.shape.length = 1 := by
  generalize hn : (Xs.map Arr2.rows).sum = n
  have hpd := covNew_posDef h.wf hs hX hd x
  rw [hn] at hpd
  obtain ⟨U, -, -, hU⟩ := exists_cholesky _ _ hpd
  set y : (Fin (n + 1) → ℝ) → List ℝ := fun z => List.ofFn fun r => ∑ k, U k r * z k with hy
  have hlen : ∀ z, (y z).length = n + 1 := fun z => by rw [hy]; simp
  have hne : Xs.map Arr2.rows ≠ [] := by
    intro e
    have := congrArg List.length e
    rw [List.length_map, hX] at this
    have := h.wf.Dpos
    simp at *
    omega
  have hsp := fun z => split_flatten (a := (y z).take n) hne (by rw [List.length_take, hlen]; omega)
  have hdata : ∀ z, ((npSplit ((y z).take n) 0 (accumulate (Xs.map Arr2.rows)).dropLast).map fun l : List ℝ => (⟨[l.length], l⟩ : NDArr ℝ)).map NDArr.data =
      npSplit ((y z).take n) 0 (accumulate (Xs.map Arr2.rows)).dropLast := fun z => by
    rw [List.map_map]
    exact List.map_id _
  refine ⟨fun z => (npSplit ((y z).take n) 0 (accumulate (Xs.map Arr2.rows)).dropLast).map fun l => ⟨[l.length], l⟩, fun z => (y z).getD n 0, ⟨fun z => ?_, ?_⟩, fun z l hl => ?_⟩
  · rw [hdata, (hsp z).2]
  · have e : (fun z => (((npSplit ((y z).take n) 0 (accumulate (Xs.map Arr2.rows)).dropLast).map fun l : List ℝ => (⟨[l.length], l⟩ : NDArr ℝ)).map NDArr.data).flatten ++ [(y z).getD n 0]) = y := by
      funext z
      rw [hdata, (hsp z).1]
      rw [List.getD_eq_getElem _ _ (by rw [hlen]; omega)]
      rw [List.take_append_getElem]
      exact List.take_of_length_le (by rw [hlen])
    rw [e, hn]
    refine normal_of_factor _ _ U fun r s => ?_
    have := congrFun (congrFun hU r) s
    rw [Matrix.mul_apply] at this
    exact this.symm
  · obtain ⟨l', -, rfl⟩ := List.mem_map.1 hl
    exact ⟨by unfold NDArr.WF; simp, rfl⟩

/-- the inputs of the example: two points for each of two outputs -/
noncomputable def drawnXs : List (NDArr ℝ) := [⟨[2, 2], [0, 0, 1, 1]⟩, ⟨[2, 2], [0, 1, 1, 0]⟩]

theorem drawn_padded : padded 2 drawnXs = [⟨2, 2, [0, 0, 1, 1]⟩, ⟨2, 2, [0, 1, 1, 0]⟩] := by simp [padded, drawnXs]

theorem sd_pair {x y : ℝ} (h : x ≠ y) : sdOf [x, y] ≠ 0 := by
  have hv : varOf [x, y] = ((x - y) / 2) ^ 2 := by
    simp [varOf, meanOf, Finset.sum_range_succ]
    ring
  unfold sdOf
  rw [hv]
  refine (Real.sqrt_pos.2 ?_).ne'
  have : (x - y) / 2 ≠ 0 := div_ne_zero (sub_ne_zero.2 h) two_ne_zero
  positivity

/-- one set of parameters for two outputs, and for every grid size and all observations that are not constant a program that makes a model with these parameters
and gets predictions -/
theorem exists_replying : ∃ fk : FK, fk.Regular 2 ∧ fk.D = 2 ∧ ∀ N, 0 < N → ∀ y₀ y₁ y₂ y₃ : ℝ, y₀ ≠ y₁ → y₂ ≠ y₃ →
    (∃ r, Replies 2 fk drawnXs .none .none N [⟨[2], [y₀, y₁]⟩, ⟨[2], [y₂, y₃]⟩] (.predict exampleQueries) (.predicted r)) ∧
    ∀ qs, ∃ Q, Replies 2 fk drawnXs .none .none N [⟨[2], [y₀, y₁]⟩, ⟨[2], [y₂, y₃]⟩] (.quantiles exampleQueries qs) (.quantiles Q) := by
  obtain ⟨fk0, ⟨hk, hκ, hn, hD, hL, -⟩, hdoc⟩ := exists_documented_grid
  obtain ⟨m1, -, o1, -, s1, d1, -, a1, l1, i1⟩ := model_of_documented (mode := .exact) (hdoc .exact false none (by simp)) rfl rfl hk hκ hn hD rfl
  refine ⟨m1.fk, ⟨o1.ready, o1.groups, s1, fun g hg => ?_, fun g hg => ?_⟩, d1, fun N hN y₀ y₁ y₂ y₃ h1 h2 => ?_⟩
  · rw [a1] at hg
    simp only [List.mem_cons, List.not_mem_nil, or_false] at hg
    subst hg
    simp
  · rw [a1] at hg
    simp only [List.mem_cons, List.not_mem_nil, or_false] at hg
    subst hg
    rintro ⟨-, h | h⟩
    · have := h 0 (by simp)
      unfold FK.IsIndep at this
      rw [l1, hL] at this
      omega
    · have := (h 0 (by simp)).1
      rw [l1, hL] at this
      omega
  have hd := documented_with_data (hdoc .precompute false (some N) (by simp; omega)) (Xs := drawnXs) (Ys := [⟨[2], [y₀, y₁]⟩, ⟨[2], [y₂, y₃]⟩])
    ⟨by simp [drawnXs], rfl, fun d hd => by
        have : d < 2 := hd
        interval_cases d
        · exact ⟨2, rfl, .inr rfl⟩
        · exact ⟨2, rfl, .inr rfl⟩, fun Y hY => .inr (by
        simp only [List.mem_cons, List.not_mem_nil, or_false] at hY
        rcases hY with rfl | rfl
        · exact sd_pair h1
        · exact sd_pair h2)⟩
    (fun X hX => by
      simp only [drawnXs, List.mem_cons, List.not_mem_nil, or_false] at hX
      rcases hX with rfl | rfl <;> rfl)
    (fun Y hY => by
      simp only [List.mem_cons, List.not_mem_nil, or_false] at hY
      rcases hY with rfl | rfl <;> exact ⟨rfl, by simp⟩) rfl
    (fun c hc => ⟨⟨2, 2, [0, 0, 1, 1]⟩, by simp [drawn_padded], 0, by norm_num, ⟨2, 2, [0, 0, 1, 1]⟩, by simp [drawn_padded], 1, by norm_num, by
      interval_cases c <;> norm_num [Arr2.get]⟩)
  have hd' : LLGPArgs.Documented ⟨drawnXs, [⟨[2], [y₀, y₁]⟩, ⟨[2], [y₂, y₃]⟩], false, .none, .none, gridChoice (some N), false, PredMode.precompute.name, 15, 1e-4, some fk0⟩ 2 fk0 :=
    ⟨hd.data, hd.arraysX, hd.arraysY, hd.filled, hd.kernel, hd.fresh, hd.wf, hd.some, hd.outputs, hd.valid, hd.dims, hd.mode, hd.lo, hd.hi, hd.m, hd.sizes, hd.spread⟩
  obtain ⟨m, hm, f⟩ := held_new exactSolvers_fit (by norm_num) hd' (by norm_num) rfl i1 s1
  obtain ⟨k, x1, x2, x3, x4, x5, x6, x7⟩ := hm.facts exactSolvers_fit
  have hP : m.gp.inputDim = 2 := same_inputDim o1 x5 f
  rw [hP] at x4 x5
  have hQ : QueriesOK m.gp.outputDim 2 exampleQueries := by
    rw [x3, f, d1]
    refine ⟨rfl, fun X hX => ?_⟩
    simp only [exampleQueries, List.mem_cons, List.not_mem_nil, or_false] at hX
    rcases hX with rfl | rfl
    · exact ⟨1, .inr rfl⟩
    · exact ⟨2, .inr rfl⟩
  have hA : m.Accepts exampleQueries := ⟨by rw [hP]; exact hQ, fun X hX => by
    simp only [exampleQueries, List.mem_cons, List.not_mem_nil, or_false] at hX
    rcases hX with rfl | rfl <;> rfl⟩
  have hq := x4 _ hA
  have hone : ∃ g, m1.fk.activeDims = [g] ∧ g.1 = List.range 2 := ⟨_, a1, rfl⟩
  have hcan : m.CanPredict 2 exampleQueries := by
    unfold LLGP.CanPredict
    cases m.prediction with
    | onTheFly => simp [queryLens, exampleQueries]
    | precompute => rw [f]; exact hone
    | exact => exact covMat_posDef x5.ready.wf x5.data.inputs.len x2.kernels x2.kappa x2.noise
  obtain ⟨r, hpr⟩ := (C43_returns _ m 2 k _ hq quiet quiet_calm.1).2.2 ⟨x2.plain, hcan⟩
  have hc : LLGPArgs.Cells ⟨drawnXs, [⟨[2], [y₀, y₁]⟩, ⟨[2], [y₂, y₃]⟩], false, .none, .none, gridChoice (some N), false, PredMode.precompute.name, 15, 1e-4, some fk0⟩ 2 N := by
    intro c hc n hn
    have hn : ([(N : ℝ), N] : List ℝ).getD c 0 = n := hn
    have : (N : ℝ) = n := by interval_cases c <;> exact hn
    exact le_of_eq (by exact_mod_cast this)
  have hans := fun q => (C48_answers exactSolvers _ (validFrom_works _ [] hm.valid) 0 m hm.model (by rw [x6.kernel]; simp) q quiet quiet_calm.1).1
  have hex : exactSolvers.Exact := fun K n A tol hK _ => exactSolvers_exact hK tol
  constructor
  · refine ⟨r, exactSolvers, _, 0, _, m, quiet, exactSolvers_fit, hex, hm, quiet_calm.1, rfl, rfl, rfl, rfl, rfl, hc, f, fun _ _ => hone, ?_⟩
    rw [hans]
    show _ ++ [(m.gp.predict (m.rawPredict exactSolvers quiet) exampleQueries).map Answer.predicted] = _
    rw [hpr]
    rfl
  · intro qs
    have hex2 : ∃ Q, m.gp.predictQuantiles (m.rawPredict exactSolvers quiet) exampleQueries qs = .ok Q := by
      cases hraw : m.rawPredict exactSolvers quiet (padded 2 exampleQueries) with
      | error x =>
        rw [predict_error hq hraw] at hpr
        cases hpr
      | ok p =>
        have hp : PredictionFits p (queryLens exampleQueries) := by rw [← padded_lens (P := 2)]; exact raw_fits (by simp [padded, exampleQueries]) hraw
        obtain ⟨-, Q', q1, -⟩ := predict_values m.gp x5.gp _ exampleQueries hA.1 p (by rw [hP]; exact hraw) hp qs
        exact ⟨Q', q1⟩
    obtain ⟨Q, hQ'⟩ := hex2
    refine ⟨Q, exactSolvers, _, 0, _, m, quiet, exactSolvers_fit, hex, hm, quiet_calm.1, rfl, rfl, rfl, rfl, rfl, hc, f, fun _ _ => hone, ?_⟩
    rw [hans]
    show _ ++ [(m.gp.predictQuantiles (m.rawPredict exactSolvers quiet) exampleQueries qs).map Answer.quantiles] = _
    rw [hQ']
    rfl

/-- almost surely, two observations of a draw differ -/
theorem FK.Draws.differ {Ω : Type} [MeasurableSpace Ω] {μ : Measure Ω} {fk : FK} {Xs : List (Arr2 ℝ)} {d : ℕ} {x : ℕ → ℝ} {Y : Ω → List (NDArr ℝ)} {new : Ω → ℝ}
    (h : fk.Draws Xs d x μ Y new) (hw : fk.WF) (hs : fk.Sound) (hX : Xs.length = fk.D) (hd : d < fk.D) {r s : ℕ} (hr : r < (Xs.map Arr2.rows).sum) (hs' : s < (Xs.map Arr2.rows).sum)
    (hrs : r ≠ s) : ∀ᵐ ω ∂μ, ((Y ω).map NDArr.data).flatten.getD r 0 ≠ ((Y ω).map NDArr.data).flatten.getD s 0 := by
  set n := (Xs.map Arr2.rows).sum with hn
  have hl := h.normal fun t => (if t = r then 1 else 0) - if t = s then 1 else 0
  have hpd := covNew_posDef hw hs hX hd x
  rw [← hn] at hl hpd
  set v := ∑ a ∈ Finset.range (n + 1), ∑ b ∈ Finset.range (n + 1), (((if a = r then 1 else 0) - if a = s then 1 else 0) * ((if b = r then 1 else 0) - if b = s then 1 else 0) : ℝ) *
    fk.covNew Xs d x a b with hv
  have hpos : 0 < v := by
    obtain ⟨-, hp⟩ := pd_iff_sum.1 hpd
    have := hp (fun t : Fin (n + 1) => (if (t : ℕ) = r then 1 else 0) - if (t : ℕ) = s then 1 else 0) (fun e => by
      have := congrFun e ⟨r, by omega⟩
      simp only [if_true, hrs, if_false, Pi.zero_apply] at this
      norm_num at this)
    rw [hv, Finset.sum_range]
    refine lt_of_lt_of_eq this (Finset.sum_congr rfl fun a _ => ?_)
    rw [Finset.sum_range]
    refine Finset.sum_congr rfl fun b _ => ?_
    unfold fnMatrix
    ring
  have e : (fun ω => ∑ t ∈ Finset.range (n + 1), (((if t = r then 1 else 0) - if t = s then 1 else 0) : ℝ) * (((Y ω).map NDArr.data).flatten ++ [new ω]).getD t 0) =
      fun ω => ((Y ω).map NDArr.data).flatten.getD r 0 - ((Y ω).map NDArr.data).flatten.getD s 0 := by
    funext ω
    simp only [sub_mul, ite_mul, one_mul, zero_mul, Finset.sum_sub_distrib]
    rw [Finset.sum_ite_eq' _ _ fun t => (((Y ω).map NDArr.data).flatten ++ [new ω]).getD t 0, if_pos (Finset.mem_range.2 (by omega)),
      Finset.sum_ite_eq' _ _ fun t => (((Y ω).map NDArr.data).flatten ++ [new ω]).getD t 0, if_pos (Finset.mem_range.2 (by omega)),
      List.getD_append _ _ _ _ (by rw [h.length]; exact hr), List.getD_append _ _ _ _ (by rw [h.length]; exact hs')]
  rw [e] at hl
  have hm := law_aemeasurable hl
  have hne : v.toNNReal ≠ 0 := (Real.toNNReal_pos.2 hpos).ne'
  have : NullSingletonClass (gaussianReal 0 v.toNNReal) := nullSingletonClass_gaussianReal hne
  have h0 : (gaussianReal 0 v.toNNReal) {0} = 0 := measure_singleton 0
  rw [← hl, Measure.map_apply_of_aemeasurable hm (measurableSet_singleton 0)] at h0
  rw [ae_iff]
  refine measure_mono_null (fun ω hω => ?_) h0
  simp only [ne_eq, not_not, Set.mem_setOf_eq] at hω
  exact Set.mem_singleton_iff.2 (sub_eq_zero.2 hω)

theorem drawn_shape {Ys : List (NDArr ℝ)} (hl : (Ys.map NDArr.data).map List.length = (padded 2 drawnXs).map Arr2.rows) (hy : ∀ y ∈ Ys, y.WF ∧ y.shape.length = 1) :
    ∃ y₀ y₁ y₂ y₃ : ℝ, Ys = [⟨[2], [y₀, y₁]⟩, ⟨[2], [y₂, y₃]⟩] := by
  rw [drawn_padded] at hl
  have hlen : Ys.length = 2 := by
    have := congrArg List.length hl
    simpa using this
  obtain ⟨a, b, rfl⟩ := List.length_eq_two.1 hlen
  simp only [List.map_cons, List.map_nil, List.cons.injEq, and_true] at hl
  obtain ⟨la, lb⟩ := hl
  obtain ⟨y₀, y₁, ea⟩ := List.length_eq_two.1 la
  obtain ⟨y₂, y₃, eb⟩ := List.length_eq_two.1 lb
  have key : ∀ c : NDArr ℝ, c.WF → c.shape.length = 1 → ∀ u v, c.data = [u, v] → c = ⟨[2], [u, v]⟩ := by
    rintro ⟨sh, da⟩ w l u v rfl
    obtain ⟨k, rfl⟩ := List.length_eq_one_iff.1 l
    unfold NDArr.WF at w
    simp at w
    rw [← w]
  exact ⟨y₀, y₁, y₂, y₃, by rw [key a (hy a (by simp)).1 (hy a (by simp)).2 _ _ ea, key b (hy b (by simp)).1 (hy b (by simp)).2 _ _ eb]⟩

/-- C107 applies: for each accuracy some program, asked for the 5th, 50th and 95th percentiles at three points, covers the new observation as often as it says -/
example (ε : ℝ) (hε : 0 < ε) : ∃ (fk : FK) (N : ℕ) (Y : (Fin 5 → ℝ) → List (NDArr ℝ)) (new : (Fin 5 → ℝ) → ℝ) (Q : (Fin 5 → ℝ) → List (Arr2 ℝ)),
    fk.Draws (padded 2 drawnXs) 1 (queryPoint 2 exampleQueries 1 1) (standardNormals 5) Y new ∧
    (∀ᵐ z ∂standardNormals 5, Replies 2 fk drawnXs .none .none N (Y z) (.quantiles exampleQueries [5, 50, 95]) (.quantiles (Q z))) ∧
    |(standardNormals 5).real {z | ((Q z).getD 1 ⟨0, 0, []⟩).get 1 0 ≤ new z ∧ new z ≤ ((Q z).getD 1 ⟨0, 0, []⟩).get 1 2} - 9 / 10| ≤ ε := by
  obtain ⟨fk, hr, hD, H⟩ := exists_replying
  have hX : (padded 2 drawnXs).length = fk.D := by rw [hD, drawn_padded]; rfl
  obtain ⟨N, hN, HN⟩ := C107_quantiles 2 (by norm_num) fk hr drawnXs .none .none exampleQueries ⟨by rw [hD]; rfl, fun X hX => by
      simp only [exampleQueries, List.mem_cons, List.not_mem_nil, or_false] at hX
      rcases hX with rfl | rfl
      · exact ⟨1, .inr rfl⟩
      · exact ⟨2, .inr rfl⟩⟩ (fun X hX => by
      simp only [exampleQueries, List.mem_cons, List.not_mem_nil, or_false] at hX
      rcases hX with rfl | rfl <;> rfl) [5, 50, 95] (fun q hq => by
      simp only [List.mem_cons, List.not_mem_nil, or_false] at hq
      rcases hq with rfl | rfl | rfl <;> norm_num) 1 (by rw [hD]; norm_num) 1 (by simp [queryLens, exampleQueries]) (fun c hc => by
      rw [drawn_padded]
      refine ⟨⟨0, .inl ⟨⟨2, 2, [0, 0, 1, 1]⟩, by simp, 0, by simp, ?_⟩, ?_⟩, 1, .inl ⟨⟨2, 2, [0, 0, 1, 1]⟩, by simp, 1, by simp, ?_⟩, ?_⟩ <;>
        interval_cases c <;> norm_num [Arr2.get, queryPoint, exampleQueries]) ε hε
  obtain ⟨Y, new, hdr, hY⟩ := C107_draws fk 2 hr.ready hr.sound (padded 2 drawnXs) hX 1 (by rw [hD]; norm_num) (queryPoint 2 exampleQueries 1 1)
  have h01 := hdr.differ hr.ready.wf hr.sound hX (by rw [hD]; norm_num) (r := 0) (s := 1) (by simp [drawn_padded]) (by simp [drawn_padded]) (by norm_num)
  have h23 := hdr.differ hr.ready.wf hr.sound hX (by rw [hD]; norm_num) (r := 2) (s := 3) (by simp [drawn_padded]) (by simp [drawn_padded]) (by norm_num)
  have hsum : ((padded 2 drawnXs).map Arr2.rows).sum + 1 = 5 := by rw [drawn_padded]; rfl
  have hall : ∀ z, ∃ y₀ y₁ y₂ y₃ : ℝ, Y z = [⟨[2], [y₀, y₁]⟩, ⟨[2], [y₂, y₃]⟩] := fun z => drawn_shape (hdr.lens z) (hY z)
  have hrep : ∀ᵐ z ∂standardNormals (((padded 2 drawnXs).map Arr2.rows).sum + 1), ∃ Q, Replies 2 fk drawnXs .none .none N (Y z) (.quantiles exampleQueries [5, 50, 95]) (.quantiles Q) := by
    filter_upwards [h01, h23] with z z1 z2
    obtain ⟨y₀, y₁, y₂, y₃, e⟩ := hall z
    rw [e] at z1 z2 ⊢
    exact (H N hN y₀ y₁ y₂ y₃ (by simpa using z1) (by simpa using z2)).2 _
  classical
  let Q : (Fin (((padded 2 drawnXs).map Arr2.rows).sum + 1) → ℝ) → List (Arr2 ℝ) := fun z =>
    if h : ∃ Q, Replies 2 fk drawnXs .none .none N (Y z) (.quantiles exampleQueries [5, 50, 95]) (.quantiles Q) then h.choose else []
  have hQ : ∀ᵐ z ∂standardNormals (((padded 2 drawnXs).map Arr2.rows).sum + 1), Replies 2 fk drawnXs .none .none N (Y z) (.quantiles exampleQueries [5, 50, 95]) (.quantiles (Q z)) := by
    filter_upwards [hrep] with z hz
    show Replies _ _ _ _ _ _ _ _ (.quantiles (if h : _ then _ else _))
    rw [dif_pos hz]
    exact hz.choose_spec
  have hfin := (HN (standardNormals _) Y new Q hdr hQ).2 0 (by simp) 2 (by simp) (by simp; norm_num)
  have e9 : (([5, 50, 95] : List ℝ).getD 2 0 - ([5, 50, 95] : List ℝ).getD 0 0) / 100 = 9 / 10 := by norm_num
  rw [e9] at hfin
  clear_value Q
  clear H HN hall hY h01 h23 hrep
  revert Y new Q
  rw [hsum]
  exact fun Y new hdr Q hQ hfin => ⟨fk, N, Y, new, Q, hdr, hQ, hfin⟩

end Verif
