import Verif.Props.Reached
import Verif.Props.SameCovariance
import Verif.Proofs.VarianceBounds

/-! A documented program that makes a model of one output with one-dimensional inputs on the grid 0, 1, …, 9, used as a witness. -/

namespace Verif

open Matrix

/-- the arguments: two observations at `x1` and `x2`, explicit grid bounds, and one latent function with an RBF kernel -/
noncomputable def smallArgs (mode : PredMode) (x1 x2 : ℝ) (fk : FK) : LLGPArgs :=
  ⟨[⟨[2, 1], [x1, x2]⟩], [⟨[2], [1, 3]⟩], true, .scalar 1.8, .scalar 7.2, .scalar 6, false, mode.name, 15, 1e-4, some fk⟩

theorem small_grid {x1 x2 : ℝ} (h1 : 1.8 ≤ x1) (h2 : x1 ≤ 7.2) (h3 : 1.8 ≤ x2) (h4 : x2 ≤ 7.2) {g : GroupGrid}
    (hg : generateGrid [⟨2, 1, [x1, x2]⟩] (.scalar 1.8) (.scalar 7.2) (.scalar 6) [0] = .ok g) : g.axes = [vmk 10 fun i => (i : ℝ)] := by
  unfold generateGrid at hg
  simp only [bind_ok, pure_ok] at hg
  obtain ⟨wlo, e1, whi, e2, wm, e3, Xa, e4, ag, e5, ds, -, W, -, rfl⟩ := hg
  simp only [wrapOpt, List.length_singleton, if_pos] at e1 e2 e3
  cases e1
  cases e2
  cases e3
  have hXa : Xa = [⟨2, 1, [x1, x2]⟩] := by
    simp only [mapExcept, takeCols, bind_ok, pure_ok] at e4
    obtain ⟨X, e, l, el, rfl⟩ := e4
    cases el
    simp [Arr2.of, Arr2.get, vmk, List.range_succ] at e
    rw [← e]
  subst hXa
  unfold autogrid at e5
  have hf : ∀ v : ℝ, (GridArg.ndarray [v]).fits 1 := fun v w hw => by cases hw; rfl
  simp only [] at e5
  rw [if_neg (not_not.2 (hf _)), if_neg (not_not.2 (hf _)), if_neg (not_not.2 (hf _))] at e5
  simp only [mapExcept, axisReduce, bind_ok, pure_ok] at e5
  obtain ⟨mins, e6, maxs, e7, e5⟩ := e5
  have e6 : mins = [[min x1 x2]] := by
    simp [Arr2.col, Arr2.get, vmk, List.range_succ] at e6
    exact e6.symm
  have e7 : maxs = [[max x1 x2]] := by
    simp [Arr2.col, Arr2.get, vmk, List.range_succ] at e7
    exact e7.symm
  subst e6 e7
  have l1 : min 1.8 (min x1 x2) = 1.8 := min_eq_left (le_min h1 h3)
  have l2 : max 7.2 (max x1 x2) = 7.2 := max_eq_left (max_le h2 h4)
  simp only [GridArg.vals, zip2, List.zipWith_cons_cons, List.zipWith_nil_right, List.tail_cons, List.foldl_nil, List.headD_cons, l1, l2, List.map_cons, List.map_nil, List.zip_cons_cons,
    List.zip_nil_right] at e5
  split_ifs at e5 with h
  · cases e5
    have hp : pyInt (6 + 4) = 10 := by
      unfold pyInt
      rw [show (6 + 4 : ℝ) = (10 : ℕ) by norm_num, Nat.floor_natCast]
    simp only [linspace, hp]
    congr 1
    refine List.ext_getElem (by simp [vmk]) fun i hi hi' => ?_
    simp only [vmk, List.getElem_map, List.getElem_range]
    push_cast
    ring

theorem small_fk : ∃ fk, fkNew (fun _ _ _ => 1) ⟨some 1, some [], some [], some [.rbf 100 none], none, none⟩ = .ok fk ∧ fk.WF ∧ fk.Fresh ∧ fk.kernels = [.rbf 100 none] ∧ fk.D = 1 ∧
    fk.noise = [0.1] ∧ fk.B 0 0 0 = 1 ∧ (fk.coregDiags.getD 0 []).getD 0 0 = 0 := by
  obtain ⟨D, hD, h⟩ := (fkNew_given (fun _ _ _ => 1) ⟨some 1, some [], some [], some [.rbf 100 none], none, none⟩ (by simp) (by simp)).1
    ⟨⟨1, rfl, by norm_num⟩, by simp [given], rfl, by simp [given], .inl rfl⟩ (fun D hD => by cases hD; simp [given])
  have hD2 : D = 1 := by simp at hD; omega
  subst hD2
  obtain ⟨-, -, -, hw, hf⟩ := C29_contents _ _ _ (by simp) (by simp) h
  refine ⟨_, h, hw, hf, rfl, rfl, by simp [vmk], ?_, ?_⟩
  · simp [FK.B, initAq, given, Arr2.of, Arr2.zeros, Arr2.get, vmk, List.range_succ, Finset.sum_range_succ, FKArgs.idx, indexOrRange]
  · simp [given, vmk]

theorem small_model (mode : PredMode) {x1 x2 : ℝ} (h1 : 1.8 ≤ x1) (h2 : x1 < x2) (h3 : x2 ≤ 7.2) : ∃ fk,
    fkNew (fun _ _ _ => 1) ⟨some 1, some [], some [], some [.rbf 100 none], none, none⟩ = .ok fk ∧ ∃ m,
    Held exactSolvers [.new (smallArgs mode x1 x2 fk) quiet] 0 (smallArgs mode x1 x2 fk) m ∧ m.prediction = mode ∧ m.fk.Sound ∧ m.fk.D = 1 ∧ m.fk.noise = [0.1] ∧
    m.fk.kernels = [.rbf 100 (some [0])] ∧ m.fk.B 0 0 0 = 1 ∧ m.fk.activeDims = [([0], [0])] ∧ m.fk.extraOf ([0], [0]) = 0 ∧ m.axesOf [0] = [vmk 10 fun i => (i : ℝ)] ∧
    m.gp.Xs = [⟨2, 1, [x1, x2]⟩] ∧ m.gp.inputDim = 1 := by
  obtain ⟨fk, h, hw, hf, h0, hD, hn, hB, hκ⟩ := small_fk
  refine ⟨fk, h, ?_⟩
  have hd : (smallArgs mode x1 x2 fk).Documented 1 fk := by
    refine ⟨⟨by simp [smallArgs], rfl, fun d hd => ?_, fun Y hY => .inr ?_⟩, ?_, ?_, ?_, rfl, hf, hw, by simp [FK.Q, h0], hD, ?_, ?_, ?_, ?_, ?_, ?_, ?_, ?_⟩
    · have : d < 1 := hd
      interval_cases d
      exact ⟨2, rfl, .inr rfl⟩
    · simp only [smallArgs, List.mem_cons, List.not_mem_nil, or_false] at hY
      rw [hY]
      simp [sdOf, varOf, meanOf, Finset.sum_range_succ]
      norm_num
    · intro X hX
      simp only [smallArgs, List.mem_cons, List.not_mem_nil, or_false] at hX
      rw [hX]
      rfl
    · intro X hX
      simp only [smallArgs, List.mem_cons, List.not_mem_nil, or_false] at hX
      rw [hX]
      rfl
    · intro X hX
      simp only [smallArgs, List.mem_cons, List.not_mem_nil, or_false] at hX
      rw [hX]
      simp
    · intro k hk
      rw [h0, List.mem_singleton] at hk
      rw [hk]
      simp [Kern.Valid]
    · intro k hk
      rw [h0, List.mem_singleton] at hk
      rw [hk]
      simp [dimsRead, Kern.activeDims]
    · cases mode <;> simp [smallArgs, PredMode.name]
    · intro k hk
      rw [h0, List.mem_singleton] at hk
      rw [hk]
      simp [dimsRead, Kern.activeDims]
    · intro k hk
      rw [h0, List.mem_singleton] at hk
      rw [hk]
      simp [dimsRead, Kern.activeDims]
    · intro k hk
      rw [h0, List.mem_singleton] at hk
      rw [hk]
      simp [dimsRead, Kern.activeDims]
    · intro c hc v hv
      refine ⟨6, by norm_num, ?_⟩
      simp [smallArgs, GridOpt.at] at hv
      rw [← hv]
      norm_num
    · intro c hc
      refine ⟨⟨2, 1, [x1, x2]⟩, by simp [smallArgs, padded], 0, by norm_num, .inl ⟨⟨2, 1, [x1, x2]⟩, by simp [smallArgs, padded], 1, by norm_num, ?_⟩⟩
      interval_cases c
      simpa [Arr2.get] using h2
  obtain ⟨fk', g1, g2⟩ := setInputDim_fresh fk 1 hf
  obtain ⟨m0, fk'', i1, i2, i3, i4, i5⟩ := llgpInit_documented hd (by norm_num)
  rw [g1] at i3
  cases i3
  have hQ : fk.Q = 1 := by simp [FK.Q, h0]
  have hQ' : fk'.Q = 1 := by rw [← hQ]; exact g2.klen
  have hker : fk'.kernels = [.rbf 100 (some [0])] := by
    obtain ⟨k, hk⟩ := List.length_eq_one_iff.1 (show fk'.kernels.length = 1 from hQ')
    have := g2.kern 0 (by rw [h0]; simp)
    rw [h0, hk] at this
    rw [hk]
    simp at this
    rw [this]
    rfl
  have hso : fk'.Sound := by
    refine ⟨fun q h => ?_, fun k h => ?_, fun q h => ?_, ?_⟩
    · rw [hQ'] at h
      interval_cases q
      have := C36_kernels_psd m0.fk 1 i2.ready 0 (by rw [i4, hQ']; norm_num) (.inl (by rw [i4, hker]; trivial))
      rwa [i4] at this
    · rw [hker, List.mem_singleton] at h
      rw [h]
      trivial
    · rw [g2.same]
      show ∀ a < fk.D, 0 ≤ (fk.coregDiags.getD q []).getD a 0
      rw [hQ'] at h
      rw [hD]
      intro a ha
      interval_cases q
      interval_cases a
      exact hκ.ge
    · rw [g2.same]
      show ∀ a < fk.D, 0 < fk.noise.getD a 0
      rw [hD, hn]
      intro a ha
      interval_cases a
      norm_num
  obtain ⟨m, hm, e⟩ := held_new exactSolvers_fit (by norm_num) hd (by norm_num [smallArgs]) rfl g1 hso
  obtain ⟨k, h4, -, -, -, hok, -⟩ := hm.facts exactSolvers_fit
  obtain ⟨fk1, m1, d1, e1, e2, e3, e4⟩ := h4
  have hmm : m1 = m0 := by rw [i1] at e1; cases e1; rfl
  subst hmm
  obtain ⟨f1, -, -, -, f5⟩ := documented_fields hd i1
  have hact : m.fk.activeDims = [([0], [0])] := by
    rw [e]
    have hdr : dimsRead 1 (fk.kernels.getD 0 (.identity none)) = [0] := by rw [h0]; rfl
    have hgr : ∀ key, fk.groupOf 1 key = if key = [0] then [0] else [] := fun key => by
      unfold FK.groupOf
      rw [show fk.kernels.length = 1 from hQ, show List.range 1 = [0] from rfl]
      simp only [List.filter_cons, List.filter_nil, hdr]
      by_cases hk : key = [0]
      · simp [hk]
      · simp [Ne.symm hk, hk]
    have hmem : ∀ g ∈ fk'.activeDims, g = ([0], [0]) := fun g hg => by
      obtain ⟨a1, a2⟩ := (g2.mem g.1 g.2).1 hg
      rw [hgr] at a1
      split_ifs at a1 with hk
      · exact Prod.ext hk a1
      · exact absurd a1 a2
    have hin : (([0], [0]) : List ℕ × List ℕ) ∈ fk'.activeDims := (g2.mem [0] [0]).2 ⟨by rw [hgr, if_pos rfl], by simp⟩
    have hnd := g2.nodup
    match hl : fk'.activeDims, hmem, hin, hnd with
    | [g], hmem, _, _ => rw [hmem g (by simp)]
    | g :: g' :: l, hmem, _, hnd =>
      rw [hmem g (by simp), hmem g' (by simp)] at hnd
      simp at hnd
  have hXs : m.gp.Xs = [⟨2, 1, [x1, x2]⟩] := by
    rw [e2, i5]
    rfl
  refine ⟨m, hm, ?_, by rw [e]; exact hso, by rw [e, g2.same]; exact hD, by rw [e, g2.same]; exact hn, by rw [e]; exact hker, ?_, hact, ?_, ?_, hXs, by rw [e2, f1]⟩
  · have := held_mode exactSolvers_fit hm
    cases mode <;> simp [smallArgs, PredMode.name, predMode] at this <;> exact this.symm
  · rw [e, g2.same]
    exact hB
  · unfold FK.extraOf
    refine if_neg fun h => ?_
    have := h.1
    unfold chooseKType at this
    rw [if_pos (by rw [e]; exact hQ')] at this
    cases this
  · rw [← e2, ← e3, hXs] at f5
    obtain ⟨g, q1, q2⟩ := generateGrids_at f5 (ad := [0]) (by rw [← e4, hact]; simp)
    unfold LLGP.axesOf
    rw [q2]
    exact small_grid h1 (h2.le.trans h3) (h1.trans h2.le) h3 q1

/-! ### values -/

/-- the covariance of the latent function at distance `r` -/
noncomputable def smallKer (r : ℝ) : ℝ := Real.exp (-100 * r ^ 2 / 2)

theorem smallKer_zero : smallKer 0 = 1 := by simp [smallKer]

theorem smallKer_pos (r : ℝ) : 0 < smallKer r := Real.exp_pos _

theorem smallKer_le {r : ℝ} (h : 1 ≤ r ^ 2) : smallKer r ≤ 1 / 51 := by
  have h1 : smallKer r ≤ Real.exp (-50) := Real.exp_le_exp.2 (by linarith)
  have h2 : (51 : ℝ) ≤ Real.exp 50 := by have := Real.add_one_le_exp (50 : ℝ); linarith
  rw [Real.exp_neg, ← one_div] at h1
  exact h1.trans (one_div_le_one_div_of_le (by norm_num) h2)

theorem small_size : gridSize [vmk 10 fun i => (i : ℝ)] = 10 := by simp [gridSize, vmk_length]

theorem small_weight (s : ℝ) {p : ℕ} : gridWeight [vmk 10 fun i => (i : ℝ)] (fun _ => s) p =
    (([-1, 0, 1, 2] : List ℤ).map fun c => if clampTo 10 (⌊s⌋ + c) = p then keys (s - (⌊s⌋ + c)) else 0).sum := by
  simp only [gridWeight, keysWeight, List.map_nil, List.prod_nil, Nat.div_one, mul_one, vmk_length]
  rw [vmk_getD_lt (by norm_num), vmk_getD_lt (by norm_num)]
  norm_num

theorem small_distance {p q : ℕ} (hp : p < 10) (hq : q < 10) : gridDistance [vmk 10 fun i => (i : ℝ)] p q = |(p : ℝ) - q| := by
  simp only [gridDistance, euclid, gridPoint, gridSize, List.map_nil, List.prod_nil, Nat.div_one, List.length_singleton, Finset.sum_range_one, List.getD_cons_zero]
  rw [vmk_getD_lt hp, vmk_getD_lt hq, Real.sqrt_sq_eq_abs]

theorem small_gridCov {fk : FK} (hk : fk.kernels = [.rbf 100 (some [0])]) (hB : fk.B 0 0 0 = 1) {p q : ℕ} (hp : p < 10) (hq : q < 10) :
    fk.gridCov [vmk 10 fun i => (i : ℝ)] [0] 0 0 p q = smallKer ((p : ℝ) - q) := by
  simp only [FK.gridCov, List.map_cons, List.map_nil, List.sum_cons, List.sum_nil, add_zero, hB, one_mul, hk, List.getD_cons_zero, Kern.doc, small_distance hp hq, sq_abs, smallKer]

/-- the half-way weights -/
theorem small_half {s : ℝ} {n : ℕ} (hs : s = n + 1 / 2) (h1 : 1 ≤ n) (h2 : n ≤ 7) {p : ℕ} : gridWeight [vmk 10 fun i => (i : ℝ)] (fun _ => s) p =
    if p + 1 = n then -1 / 16 else if p = n then 9 / 16 else if p = n + 1 then 9 / 16 else if p = n + 2 then -1 / 16 else 0 := by
  rw [small_weight]
  have hf : ⌊s⌋ = n := by
    rw [hs, Int.floor_eq_iff]
    push_cast
    constructor <;> linarith
  have k1 : keys (s - ((n : ℝ) + (-1 : ℤ))) = -1 / 16 := by
    rw [show s - ((n : ℝ) + (-1 : ℤ)) = 1 / 2 + 1 by rw [hs]; push_cast; ring, keys_p1 (by norm_num) (by norm_num)]; norm_num
  have k2 : keys (s - ((n : ℝ) + (0 : ℤ))) = 9 / 16 := by
    rw [show s - ((n : ℝ) + (0 : ℤ)) = 1 / 2 by rw [hs]; push_cast; ring, keys_0 (by norm_num) (by norm_num)]; norm_num
  have k3 : keys (s - ((n : ℝ) + (1 : ℤ))) = 9 / 16 := by
    rw [show s - ((n : ℝ) + (1 : ℤ)) = 1 / 2 - 1 by rw [hs]; push_cast; ring, keys_m1 (by norm_num) (by norm_num)]; norm_num
  have k4 : keys (s - ((n : ℝ) + (2 : ℤ))) = -1 / 16 := by
    rw [show s - ((n : ℝ) + (2 : ℤ)) = 1 / 2 - 2 by rw [hs]; push_cast; ring, keys_m2 (by norm_num) (by norm_num)]; norm_num
  have c : ∀ c : ℤ, -1 ≤ c → c ≤ 2 → (clampTo 10 ((n : ℤ) + c) : ℤ) = n + c := fun c h3 h4 => by
    unfold clampTo
    omega
  have c1 := c (-1) (by norm_num) (by norm_num)
  have c2 := c 0 (by norm_num) (by norm_num)
  have c3 := c 1 (by norm_num) (by norm_num)
  have c4 := c 2 (by norm_num) (by norm_num)
  simp only [hf, List.map_cons, List.map_nil, List.sum_cons, List.sum_nil, add_zero, Int.cast_natCast, k1, k2, k3, k4]
  have e1 : (clampTo 10 ((n : ℤ) + -1) = p) ↔ p + 1 = n := by omega
  have e2 : (clampTo 10 (n : ℤ) = p) ↔ p = n := by rw [add_zero] at c2; omega
  have e3 : (clampTo 10 ((n : ℤ) + 1) = p) ↔ p = n + 1 := by omega
  have e4 : (clampTo 10 ((n : ℤ) + 2) = p) ↔ p = n + 2 := by omega
  rw [if_congr e1 rfl rfl, if_congr e2 rfl rfl, if_congr e3 rfl rfl, if_congr e4 rfl rfl]
  split_ifs <;> first | omega | norm_num

theorem small_whole {s : ℝ} {n : ℕ} (hs : s = n) (h1 : 1 ≤ n) (h2 : n ≤ 7) {p : ℕ} : gridWeight [vmk 10 fun i => (i : ℝ)] (fun _ => s) p = if p = n then 1 else 0 := by
  rw [small_weight]
  have hf : ⌊s⌋ = n := by rw [hs, Int.floor_natCast]
  have k1 : keys (s - ((n : ℝ) + (-1 : ℤ))) = 0 := by
    rw [show s - ((n : ℝ) + (-1 : ℤ)) = 0 + 1 by rw [hs]; push_cast; ring, keys_p1 (by norm_num) (by norm_num)]; norm_num
  have k2 : keys (s - ((n : ℝ) + (0 : ℤ))) = 1 := by
    rw [show s - ((n : ℝ) + (0 : ℤ)) = 0 by rw [hs]; push_cast; ring, keys_0 (by norm_num) (by norm_num)]; norm_num
  have k3 : keys (s - ((n : ℝ) + (1 : ℤ))) = 0 := by
    rw [show s - ((n : ℝ) + (1 : ℤ)) = 0 - 1 by rw [hs]; push_cast; ring, keys_m1 (by norm_num) (by norm_num)]; norm_num
  have k4 : keys (s - ((n : ℝ) + (2 : ℤ))) = 0 := by
    rw [show s - ((n : ℝ) + (2 : ℤ)) = 0 - 2 by rw [hs]; push_cast; ring, keys_m2 (by norm_num) (by norm_num)]; norm_num
  have c2 : (clampTo 10 (n : ℤ) : ℤ) = n := by
    unfold clampTo
    omega
  simp only [hf, List.map_cons, List.map_nil, List.sum_cons, List.sum_nil, add_zero, Int.cast_natCast, k1, k2, k3, k4, ite_self, zero_add]
  have e2 : (clampTo 10 (n : ℤ) = p) ↔ p = n := by omega
  rw [if_congr e2 rfl rfl]

/-- what one observation explains is a lower bound of what all of them explain -/
theorem quad_one {n : ℕ} {K : Matrix (Fin n) (Fin n) ℝ} (hK : K.PosDef) (u : Fin n → ℝ) (i : Fin n) : u i ^ 2 / K i i ≤ u ⬝ᵥ K⁻¹ *ᵥ u := by
  have hii : 0 < K i i := hK.diag_pos
  set v := K⁻¹ *ᵥ u with hv
  have hKv : K *ᵥ v = u := by
    rw [hv, Matrix.mulVec_mulVec, Matrix.mul_nonsing_inv _ ((Matrix.isUnit_iff_isUnit_det _).1 hK.isUnit), Matrix.one_mulVec]
  set c := u i / K i i with hc
  have h0 := hK.posSemidef.dotProduct_mulVec_nonneg (v - Pi.single i c)
  simp only [star_trivial, Matrix.mulVec_sub, sub_dotProduct, dotProduct_sub, hKv, Matrix.mulVec_single, single_dotProduct] at h0
  have hsym : v ⬝ᵥ (MulOpposite.op c • K.col i) = c * u i := by
    rw [← hKv]
    simp only [dotProduct, Matrix.mulVec, Pi.smul_apply, MulOpposite.smul_eq_mul_unop, MulOpposite.unop_op, Matrix.col_apply, Finset.mul_sum]
    refine Finset.sum_congr rfl fun j _ => ?_
    have := hK.1.apply i j
    rw [star_trivial] at this
    rw [← this]
    ring
  rw [hsym] at h0
  have e1 : (MulOpposite.op c • K.col i) i = K i i * c := rfl
  rw [e1] at h0
  have e2 : K i i * c = u i := by rw [hc]; field_simp
  rw [e2] at h0
  have e3 : c * u i = u i ^ 2 / K i i := by rw [hc]; ring
  have e4 : u ⬝ᵥ v = v ⬝ᵥ u := dotProduct_comm _ _
  rw [e4]
  linarith

/-- observations with noise explain little when the covariances are small -/
theorem quad_all {n : ℕ} {K S : Matrix (Fin n) (Fin n) ℝ} {N : Fin n → ℝ} {ν : ℝ} (hK : K.PosDef) (hS : S.PosSemidef) (e : K = Matrix.diagonal N + S) (hν : 0 < ν) (hN : ∀ i, ν ≤ N i)
    (u : Fin n → ℝ) : u ⬝ᵥ K⁻¹ *ᵥ u ≤ (∑ i, u i ^ 2) / ν := by
  set v := K⁻¹ *ᵥ u with hv
  have hKv : K *ᵥ v = u := by
    rw [hv, Matrix.mulVec_mulVec, Matrix.mul_nonsing_inv _ ((Matrix.isUnit_iff_isUnit_det _).1 hK.isUnit), Matrix.one_mulVec]
  have h0 := hS.dotProduct_mulVec_nonneg v
  rw [star_trivial] at h0
  have h1 : u ⬝ᵥ v = (∑ i, N i * v i ^ 2) + v ⬝ᵥ S *ᵥ v := by
    rw [dotProduct_comm, ← hKv, e, Matrix.add_mulVec, dotProduct_add]
    congr 1
    refine Finset.sum_congr rfl fun i _ => ?_
    rw [Matrix.mulVec_diagonal]
    ring
  have h2 : ν * ∑ i, v i ^ 2 ≤ ∑ i, N i * v i ^ 2 := by
    rw [Finset.mul_sum]
    exact Finset.sum_le_sum fun i _ => mul_le_mul_of_nonneg_right (hN i) (sq_nonneg _)
  have h3 : 2 * (u ⬝ᵥ v) ≤ (∑ i, u i ^ 2) / ν + ν * ∑ i, v i ^ 2 := by
    unfold dotProduct
    rw [Finset.mul_sum, Finset.sum_div, Finset.mul_sum, ← Finset.sum_add_distrib]
    refine Finset.sum_le_sum fun i _ => ?_
    have : 0 ≤ (u i - ν * v i) ^ 2 / ν := by positivity
    have e : (u i - ν * v i) ^ 2 / ν = u i ^ 2 / ν - 2 * (u i * v i) + ν * v i ^ 2 := by
      field_simp
      ring
    linarith
  linarith

theorem small_coords (x : ℕ → ℝ) : coords [0] x = fun _ => x 0 := by
  funext k
  unfold coords
  cases k <;> simp

/-- facts about a small model, with the covariances written out -/
structure SmallFacts (m : LLGP) (x1 x2 : ℝ) : Prop where
  pd : (m.fk.skiMat m.axesOf m.fk.extraOf m.gp.Xs).PosDef
  split : ∃ S : Matrix (Fin (m.gp.Xs.map Arr2.rows).sum) (Fin (m.gp.Xs.map Arr2.rows).sum) ℝ, S.PosSemidef ∧
    m.fk.skiMat m.axesOf m.fk.extraOf m.gp.Xs = Matrix.diagonal (fun _ => 0.1) + S
  two : (m.gp.Xs.map Arr2.rows).sum = 2
  diag : ∀ i : Fin (m.gp.Xs.map Arr2.rows).sum, m.fk.skiMat m.axesOf m.fk.extraOf m.gp.Xs i i = 0.1 + ∑ p ∈ Finset.range 10, ∑ q ∈ Finset.range 10,
    gridWeight [vmk 10 fun i => (i : ℝ)] (fun _ => if (i : ℕ) = 0 then x1 else x2) p * smallKer ((p : ℝ) - q) * gridWeight [vmk 10 fun i => (i : ℝ)] (fun _ => if (i : ℕ) = 0 then x1 else x2) q
  data : ∀ p < 10, ∀ i : Fin (m.gp.Xs.map Arr2.rows).sum, m.fk.gridToData (m.axesOf [0]) m.fk.extraOf ([0], [0]) m.gp.Xs 0 p i =
    ∑ q ∈ Finset.range 10, smallKer ((p : ℝ) - q) * gridWeight [vmk 10 fun i => (i : ℝ)] (fun _ => if (i : ℕ) = 0 then x1 else x2) q
  cross : ∀ (x : ℕ → ℝ) (i : Fin (m.gp.Xs.map Arr2.rows).sum), m.fk.crossCov m.gp.Xs 0 x i = smallKer (x 0 - if (i : ℕ) = 0 then x1 else x2)
  prior : ∀ x, m.fk.priorVar 0 x = 1.1
  plain : ¬ Spoiled m.fk ([0], [0])

theorem small_facts {m : LLGP} {x1 x2 : ℝ} (ok : m.OK 1) (hs : m.fk.Sound) (hn : m.fk.noise = [0.1]) (hk : m.fk.kernels = [.rbf 100 (some [0])]) (hB : m.fk.B 0 0 0 = 1)
    (hg : m.fk.activeDims = [([0], [0])]) (he : m.fk.extraOf ([0], [0]) = 0) (ha : m.axesOf [0] = [vmk 10 fun i => (i : ℝ)]) (hX : m.gp.Xs = [⟨2, 1, [x1, x2]⟩]) :
    SmallFacts m x1 x2 := by
  have hnd : ∀ ad ∈ m.fk.activeDims.map Prod.fst, ad.Nodup := by rw [hg]; simp
  have h2 : (m.gp.Xs.map Arr2.rows).sum = 2 := by rw [hX]; rfl
  have hown : ∀ i < 2, ownerOf (m.gp.Xs.map Arr2.rows) i = 0 := fun i hi => by rw [hX]; simp [ownerOf, hi]
  have hrow : ∀ i < 2, rowPoint m.gp.Xs i 0 = if i = 0 then x1 else x2 := fun i hi => by
    unfold rowPoint innerIdx
    rw [hown i hi, hX]
    interval_cases i <;> simp [pointOf, Arr2.get, offset]
  have hQ : m.fk.Q = 1 := by simp [FK.Q, hk]
  have hdi : m.fk.kdims 0 = [0] := by simp [FK.kdims, hk, Kern.activeDims]
  refine ⟨ok.ski_posDef hs hnd, ?_, h2, ?_, ?_, ?_, ?_, fun hsp => ?_⟩
  · obtain ⟨S, hS, e⟩ := skiMat_split ok.ready ok.groups hs ok.data.inputs.len (axes := m.axesOf) (fun ad had => ⟨by
      obtain ⟨g, hg, rfl⟩ := List.mem_map.1 had
      obtain ⟨gg, d1, d2, d3, d4⟩ := ok.mem_grids hg
      rw [d4]
      exact d3.axes, hnd ad had⟩) (extra := m.fk.extraOf) (extraOf_nonneg m.fk)
    refine ⟨S, hS, e.trans ?_⟩
    congr 2
    funext r
    rw [hown r (h2 ▸ r.2), hn]
    rfl
  · intro i
    have hi : (i : ℕ) < 2 := h2 ▸ i.2
    unfold FK.skiMat fnMatrix FK.skiFull FK.skiCov
    simp only [Matrix.of_apply, if_true, hg, List.map_cons, List.map_nil, List.sum_cons, List.sum_nil, add_zero, hown i hi, hn, List.getD_cons_zero]
    rw [add_comm]
    congr 1
    rw [ha, small_size]
    refine Finset.sum_congr rfl fun p hp => Finset.sum_congr rfl fun q hq => ?_
    rw [small_gridCov hk hB (Finset.mem_range.1 hp) (Finset.mem_range.1 hq), small_coords, hrow i hi, he, ite_self, add_zero]
  · intro p hp i
    have hi : (i : ℕ) < 2 := h2 ▸ i.2
    unfold FK.gridToData
    rw [ha, small_size]
    refine Finset.sum_congr rfl fun q hq => ?_
    rw [hown i hi, small_gridCov hk hB hp (Finset.mem_range.1 hq), small_coords, hrow i hi, he, ite_self, add_zero]
  · intro x i
    have hi : (i : ℕ) < 2 := h2 ▸ i.2
    unfold FK.crossCov FK.cov
    rw [hQ, Finset.sum_range_one, hown i hi, hB, hdi, hk, one_mul]
    simp only [List.getD_cons_zero, Kern.doc, distOn, List.map_cons, List.map_nil, List.sum_cons, List.sum_nil, add_zero, hrow i hi, smallKer]
    rw [Real.sq_sqrt (sq_nonneg _)]
  · intro x
    unfold FK.priorVar FK.cov
    rw [hQ, Finset.sum_range_one, hB, hdi, hk, one_mul, hn]
    simp only [List.getD_cons_zero, Kern.doc, distOn, List.map_cons, List.map_nil, List.sum_cons, List.sum_nil, add_zero, sub_self]
    norm_num
  · unfold FK.extraOf at he
    rw [if_pos hsp] at he
    exact one_ne_zero he

end Verif
