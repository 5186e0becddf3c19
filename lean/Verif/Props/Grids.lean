import Verif.Spec.Grids
import Verif.Props.ReachedMore
import Verif.Proofs.SkiGrids

/-! C103: where the points of the inducing grids are. -/

namespace Verif

theorem colValues_coords (a : LLGPArgs) (P c : ℕ) (o : GridOpt) : colValues (padded P a.Xs) o c = a.coords P c ∪ {x | o.at c = some x} := by
  ext x
  unfold colValues LLGPArgs.coords
  simp only [Set.mem_ofPred_eq, Set.mem_union]
  refine or_congr ⟨?_, ?_⟩ Iff.rfl
  · rintro ⟨X, hX, i, hi, e⟩
    obtain ⟨d, hd, rfl⟩ := List.getElem_of_mem hX
    have hd' : d < a.Xs.length := by simpa [padded] using hd
    refine ⟨d, hd', i, ?_, ?_⟩
    · unfold queryLens
      rw [map_getD_lt hd' _ _ ⟨[], []⟩]
      rw [← getD_getElem ⟨0, 0, []⟩ hd] at hi
      unfold padded at hi
      rwa [map_getD_lt hd' _ _ ⟨[], []⟩] at hi
    · rw [← pointOf_padded hd', ← e]
      unfold pointOf
      rw [getD_getElem ⟨0, 0, []⟩ hd]
  · rintro ⟨d, hd, i, hi, e⟩
    have hd' : d < (padded P a.Xs).length := by simpa [padded] using hd
    refine ⟨(padded P a.Xs).getD d ⟨0, 0, []⟩, getD_mem_of_lt hd' _, i, ?_, ?_⟩
    · unfold queryLens at hi
      rw [map_getD_lt hd _ _ ⟨[], []⟩] at hi
      unfold padded
      rwa [map_getD_lt hd _ _ ⟨[], []⟩]
    · rw [← e, ← pointOf_padded hd]
      rfl

/-- the range is determined by the arguments -/
theorem GridRange.unique {a : LLGPArgs} {P c : ℕ} {L H L' H' : ℝ} {n n' : ℕ} (h : a.GridRange P c L H n) (h' : a.GridRange P c L' H' n') : L' = L ∧ H' = H ∧ n' = n := by
  refine ⟨h'.low.unique h.low, h'.high.unique h.high, ?_⟩
  cases e : a.m.at c with
  | none => rw [h.default e, h'.default e]
  | some v =>
    have h1 := h.given v e
    have h2 := h'.given v e
    rw [h1] at h2
    exact (Nat.cast_injective (R := ℝ) h2).symm

theorem axisFor_unique {x y : List ℝ} {L H : ℝ} {n : ℕ} (h : AxisFor x L H n) (h' : AxisFor y L H n) : x = y := by
  refine List.ext_getElem (by rw [h.1, h'.1]) fun j h1 h2 => ?_
  rw [← getD_getElem 0 h1, ← getD_getElem 0 h2, h.2 j (by rw [← h.1]; exact h1), h'.2 j (by rw [← h'.1]; exact h2)]

theorem documented_dim {a : LLGPArgs} {P : ℕ} {fk : FK} (hd : a.Documented P fk) : 0 < P := by
  have hk := getD_mem_of_lt (l := fk.kernels) hd.some (.identity none)
  obtain ⟨h1, h2⟩ := hd.dims _ hk
  have hp : 0 < (dimsRead P (fk.kernels.getD 0 (.identity none))).length := by omega
  have := h2 _ (getD_mem_of_lt hp 0)
  omega

theorem made_grids {a : LLGPArgs} {P : ℕ} {m : LLGP} (hm : m.MadeFrom P a) (h : m.OK P) (g : List ℕ × List ℕ) (hg : g ∈ m.fk.activeDims) :
    (m.axesOf g.1).length = g.1.length ∧ ∀ j < g.1.length, g.1.getD j 0 < P ∧ ∃ L H n, a.GridRange P (g.1.getD j 0) L H n ∧ 0 < n ∧ L < H ∧
      AxisFor ((m.axesOf g.1).getD j []) L H n := by
  obtain ⟨fk, m0, hd, hi, -, hgr, had⟩ := hm
  have hP := documented_dim hd
  have hax : m0.axesOf = m.axesOf := by
    funext ad
    unfold LLGP.axesOf
    rw [hgr]
  obtain ⟨gg, -, -, d3, d4⟩ := h.mem_grids hg
  obtain ⟨kk, hkk, hdr⟩ := documented_group hd hP hi (had ▸ hg)
  refine ⟨by rw [d4]; exact d3.axes, fun j hj => ⟨?_, ?_⟩⟩
  · have := (hd.dims kk hkk).2
    rw [hdr] at this
    exact this _ (getD_mem_of_lt hj 0)
  · obtain ⟨-, -, L, hL, H, hH, n, n0, hc, ⟨-, g0, d, d0, -, he⟩, l1, l2, l3⟩ := init_covers hd hP hi (had ▸ hg) j hj
    rw [hax] at l3 he
    rw [colValues_coords] at hL hH l1 l2
    have hn : (0 : ℝ) < n := by exact_mod_cast n0
    refine ⟨L, H, n, ⟨⟨hL, l1⟩, ⟨hH, l2⟩, ?_, ?_⟩, n0, ?_, ?_⟩
    · intro v hv
      unfold cellsOf at hc
      rwa [hv] at hc
    · intro hv
      unfold cellsOf at hc
      rw [hv] at hc
      simp only at hc
      rw [hc, padded_lens]
      simp [padded]
    · have e0 := he 0 (by rw [l3]; simp [linspace])
      have e1 := he 1 (by rw [l3]; simp [linspace])
      rw [l3] at e0 e1
      unfold linspace at e0 e1
      rw [vmk_getD_lt (by omega)] at e0 e1
      push_cast at e0 e1
      have e2 : (H + 2 * ((H - L) / n) - (L - 2 * ((H - L) / n))) / (n + 4 - 1) = d := by linarith
      have e3 : (H - L) * ((n + 4) / (n * (n + 3))) = d := by
        rw [← e2, show (n : ℝ) + 4 - 1 = n + 3 by ring]
        field_simp
        ring
      have e4 : (0 : ℝ) < (n + 4) / (n * (n + 3)) := by positivity
      by_contra hlt
      have := mul_nonpos_of_nonpos_of_nonneg (show H - L ≤ 0 by linarith) e4.le
      linarith
    · rw [l3]
      unfold linspace
      refine ⟨by simp, fun j hj => ?_⟩
      rw [vmk_getD_lt hj]
      congr 3
      · ring
      · push_cast; ring

theorem keyless_axes {m : LLGP} {P : ℕ} (h : m.OK P) {ad : List ℕ} (hn : ad ∉ m.fk.activeDims.map Prod.fst) : m.axesOf ad = [] := by
  unfold LLGP.axesOf
  cases e : dictGet m.grids ad with
  | none => rfl
  | some gg => exact absurd (h.keys ▸ List.mem_map_of_mem (f := Prod.fst) ((mem_iff_dictGet h.nodup ad gg).2 e)) hn

theorem made_same_axes {a a' : LLGPArgs} {P : ℕ} {m m' : LLGP} (hm : m.MadeFrom P a) (hm' : m'.MadeFrom P a') (h : m.OK P) (h' : m'.OK P)
    (hg : m'.fk.activeDims = m.fk.activeDims) (hr : ∀ c < P, ∀ L H n, a.GridRange P c L H n → a'.GridRange P c L H n) : m'.axesOf = m.axesOf := by
  funext ad
  by_cases hn : ad ∈ m.fk.activeDims.map Prod.fst
  · obtain ⟨g, hg1, rfl⟩ := List.mem_map.1 hn
    obtain ⟨l1, l2⟩ := made_grids hm h g hg1
    obtain ⟨l1', l2'⟩ := made_grids hm' h' g (hg ▸ hg1)
    refine List.ext_getElem (by rw [l1, l1']) fun j h1 h2 => ?_
    rw [← getD_getElem [] h1, ← getD_getElem [] h2]
    obtain ⟨hc, L, H, n, r, -, -, x⟩ := l2 j (by rw [← l1]; exact h2)
    obtain ⟨-, L', H', n', r', -, -, x'⟩ := l2' j (by rw [← l1']; exact h1)
    obtain ⟨e1, e2, e3⟩ := GridRange.unique r' (hr _ hc _ _ _ r)
    rw [e1, e2, e3] at x
    exact axisFor_unique x' x
  · rw [keyless_axes h hn, keyless_axes h' (by rwa [hg])]

/-- C103: In any program, the grid of each group of kernels has an axis for each dimension that the kernels read. With `L` the least and `H` the greatest of the observed
coordinates (of all outputs) and the given bounds, and `n` the given size (by default the average number of observations of an output), it consists of the `n + 4`
points at equal distances from `L - 2 (H - L) / n` to `H + 2 (H - L) / n`. -/
theorem C103_grids (sv : Solvers) (hs : sv.Fit) (ops : List Op) (i : ℕ) (a : LLGPArgs) (m : LLGP) (h : Held sv ops i a m) (g : List ℕ × List ℕ) (hg : g ∈ m.fk.activeDims) :
    (m.axesOf g.1).length = g.1.length ∧ ∀ j < g.1.length, g.1.getD j 0 < m.gp.inputDim ∧ ∃ L H n, a.GridRange m.gp.inputDim (g.1.getD j 0) L H n ∧ 0 < n ∧ L < H ∧
      AxisFor ((m.axesOf g.1).getD j []) L H n := by
  obtain ⟨k, f1, f2, f3, f4, f5, f6, f7⟩ := h.facts hs
  exact made_grids f1 f5 g hg

/-- C103: So the documented meaning of the options (`lo` and `hi` are the smallest and the largest grid point, there are `m` points along each dimension) never holds: the
first point of each axis is below all observed coordinates and below `lo`, the last is above all of them and above `hi`, and an axis has four more points than `m` says. -/
theorem C103_wider (sv : Solvers) (hs : sv.Fit) (ops : List Op) (i : ℕ) (a : LLGPArgs) (m : LLGP) (h : Held sv ops i a m) (g : List ℕ × List ℕ) (hg : g ∈ m.fk.activeDims)
    (j : ℕ) (hj : j < g.1.length) :
    let axis := (m.axesOf g.1).getD j []
    let c := g.1.getD j 0
    (∀ x ∈ a.coords m.gp.inputDim c, axis.getD 0 0 < x ∧ x < axis.getD (axis.length - 1) 0) ∧ (∀ l, a.lo.at c = some l → axis.getD 0 0 < l) ∧
      (∀ u, a.hi.at c = some u → u < axis.getD (axis.length - 1) 0) ∧ ∀ v, a.m.at c = some v → (axis.length : ℝ) = v + 4 := by
  intro axis c
  obtain ⟨-, L, H, n, r, n0, hlt, x⟩ := (C103_grids sv hs ops i a m h g hg).2 j hj
  have hn : (0 : ℝ) < n := by exact_mod_cast n0
  have hδ : 0 < (H - L) / n := div_pos (by linarith) hn
  have e0 : axis.getD 0 0 < L := by
    show ((m.axesOf g.1).getD j []).getD 0 0 < L
    rw [x.2 0 (by omega)]
    simp only [Nat.cast_zero, zero_mul, add_zero]
    linarith
  have e1 : H < axis.getD (axis.length - 1) 0 := by
    show H < ((m.axesOf g.1).getD j []).getD (((m.axesOf g.1).getD j []).length - 1) 0
    rw [x.1, x.2 _ (by omega), show n + 4 - 1 = n + 3 by omega]
    push_cast
    rw [mul_div_cancel₀ _ (by positivity)]
    linarith
  refine ⟨fun y hy => ⟨e0.trans_le (r.low.2 (.inl hy)), (r.high.2 (.inl hy)).trans_lt e1⟩, fun l hl => e0.trans_le (r.low.2 (.inr hl)),
    fun u hu => (r.high.2 (.inr hu)).trans_lt e1, fun v hv => ?_⟩
  show ((((m.axesOf g.1).getD j []).length : ℕ) : ℝ) = v + 4
  rw [x.1, r.given v hv]
  push_cast
  ring

/-- C103: The observed points influence the grids only through their range in each dimension (and, without `m`, through how many they are): models of two programs that agree
in this have the same grids, wherever the other points are. -/
theorem C103_same_range (sv : Solvers) (hs : sv.Fit) (ops ops' : List Op) (i i' : ℕ) (a a' : LLGPArgs) (m m' : LLGP) (h : Held sv ops i a m) (h' : Held sv ops' i' a' m')
    (hP : m'.gp.inputDim = m.gp.inputDim) (hg : m'.fk.activeDims = m.fk.activeDims)
    (hr : ∀ c < m.gp.inputDim, ∀ L H n, a.GridRange m.gp.inputDim c L H n → a'.GridRange m.gp.inputDim c L H n) : m'.axesOf = m.axesOf := by
  obtain ⟨k, f1, f2, f3, f4, f5, f6, f7⟩ := h.facts hs
  obtain ⟨k', g1, -, g3, g4, g5, -, g7⟩ := h'.facts hs
  rw [hP] at g1 g5
  exact made_same_axes f1 g1 f5 g5 hg hr

/-- C103: When bounds and sizes are given and the observed points are within the bounds, the points do not influence the grids at all. -/
theorem C103_given (sv : Solvers) (hs : sv.Fit) (ops ops' : List Op) (i i' : ℕ) (a a' : LLGPArgs) (m m' : LLGP) (h : Held sv ops i a m) (h' : Held sv ops' i' a' m')
    (hP : m'.gp.inputDim = m.gp.inputDim) (hg : m'.fk.activeDims = m.fk.activeDims) (hlo : a'.lo = a.lo) (hhi : a'.hi = a.hi) (hm : a'.m = a.m)
    (hb : ∀ c < m.gp.inputDim, ∃ l u v, a.lo.at c = some l ∧ a.hi.at c = some u ∧ a.m.at c = some v ∧ a.coords m.gp.inputDim c ⊆ Set.Icc l u ∧
      a'.coords m.gp.inputDim c ⊆ Set.Icc l u) : m'.axesOf = m.axesOf := by
  refine C103_same_range sv hs ops ops' i i' a a' m m' h h' hP hg fun c hc L H n r => ?_
  obtain ⟨l, u, v, e1, e2, e3, s1, s2⟩ := hb c hc
  have hL : L = l := r.low.unique ⟨.inr e1, by
    rintro x (hx | hx)
    · exact (s1 hx).1
    · rw [Set.mem_ofPred_eq, e1] at hx
      exact (Option.some.inj hx).le⟩
  have hH : H = u := r.high.unique ⟨.inr e2, by
    rintro x (hx | hx)
    · exact (s1 hx).2
    · rw [Set.mem_ofPred_eq, e2] at hx
      exact (Option.some.inj hx).ge⟩
  subst hL hH
  refine ⟨⟨.inr (by rw [hlo]; exact e1), ?_⟩, ⟨.inr (by rw [hhi]; exact e2), ?_⟩, by rw [hm]; exact r.given, fun hn => ?_⟩
  · rintro x (hx | hx)
    · exact (s2 hx).1
    · rw [Set.mem_ofPred_eq, hlo, e1] at hx
      exact (Option.some.inj hx).le
  · rintro x (hx | hx)
    · exact (s2 hx).2
    · rw [Set.mem_ofPred_eq, hhi, e2] at hx
      exact (Option.some.inj hx).ge
  · rw [hm, e3] at hn
    cases hn

/-- C103: Points can be moved, added and removed (as many as before in total, unless `m` is given) without moving the grids, as long as in each dimension the extreme
coordinates `l` and `u` remain. -/
theorem C103_inside (sv : Solvers) (hs : sv.Fit) (ops ops' : List Op) (i i' : ℕ) (a a' : LLGPArgs) (m m' : LLGP) (h : Held sv ops i a m) (h' : Held sv ops' i' a' m')
    (hP : m'.gp.inputDim = m.gp.inputDim) (hg : m'.fk.activeDims = m.fk.activeDims) (hlo : a'.lo = a.lo) (hhi : a'.hi = a.hi) (hm : a'.m = a.m)
    (hn : ∀ c, a.m.at c = none → a'.Xs.length = a.Xs.length ∧ (queryLens a'.Xs).sum = (queryLens a.Xs).sum)
    (hb : ∀ c < m.gp.inputDim, ∃ l u, IsLeast (a.coords m.gp.inputDim c) l ∧ IsLeast (a'.coords m.gp.inputDim c) l ∧ IsGreatest (a.coords m.gp.inputDim c) u ∧
      IsGreatest (a'.coords m.gp.inputDim c) u) : m'.axesOf = m.axesOf := by
  refine C103_same_range sv hs ops ops' i i' a a' m m' h h' hP hg fun c hc L H n r => ?_
  obtain ⟨l, u, l1, l2, u1, u2⟩ := hb c hc
  refine ⟨⟨?_, ?_⟩, ⟨?_, ?_⟩, by rw [hm]; exact r.given, fun e => ?_⟩
  · rcases r.low.1 with hL | hL
    · rw [le_antisymm (r.low.2 (.inl l1.1)) (l1.2 hL)]
      exact .inl l2.1
    · exact .inr (by rw [hlo]; exact hL)
  · rintro x (hx | hx)
    · exact (r.low.2 (.inl l1.1)).trans (l2.2 hx)
    · exact r.low.2 (.inr (by rw [hlo] at hx; exact hx))
  · rcases r.high.1 with hH | hH
    · rw [le_antisymm (u1.2 hH) (r.high.2 (.inl u1.1))]
      exact .inl u2.1
    · exact .inr (by rw [hhi]; exact hH)
  · rintro x (hx | hx)
    · exact (u2.2 hx).trans (r.high.2 (.inl u1.1))
    · exact r.high.2 (.inr (by rw [hhi] at hx; exact hx))
  · rw [hm] at e
    obtain ⟨n1, n2⟩ := hn c e
    rw [n1, n2]
    exact r.default e

/-- the coordinates of two outputs with two points of dimension 2 each -/
theorem four_coords (a : LLGPArgs) (x : ℕ → ℝ) (ha : a.Xs = [⟨[2, 2], [x 0, x 1, x 2, x 3]⟩, ⟨[2, 2], [x 4, x 5, x 6, x 7]⟩]) (c : ℕ) (hc : c < 2) :
    a.coords 2 c = {x c, x (2 + c), x (4 + c), x (6 + c)} := by
  ext y
  unfold LLGPArgs.coords
  rw [ha]
  simp only [Set.mem_ofPred_eq, Set.mem_insert_iff, Set.mem_singleton_iff]
  constructor
  · rintro ⟨d, hd, i, hi, rfl⟩
    have hd : d < 2 := hd
    interval_cases d
    · have hi : i < 2 := hi
      interval_cases i <;> interval_cases c <;> simp [queryPoint]
    · have hi : i < 2 := hi
      interval_cases i <;> interval_cases c <;> simp [queryPoint]
  · rintro (rfl | rfl | rfl | rfl)
    · exact ⟨0, by simp, 0, by simp [queryLens], by interval_cases c <;> simp [queryPoint]⟩
    · exact ⟨0, by simp, 1, by simp [queryLens], by interval_cases c <;> simp [queryPoint]⟩
    · exact ⟨1, by simp, 0, by simp [queryLens], by interval_cases c <;> simp [queryPoint]⟩
    · exact ⟨1, by simp, 1, by simp [queryLens], by interval_cases c <;> simp [queryPoint]⟩

theorem four_extent (a : LLGPArgs) (x : ℕ → ℝ) (ha : a.Xs = [⟨[2, 2], [x 0, x 1, x 2, x 3]⟩, ⟨[2, 2], [x 4, x 5, x 6, x 7]⟩]) (c : ℕ) (hc : c < 2) (h0 : x c = 0)
    (h1 : x (2 + c) = 1) (h2 : 0 ≤ x (4 + c) ∧ x (4 + c) ≤ 1) (h3 : 0 ≤ x (6 + c) ∧ x (6 + c) ≤ 1) : IsLeast (a.coords 2 c) 0 ∧ IsGreatest (a.coords 2 c) 1 := by
  rw [four_coords a x ha c hc, h0, h1]
  refine ⟨⟨by simp, ?_⟩, ⟨by simp, ?_⟩⟩
  · rintro y (rfl | rfl | rfl | rfl)
    · exact le_rfl
    · exact zero_le_one
    · exact h2.1
    · exact h3.1
  · rintro y (rfl | rfl | rfl | rfl)
    · exact zero_le_one
    · exact le_rfl
    · exact h2.2
    · exact h3.2

/-- Two programs that make models of two outputs without covariance between them, in any prediction mode. The second is given other points and values of the second output,
within the range of the first. Both have the same grids, and the same predictions of the first output. -/
theorem C103_exists (mode : PredMode) : ∃ (a a' : LLGPArgs) (m m' : LLGP), Held exactSolvers [.new a quiet] 0 a m ∧ Held exactSolvers [.new a' quiet] 0 a' m' ∧
    a'.Xs ≠ a.Xs ∧ a.prediction = mode.name ∧ m'.axesOf = m.axesOf ∧ m.fk.activeDims ≠ [] ∧
    ∃ r r', Predicts exactSolvers [.new a quiet] 0 [⟨[1, 2], [0, 0]⟩, ⟨[2, 2], [0, 1, 1, 1]⟩] quiet (.ok r) ∧
      Predicts exactSolvers [.new a' quiet] 0 [⟨[1, 2], [0, 0]⟩, ⟨[2, 2], [0, 1, 1, 1]⟩] quiet (.ok r') ∧ r'.1.getD 0 [] = r.1.getD 0 [] ∧ r'.2.getD 0 [] = r.2.getD 0 [] := by
  obtain ⟨fk, ⟨h1, h2, h3, h4, -⟩, hB, h⟩ := exists_documented_from fun _ i j => if i = j then 1 else 0
  have hd := h mode false none (by simp)
  have hd' := documented_with_data hd (Xs := [⟨[2, 2], [0, 0, 1, 1]⟩, ⟨[2, 2], [1 / 2, 1, 1, 1 / 3]⟩]) (Ys := [⟨[2], [1, 3]⟩, ⟨[2], [7, 9]⟩])
    ⟨by simp, rfl, fun d hd => by
        have : d < 2 := hd
        interval_cases d
        · exact ⟨2, rfl, .inr rfl⟩
        · exact ⟨2, rfl, .inr rfl⟩, fun Y hY => .inr (by
        simp only [List.mem_cons, List.not_mem_nil, or_false] at hY
        rcases hY with rfl | rfl
        · have hv : varOf [1, 3] = 1 := by
            simp [varOf, meanOf, Finset.sum_range_succ]
            norm_num
          simp [sdOf, hv]
        · have hv : varOf [7, 9] = 1 := by
            simp [varOf, meanOf, Finset.sum_range_succ]
            norm_num
          simp [sdOf, hv])⟩
    (fun X hX => by
      simp only [List.mem_cons, List.not_mem_nil, or_false] at hX
      rcases hX with rfl | rfl <;> rfl)
    (fun Y hY => by
      simp only [List.mem_cons, List.not_mem_nil, or_false] at hY
      rcases hY with rfl | rfl <;> exact ⟨rfl, by simp⟩) rfl
    (fun c hc => ⟨⟨2, 2, [0, 0, 1, 1]⟩, by simp [padded], 0, by norm_num, ⟨2, 2, [0, 0, 1, 1]⟩, by simp [padded], 1, by norm_num, by
      interval_cases c <;> norm_num [Arr2.get]⟩)
  obtain ⟨m₀, -, i2, -, i4, i5, -, i7, -, i6⟩ := model_of_documented hd (mode := mode) (metrics := false) rfl rfl h1 h2 h3 h4 rfl
  obtain ⟨m, hm, f⟩ := held_new exactSolvers_fit (by norm_num) hd (by norm_num) rfl i6 i4
  obtain ⟨m', hm', f'⟩ := held_new exactSolvers_fit (by norm_num) hd' (by norm_num) rfl i6 i4
  obtain ⟨k, x1, -, x3, x4, x5, -⟩ := hm.facts exactSolvers_fit
  obtain ⟨k', y1, -, y3, y4, y5, -⟩ := hm'.facts exactSolvers_fit
  have hP : m.gp.inputDim = 2 := same_inputDim i2 x5 f
  have hP' : m'.gp.inputDim = 2 := same_inputDim i2 y5 f'
  have hD : m.gp.outputDim = 2 := by rw [x3, f, i5]
  have hax : m'.axesOf = m.axesOf := C103_inside exactSolvers exactSolvers_fit _ _ 0 0 _ _ m m' hm hm' (by rw [hP, hP']) (by rw [f, f']) rfl rfl rfl
    (fun c _ => ⟨rfl, rfl⟩) (fun c hc => by
      rw [hP] at hc ⊢
      have e1 := four_extent (⟨[⟨[2, 2], [0, 0, 1, 1]⟩, ⟨[2, 2], [0, 1, 1, 0]⟩], [⟨[2], [1, 3]⟩, ⟨[2], [5, 7]⟩], true, .none, .none, gridChoice none, false, mode.name, 15, 1e-4, some fk⟩)
        (fun k => ([0, 0, 1, 1, 0, 1, 1, 0] : List ℝ).getD k 0) rfl c hc (by interval_cases c <;> rfl) (by interval_cases c <;> rfl)
        (by interval_cases c <;> norm_num) (by interval_cases c <;> norm_num)
      have e2 := four_extent (⟨[⟨[2, 2], [0, 0, 1, 1]⟩, ⟨[2, 2], [1 / 2, 1, 1, 1 / 3]⟩], [⟨[2], [1, 3]⟩, ⟨[2], [7, 9]⟩], true, .none, .none, gridChoice none, false, mode.name, 15, 1e-4, some fk⟩)
        (fun k => ([0, 0, 1, 1, 1 / 2, 1, 1, 1 / 3] : List ℝ).getD k 0) rfl c hc (by interval_cases c <;> rfl) (by interval_cases c <;> rfl)
        (by interval_cases c <;> norm_num) (by interval_cases c <;> norm_num)
      exact ⟨0, 1, e1.1, e2.1, e1.2, e2.2⟩)
  have hun : m.fk.Uncoupled {0} := by
    obtain ⟨fk'', g1, g2⟩ := setInputDim_fresh fk 2 hd.fresh
    rw [i6] at g1
    have g1 := Except.ok.inj g1
    have hB' := hB (fun r => by rcases r with _ | _ | r <;> simp)
    rw [f]
    intro q hq a haS b hb hbS
    rw [Finset.mem_singleton] at haS hbS
    rw [i5] at hb
    have hb1 : b = 1 := by omega
    subst haS hb1
    have hq' : q < fk.Q := by
      have : m₀.fk.kernels.length = fk.kernels.length := by rw [g1]; exact g2.klen
      unfold FK.Q at hq ⊢
      rw [← this]; exact hq
    have := (hB' q hq').1
    rw [g1, g2.same]
    exact this
  have hQ : m.Accepts [⟨[1, 2], [0, 0]⟩, ⟨[2, 2], [0, 1, 1, 1]⟩] := ⟨by
      rw [hP, hD]
      refine ⟨rfl, fun X hX => ?_⟩
      simp only [List.mem_cons, List.not_mem_nil, or_false] at hX
      rcases hX with rfl | rfl
      · exact ⟨1, .inr rfl⟩
      · exact ⟨2, .inr rfl⟩, fun X hX => by
      simp only [List.mem_cons, List.not_mem_nil, or_false] at hX
      rcases hX with rfl | rfl <;> rfl⟩
  refine ⟨_, _, m, m', hm, hm', ?_, rfl, hax, by rw [f, i7]; simp, ?_⟩
  · intro hc
    have := congrArg (fun Xs => ((Xs.getD 1 ⟨[], []⟩).data.getD 0 0 : ℝ)) hc
    norm_num at this
  · rcases C84_program_points exactSolvers exactSolvers_fit (fun K n A tol hK _ => exactSolvers_exact hK tol) _ _ 0 0 _ _ m m' hm hm' (by rw [f, i7]; simp) (by rw [f, f']) rfl hax {0}
      ⟨rfl, rfl, fun d hd => by rw [Finset.mem_singleton] at hd; subst hd; rfl, fun d hd => by rw [Finset.mem_singleton] at hd; subst hd; rfl⟩ hun _ hQ quiet quiet
      quiet_calm.1 quiet_calm.1 with ⟨x, e1, -⟩ | ⟨r, r', r1, r2, r3⟩
    · exfalso
      have hmode : m.prediction = mode := by
        have := held_mode exactSolvers_fit hm
        cases mode <;> simpa [predMode, PredMode.name] using this.symm
      have hso : m.fk.Sound := by rw [f]; exact i4
      obtain ⟨r, hr⟩ := (C43_returns exactSolvers m 2 k _ (hP ▸ x4 _ hQ) quiet quiet_calm.1).2.2 ⟨hso.plain, by
        unfold LLGP.CanPredict
        rw [hmode]
        cases mode with
        | onTheFly => simp [queryLens]
        | precompute => exact ⟨_, by rw [f]; exact i7, rfl⟩
        | exact => exact covMat_posDef x5.ready.wf x5.data.inputs.len hso.kernels hso.kappa hso.noise⟩
      obtain ⟨-, -, -, -, -, -, -, x7⟩ := hm.facts exactSolvers_fit
      have := predicts_unique (hr ▸ x7 _ quiet quiet_calm.1) e1
      cases this
    · exact ⟨r, r', r1, r2, r3 0 (by simp) (by rw [hD]; norm_num)⟩

end Verif
