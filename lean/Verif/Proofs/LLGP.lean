import Verif.Proofs.LLGPInterp
import Verif.Props.LikReady

/-! The grid kernels of a model. -/

namespace Verif

theorem gridPoint_eq : ∀ (axes : List (List ℝ)) (p : ℕ),
    gridPoint axes p = vmk axes.length fun k => (axes.getD k []).getD ((unravel (axes.map List.length) p).getD k 0) 0
  | [], _ => rfl
  | a :: axes, p => by
    rw [gridPoint, gridPoint_eq axes]
    unfold vmk
    rw [List.length_cons, List.range_succ_eq_map, List.map_cons, List.map_map]
    rfl

theorem gridPoint_cartesian {axes : List (List ℝ)} {p : ℕ} (hp : p < gridSize axes) : (cartesianProduct axes).getD p [] = gridPoint axes p := by
  rw [cartesian_eq, gridPoint_eq]
  exact vmk_getD_lt hp

theorem cartesian_length (axes : List (List ℝ)) : (cartesianProduct axes).length = gridSize axes := by
  rw [cartesian_eq, vmk_length]; rfl

/-- the distances of the grid, at the position of the coordinate differences -/
theorem dists_ravelDiff {axes : List (List ℝ)} (hne : axes ≠ []) (hax : ∀ a ∈ axes, GoodAxis a) {d : NDArr ℝ} (hd : gridDists axes = .ok d) :
    d.shape = axes.map List.length ∧ d.WF ∧ ∀ p < gridSize axes, ∀ q < gridSize axes,
      d.data.getD (ravelDiff (axes.map List.length) p q) 0 = gridDistance axes p q := by
  obtain ⟨d', M, h1, h2, h3, h4, h5⟩ := C32_grid_function axes hne hax id
  rw [hd] at h1
  cases h1
  refine ⟨h2, h3, fun p hp q hq => ?_⟩
  have hpos : 0 < (axes.map List.length).prod := prod_pos_of_axes hax
  rw [List.map_id, h2] at h4
  obtain ⟨M', m1, m2⟩ := isMatrix_bttb (sizes := axes.map List.length) (top := d.data) hpos (by simpa using hne) (by rw [← h2]; exact h3)
  rw [h4] at m1
  cases m1
  have e1 := h5.entry p (by rw [cartesian_length]; exact hp) q (by rw [cartesian_length]; exact hq)
  have e2 := m2.entry p hp q hq
  rw [e1] at e2
  rw [← e2]
  unfold gridDistance
  rw [gridPoint_cartesian hp, gridPoint_cartesian hq]
  rfl

theorem zip_map_sum {α β γ : Type} (l : List α) (f : α → β) (g : α → γ) (h : β × γ → ℝ) : (((l.map f).zip (l.map g)).map h).sum = (l.map fun x => h (f x, g x)).sum := by
  rw [List.zip_map', List.map_map]; rfl

theorem groupGrid_eq {fk : FK} (hw : fk.WF) {axes : List (List ℝ)} (hne : axes ≠ []) (hax : ∀ a ∈ axes, GoodAxis a) {d : NDArr ℝ}
    (hd : gridDists axes = .ok d) {idxs : List ℕ} (hi : ∀ k ∈ idxs, k < fk.Q) {a b p q : ℕ} (ha : a < fk.D) (hb : b < fk.D)
    (hp : p < gridSize axes) (hq : q < gridSize axes) :
    groupGrid fk d idxs (a * gridSize axes + p) (b * gridSize axes + q) = fk.gridCov axes idxs a b p q := by
  obtain ⟨h1, h2, h3⟩ := dists_ravelDiff hne hax hd
  unfold groupGrid lmcGridEntry FK.coregOf FK.gridCov
  rw [zip_map_sum, h1]
  refine congrArg List.sum (List.map_congr_left fun k hk => ?_)
  simp only
  change _ * _ = _
  have e : (axes.map List.length).prod = gridSize axes := rfl
  rw [e, idx_div hp, idx_div hq, idx_mod hp, idx_mod hq, (coregMats_B hw (hi k hk)).2.2 a ha b hb, ← h3 p hp q hq]
  congr 1
  have hlt : ravelDiff (axes.map List.length) p q < d.data.length := by
    have := h2
    unfold NDArr.WF at this
    rw [this, h1]
    exact ravelDiff_lt hp hq
  rw [map_getD_lt hlt _ 0 0]

/-- sums over the columns of all outputs with the weights of one output -/
theorem sum_block {D M a : ℕ} (ha : a < D) (w g : ℕ → ℝ) :
    ∑ j ∈ Finset.range (D * M), (if j / M = a then w (j % M) else 0) * g j = ∑ p ∈ Finset.range M, w p * g (a * M + p) := by
  rw [sum_range_mul]
  rw [Finset.sum_eq_single a]
  · refine Finset.sum_congr rfl fun p hp => ?_
    have hp := Finset.mem_range.1 hp
    rw [idx_div hp, idx_mod hp, if_pos rfl]
  · intro b _ hb
    refine Finset.sum_eq_zero fun p hp => ?_
    have hp := Finset.mem_range.1 hp
    rw [idx_div hp, if_neg hb, zero_mul]
  · intro h
    exact absurd (Finset.mem_range.2 ha) h

/-- `W A Wᵀ` for interpolation matrices, entry by entry -/
theorem sandwich_interp {ad : List ℕ} {axes : List (List ℝ)} {D : ℕ} {Xs : List (Arr2 ℝ)} (hD : Xs.length = D) (A : ℕ → ℕ → ℝ) {r s : ℕ}
    (hr : r < (Xs.map Arr2.rows).sum) (hs : s < (Xs.map Arr2.rows).sum) :
    sandwich (Arr2.of (Xs.map Arr2.rows).sum (D * gridSize axes) (interpOf ad axes Xs)) A r s =
      ∑ p ∈ Finset.range (gridSize axes), ∑ q ∈ Finset.range (gridSize axes), gridWeight axes (coords ad (rowPoint Xs r)) p *
        A (ownerOf (Xs.map Arr2.rows) r * gridSize axes + p) (ownerOf (Xs.map Arr2.rows) s * gridSize axes + q) *
        gridWeight axes (coords ad (rowPoint Xs s)) q := by
  have ho : ∀ r < (Xs.map Arr2.rows).sum, ownerOf (Xs.map Arr2.rows) r < D := by
    intro r hr
    have := ownerOf_lt _ _ hr
    rwa [List.length_map, hD] at this
  unfold sandwich
  simp only [Arr2.of_cols]
  have e1 : ∀ p ∈ Finset.range (D * gridSize axes), ∀ q ∈ Finset.range (D * gridSize axes),
      (Arr2.of (Xs.map Arr2.rows).sum (D * gridSize axes) (interpOf ad axes Xs)).get r p * A p q *
        (Arr2.of (Xs.map Arr2.rows).sum (D * gridSize axes) (interpOf ad axes Xs)).get s q =
      (if p / gridSize axes = ownerOf (Xs.map Arr2.rows) r then gridWeight axes (coords ad (rowPoint Xs r)) (p % gridSize axes) else 0) *
        ((if q / gridSize axes = ownerOf (Xs.map Arr2.rows) s then gridWeight axes (coords ad (rowPoint Xs s)) (q % gridSize axes) else 0) * A p q) := by
    intro p hp q hq
    rw [Arr2.of_get hr (Finset.mem_range.1 hp), Arr2.of_get hs (Finset.mem_range.1 hq)]
    unfold interpOf interpEntry gridSize
    ring
  rw [Finset.sum_congr rfl fun p hp => Finset.sum_congr rfl fun q hq => e1 p hp q hq]
  simp only [← Finset.mul_sum]
  rw [sum_block (ho r hr) (fun p => gridWeight axes (coords ad (rowPoint Xs r)) p)
    (fun p => ∑ q ∈ Finset.range (D * gridSize axes), (if q / gridSize axes = ownerOf (Xs.map Arr2.rows) s then
      gridWeight axes (coords ad (rowPoint Xs s)) (q % gridSize axes) else 0) * A p q)]
  refine Finset.sum_congr rfl fun p _ => ?_
  rw [sum_block (ho s hs) (fun q => gridWeight axes (coords ad (rowPoint Xs s)) q) (fun q => A _ q), Finset.mul_sum]
  refine Finset.sum_congr rfl fun q _ => by ring

/-! ### the model's groups -/

namespace LLGP.OK

variable {m : LLGP} {P : ℕ}

theorem nodup (h : m.OK P) : (m.grids.map Prod.fst).Nodup := by rw [h.keys]; exact h.groups.nodup

theorem mem_grids (h : m.OK P) {g : List ℕ × List ℕ} (hg : g ∈ m.fk.activeDims) :
    ∃ gg, dictGet m.grids g.1 = some gg ∧ (g.1, gg) ∈ m.grids ∧ gg.OK g.1 m.gp.Xs ∧ m.axesOf g.1 = gg.axes := by
  have hk : g.1 ∈ m.grids.map Prod.fst := by rw [h.keys]; exact List.mem_map_of_mem hg
  obtain ⟨x, hx, e⟩ := List.mem_map.1 hk
  have hx' : (g.1, x.2) ∈ m.grids := by rw [← e]; exact hx
  have hget := (mem_iff_dictGet h.nodup g.1 x.2).1 hx'
  refine ⟨x.2, hget, hx', by rw [← e]; exact h.grid x hx, ?_⟩
  unfold LLGP.axesOf
  rw [hget]
  rfl

end LLGP.OK

theorem GroupGrid.OK.ne {g : GroupGrid} {ad : List ℕ} {Xs : List (Arr2 ℝ)} (h : g.OK ad Xs) : g.axes ≠ [] := by
  intro e
  have := h.axes
  rw [e] at this
  rcases h.dim with h' | h' <;> simp [h'] at this

theorem GroupGrid.OK.good {g : GroupGrid} {ad : List ℕ} {Xs : List (Arr2 ℝ)} (h : g.OK ad Xs) : ∀ a ∈ g.axes, GoodAxis a := by
  intro a ha
  obtain ⟨g0, s, -, h2⟩ := h.spacing a ha
  refine ⟨?_, g0, s, h2⟩
  rintro rfl
  have := h.size _ ha
  simp at this

theorem dictGet_mapv {α β γ : Type} [DecidableEq α] (f : β → γ) : ∀ (d : List (α × β)) (k : α),
    dictGet (d.map fun x => (x.1, f x.2)) k = (dictGet d k).map f
  | [], _ => rfl
  | (a, b) :: d, k => by
    simp only [List.map_cons, dictGet]
    split
    · rfl
    · exact dictGet_mapv f d k

/-- the distances and the interpolation matrices of a model -/
theorem gridSetup_of_ok {m : LLGP} {P : ℕ} (h : m.OK P) :
    GridSetup m.fk m.dists m.interp m.lens (fun ad => ((dictGet m.grids ad).map GroupGrid.dists).getD ⟨[], []⟩)
      (fun ad => Arr2.of m.n (m.fk.D * gridSize (m.axesOf ad)) (interpOf ad (m.axesOf ad) m.gp.Xs)) m.n := by
  refine ⟨h.ready.wf, h.groups, h.ready.valid, ?_, ?_, ?_, fun g hg => ?_, fun g hg => ?_⟩
  · unfold LLGP.lens; rw [h.data.lens, List.length_map, h.data.inputs.len]
  · unfold LLGP.lens LLGP.n; rw [h.data.lens]
  · have hne : m.gp.Xs ≠ [] := by
      intro e
      have := h.data.inputs.len
      rw [e] at this
      have := h.ready.wf.Dpos
      simp at *
      omega
    obtain ⟨X, rest, e⟩ := List.exists_cons_of_ne_nil hne
    have := h.filled X (by rw [e]; simp)
    unfold LLGP.n
    rw [e]
    simp
    omega
  · obtain ⟨gg, g1, g2, g3, g4⟩ := h.mem_grids hg
    obtain ⟨d1, d2, -⟩ := dists_ravelDiff g3.ne g3.good g3.dists
    refine ⟨?_, ?_⟩
    · unfold LLGP.dists
      rw [dictGet_mapv GroupGrid.dists, g1]
      rfl
    · rw [g1]
      simp only [Option.map_some, Option.getD_some]
      refine ⟨d2, ?_, ?_⟩
      · rw [d1]; simpa using g3.ne
      · rw [d1]; exact prod_pos_of_axes g3.good
  · obtain ⟨gg, g1, g2, g3, g4⟩ := h.mem_grids hg
    obtain ⟨d1, d2, -⟩ := dists_ravelDiff g3.ne g3.good g3.dists
    refine ⟨?_, rfl, ?_⟩
    · unfold LLGP.interp
      rw [dictGet_mapv (fun g : GroupGrid => (g.W, g.WT)), g1]
      simp only [Option.map_some]
      rw [g3.WT, g3.W, g4, h.data.inputs.len]
      rfl
    · rw [g1, g4]
      simp only [Option.map_some, Option.getD_some]
      rw [d1]
      rfl

/-- the grid covariance of a group with what the implementation adds, over all outputs -/
theorem groupGrid_extra {m : LLGP} {P : ℕ} (h : m.OK P) {g : List ℕ × List ℕ} (hg : g ∈ m.fk.activeDims) {a b p q : ℕ} (ha : a < m.fk.D) (hb : b < m.fk.D)
    (hp : p < gridSize (m.axesOf g.1)) (hq : q < gridSize (m.axesOf g.1)) :
    groupGrid m.fk (((dictGet m.grids g.1).map GroupGrid.dists).getD ⟨[], []⟩) g.2 (a * gridSize (m.axesOf g.1) + p) (b * gridSize (m.axesOf g.1) + q) +
      (open Classical in if Spoiled m.fk g then delta (a * gridSize (m.axesOf g.1) + p) (b * gridSize (m.axesOf g.1) + q) else 0) =
    m.fk.gridCov (m.axesOf g.1) g.2 a b p q + if a = b ∧ p = q then m.fk.extraOf g else 0 := by
  obtain ⟨gg, g1, g2, g3, g4⟩ := h.mem_grids hg
  rw [g4] at hp hq ⊢
  rw [g1]
  simp only [Option.map_some, Option.getD_some]
  rw [groupGrid_eq h.ready.wf g3.ne g3.good g3.dists (h.groups.group g hg).2.2 ha hb hp hq]
  congr 1
  unfold FK.extraOf delta
  have e : a * gridSize gg.axes + p = b * gridSize gg.axes + q ↔ a = b ∧ p = q := by
    constructor
    · intro e
      have e1 := congrArg (· / gridSize gg.axes) e
      have e2 := congrArg (· % gridSize gg.axes) e
      simp only [idx_div hp, idx_div hq] at e1
      simp only [idx_mod hp, idx_mod hq] at e2
      exact ⟨e1, e2⟩
    · rintro ⟨rfl, rfl⟩; rfl
  simp only [e]
  split_ifs <;> rfl

theorem owner_lt_D {m : LLGP} {P : ℕ} (h : m.OK P) {r : ℕ} (hr : r < m.n) : ownerOf (m.gp.Xs.map Arr2.rows) r < m.fk.D := by
  have := ownerOf_lt _ _ hr
  rwa [List.length_map, h.data.inputs.len] at this

theorem dict_of_mapExcept {α β : Type} [DecidableEq α] {f : α → Except PyErr β} : ∀ {l : List α} {ys : List β}, mapExcept f l = .ok ys →
    ∀ a ∈ l, ∃ y, f a = .ok y ∧ dictGet (l.zip ys) a = some y
  | [], _, _, a, ha => by simp at ha
  | x :: l, ys, h, a, ha => by
    simp only [mapExcept, bind_ok, pure_ok] at h
    obtain ⟨y, h1, ys', h2, rfl⟩ := h
    rw [List.zip_cons_cons, dictGet]
    by_cases e : x = a
    · subst e
      exact ⟨y, h1, if_pos rfl⟩
    · rw [if_neg e]
      refine dict_of_mapExcept h2 a ?_
      rcases List.mem_cons.1 ha with h' | h'
      · exact absurd h'.symm e
      · exact h'

/-- `gen_grid_kernel` for a model: the operator is the SKI covariance of all observations with noise, and the grid operators of the groups -/
theorem genGridKernel_model {m : LLGP} {P : ℕ} (h : m.OK P) :
    ∃ K gks, genGridKernel m.fk m.dists m.interp m.lens = .ok (K, gks) ∧ K.rows = m.n ∧ K.cols = m.n ∧
      Represents K (m.fk.skiFull m.axesOf m.fk.extraOf m.gp.Xs) ∧ gks.map Prod.fst = m.fk.activeDims.map Prod.fst ∧
      ∀ g ∈ m.fk.activeDims, ∃ G, dictGet gks g.1 = some G ∧
        IsMatrix G.gridK (m.fk.D * gridSize (m.axesOf g.1)) (m.fk.D * gridSize (m.axesOf g.1)) fun i j =>
          m.fk.gridCov (m.axesOf g.1) g.2 (i / gridSize (m.axesOf g.1)) (j / gridSize (m.axesOf g.1)) (i % gridSize (m.axesOf g.1)) (j % gridSize (m.axesOf g.1)) +
            if i / gridSize (m.axesOf g.1) = j / gridSize (m.axesOf g.1) ∧ i % gridSize (m.axesOf g.1) = j % gridSize (m.axesOf g.1) then m.fk.extraOf g else 0 := by
  have hs := gridSetup_of_ok h
  obtain ⟨K, gks, h1, h2, h3, h4⟩ := C34_covariance_exact hs
  refine ⟨K, gks, h1, h2, h3, h4.congr fun i hi j hj => ?_, ?_, ?_⟩
  · rw [h2] at hi
    rw [h3] at hj
    unfold FK.skiFull FK.skiCov
    simp only
    congr 1
    · refine congrArg List.sum (List.map_congr_left fun g hg => ?_)
      unfold LLGP.n at hi hj ⊢
      rw [sandwich_interp h.data.inputs.len _ hi hj]
      refine Finset.sum_congr rfl fun p hp => Finset.sum_congr rfl fun q hq => ?_
      rw [groupGrid_extra h hg (owner_lt_D h hi) (owner_lt_D h hj) (Finset.mem_range.1 hp) (Finset.mem_range.1 hq)]
    · unfold LLGP.lens
      rw [h.data.lens]
  all_goals
    unfold genGridKernel at h1
    simp only [bind_ok, pure_ok] at h1
    obtain ⟨Gs, hG, N, hN, M, hM, e⟩ := h1
    simp only [Prod.mk.injEq] at e
    obtain ⟨-, e⟩ := e
    have hl := mapExcept_length hG
    rw [List.length_map] at hl
  · rw [← e, List.map_fst_zip (by rw [hl, List.length_map])]
  · intro g hg
    obtain ⟨G, g1, g2, g3, g4, g5⟩ := gridKernelFor_represents hs hg
    obtain ⟨G', g1', g2'⟩ := dict_of_mapExcept hG g.1 (List.mem_map_of_mem hg)
    rw [g1] at g1'
    cases g1'
    refine ⟨G, by rw [← e]; exact g2', ?_⟩
    refine IsMatrix.congr g4 fun i hi j hj => ?_
    have hM : 0 < gridSize (m.axesOf g.1) := by
      rcases Nat.eq_zero_or_pos (gridSize (m.axesOf g.1)) with h0 | h0
      · rw [h0] at hi; simp at hi
      · exact h0
    have := groupGrid_extra h hg (Nat.div_lt_of_lt_mul (by rw [mul_comm]; exact hi)) (Nat.div_lt_of_lt_mul (by rw [mul_comm]; exact hj))
      (Nat.mod_lt i hM) (Nat.mod_lt j hM)
    rw [mul_comm (i / _), mul_comm (j / _), Nat.div_add_mod, Nat.div_add_mod] at this
    exact this

end Verif
