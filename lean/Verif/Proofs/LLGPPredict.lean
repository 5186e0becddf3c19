import Verif.Proofs.LLGP
import Verif.Props.Predict
import Verif.Props.Iterative

/-! The steps of `_raw_predict`. -/

namespace Verif

/-! ### splitting into outputs -/

theorem pieces_getD {α : Type} (d : α) : ∀ {l : List (List α)} {lens : List ℕ}, l.map List.length = lens → ∀ {a i : ℕ}, a < lens.length → i < lens.getD a 0 →
    (l.getD a []).getD i d = l.flatten.getD (offset lens a + i) d
  | [], _, rfl, a, i, ha, _ => by simp at ha
  | x :: l, _, rfl, 0, i, _, hi => by
    simp only [List.map_cons, List.getD_cons_zero] at hi
    simp only [List.getD_cons_zero, List.flatten_cons, offset, List.take_zero, List.sum_nil, zero_add]
    rw [List.getD_append _ _ _ _ hi]
  | x :: l, _, rfl, a + 1, i, ha, hi => by
    simp only [List.map_cons, List.getD_cons_succ] at hi
    have := pieces_getD d (l := l) rfl (a := a) (i := i) (by simpa using ha) hi
    simp only [List.getD_cons_succ, List.flatten_cons, List.map_cons]
    rw [this]
    unfold offset
    simp only [List.take_succ_cons, List.sum_cons]
    rw [List.getD_append_right _ _ _ _ (by omega)]
    congr 1
    omega

theorem split_flatten {α : Type} {a : List α} {lens : List ℕ} (hne : lens ≠ []) (h : a.length = lens.sum) :
    (npSplit a 0 (accumulate lens).dropLast).flatten = a ∧ (npSplit a 0 (accumulate lens).dropLast).map List.length = lens := by
  cases lens with
  | nil => exact absurd rfl hne
  | cons n l =>
    have hs := npSplit_spec a 0 n l (by rw [h, List.sum_cons]; omega)
    simpa only [Nat.zero_add, List.drop_zero, accumulate] using hs

theorem vsub_length' {x y : List ℝ} (h : x.length = y.length) : (vsub x y).length = x.length := by simp [vsub, h]

theorem vsub_getD {x y : List ℝ} (h : x.length = y.length) (i : ℕ) : (vsub x y).getD i 0 = x.getD i 0 - y.getD i 0 := by
  by_cases hi : i < x.length
  · have hi' : i < y.length := h ▸ hi
    simp [vsub, hi, hi']
  · have hi' : ¬ i < y.length := h ▸ hi
    rw [List.getD_eq_default _ _ (by rw [vsub_length' h]; omega), List.getD_eq_default _ _ (by omega), List.getD_eq_default _ _ (by omega), sub_zero]

theorem clamp_eq (v : ℝ) : (open Classical in if v < 0 then (0 : ℝ) else v) = max 0 v := by
  split_ifs with h
  · rw [max_eq_left h.le]
  · rw [max_eq_right (not_lt.1 h)]

/-- whatever it splits, `_raw_predict` returns one mean and one non-negative variance per query point -/
theorem splitPrediction_fits {lens : List ℕ} (hne : lens ≠ []) {mean native explained : List ℝ} (hm : mean.length = lens.sum) {p : Predicted}
    (h : splitPrediction lens mean native explained = .ok p) : PredictionFits p lens := by
  unfold splitPrediction at h
  simp only at h
  split_ifs at h with h1 h2
  rw [not_not] at h1 h2
  cases h
  have hl : (vsub (npRepeat native lens) explained).length = lens.sum := by
    rw [vsub_length' h2, npRepeat_length _ _ h1]
  obtain ⟨-, m2⟩ := split_flatten hne hm
  obtain ⟨v1, v2⟩ := split_flatten (a := (vsub (npRepeat native lens) explained).map fun v => (open Classical in if v < 0 then (0 : ℝ) else v)) hne
    (by rw [List.length_map, hl])
  refine ⟨m2, v2, fun v hv x hx => ?_⟩
  have : x ∈ (npSplit ((vsub (npRepeat native lens) explained).map fun v => (open Classical in if v < 0 then (0 : ℝ) else v)) 0 (accumulate lens).dropLast).flatten :=
    List.mem_flatten.2 ⟨v, hv, hx⟩
  rw [v1] at this
  obtain ⟨y, -, rfl⟩ := List.mem_map.1 this
  rw [clamp_eq]
  exact le_max_left _ _

/-- what it returns -/
theorem splitPrediction_ok {lens : List ℕ} (hne : lens ≠ []) {mean native explained : List ℝ} (hm : mean.length = lens.sum)
    (hn : native.length = lens.length) (he : explained.length = lens.sum) :
    ∃ p, splitPrediction lens mean native explained = .ok p ∧ PredictionFits p lens ∧
      PredictedAs p lens.length lens (fun d i => mean.getD (offset lens d + i) 0)
        (fun d i => max 0 (native.getD d 0 - explained.getD (offset lens d + i) 0)) := by
  have hl := npRepeat_length native lens hn
  have hok : splitPrediction lens mean native explained = .ok (npSplit mean 0 (accumulate lens).dropLast,
      npSplit ((vsub (npRepeat native lens) explained).map fun v => (open Classical in if v < 0 then (0 : ℝ) else v)) 0 (accumulate lens).dropLast) := by
    unfold splitPrediction
    simp only
    rw [if_neg (not_not.2 hn), if_neg (not_not.2 (hl.trans he.symm))]
  have hf := splitPrediction_fits hne hm hok
  refine ⟨_, hok, hf, ?_⟩
  have hvl : ((vsub (npRepeat native lens) explained).map fun v => (open Classical in if v < 0 then (0 : ℝ) else v)).length = lens.sum := by
    rw [List.length_map, vsub_length' (hl.trans he.symm), hl]
  obtain ⟨m1, m2⟩ := split_flatten hne hm
  obtain ⟨v1, v2⟩ := split_flatten hne hvl
  have hfa := fits_as hf
  refine ⟨hfa.len, hfa.mlen, fun d hd i hi => ⟨?_, ?_⟩⟩
  · simp only
    rw [pieces_getD 0 m2 hd hi, m1]
  · simp only
    rw [pieces_getD 0 v2 hd hi, v1]
    obtain ⟨o1, o2, o3⟩ := ownerOf_offset (lens := lens) (a := d) (i := i) hd hi
    rw [map_getD_lt (by rw [vsub_length' (hl.trans he.symm), hl]; exact o2) _ _ 0, clamp_eq]
    congr 1
    rw [vsub_getD (hl.trans he.symm), npRepeat_getD _ _ _ hn o2, o1]

/-! ### the mean -/

theorem solve_length {sv : Solvers} (hs : sv.Fit) {K : MatObj} {n : ℕ} {A : ℕ → ℕ → ℝ} (hK : SquareOp K n A) {y x : List ℝ} (hy : y.length = n)
    {minres : Bool} {tol : ℝ} {lg : Bool} (h : iterativeSolve sv K y false minres tol = .ok (.plain x, lg)) : x.length = n := by
  obtain ⟨x', c, e, lg', -, h2, -, -, h5⟩ := C51_solve sv hs K n A hK y hy minres tol
  rw [h] at h2
  simp only [Except.ok.injEq, Prod.mk.injEq, SolveRet.plain.injEq] at h2
  obtain ⟨rfl, -⟩ := h2
  have hfit : (sv.run K y minres tol).Fits n := by
    unfold Solvers.run
    have := hs K y (min 1e-10 tol) K.rows
    rw [hy] at this
    cases minres
    · exact this.2
    · exact this.1
  rcases h5 with ⟨k, hk, -, rfl, -⟩ | ⟨-, rfl, -⟩
  · exact hfit.1 _ (getD_mem_of_lt (by have := hk.1; have := hk.2.1; omega) _)
  · exact hfit.2

/-- entry `(i, j)` of the grid covariance of group `g` over all outputs, with what the implementation adds -/
noncomputable def LLGP.gridEntry (m : LLGP) (g : List ℕ × List ℕ) (i j : ℕ) : ℝ :=
  m.fk.gridCov (m.axesOf g.1) g.2 (i / gridSize (m.axesOf g.1)) (j / gridSize (m.axesOf g.1)) (i % gridSize (m.axesOf g.1)) (j % gridSize (m.axesOf g.1)) +
    if i / gridSize (m.axesOf g.1) = j / gridSize (m.axesOf g.1) ∧ i % gridSize (m.axesOf g.1) = j % gridSize (m.axesOf g.1) then m.fk.extraOf g else 0

/-- the number of columns of the interpolation matrices of a group -/
def LLGP.gridCols (m : LLGP) (g : List ℕ × List ℕ) : ℕ := m.fk.D * gridSize (m.axesOf g.1)

theorem y_length {m : LLGP} {P : ℕ} (h : m.OK P) : m.y.length = m.n := by
  unfold LLGP.y LLGP.n
  rw [List.length_flatten, h.data.lens]

/-- what is known about the kernel of an updated model -/
theorem current_facts {sv : Solvers} (hs : sv.Fit) {m : LLGP} {P : ℕ} (h : m.OK P) {k : LLKernel} (hc : m.Current sv k) :
    SquareOp k.approx.K m.n (m.fk.skiFull m.axesOf m.fk.extraOf m.gp.Xs) ∧ k.approx.alpha.length = m.n ∧
      k.grids.map Prod.fst = m.fk.activeDims.map Prod.fst ∧
      ∀ g ∈ m.fk.activeDims, ∃ G, dictGet k.grids g.1 = some G ∧ IsMatrix G.gridK (m.gridCols g) (m.gridCols g) (m.gridEntry g) := by
  obtain ⟨K, gks, h1, h2, h3, h4, h5, h6⟩ := genGridKernel_model h
  rw [hc.built] at h1
  simp only [Except.ok.injEq, Prod.mk.injEq] at h1
  obtain ⟨rfl, rfl⟩ := h1
  have hsq : SquareOp k.approx.K m.n (m.fk.skiFull m.axesOf m.fk.extraOf m.gp.Xs) := ⟨h4, h2, h3⟩
  obtain ⟨lg, hl⟩ := hc.solved
  exact ⟨hsq, solve_length hs hsq (y_length h) hl, h5, h6⟩

theorem gridAlpha_ok {sv : Solvers} (hs : sv.Fit) {m : LLGP} {P : ℕ} (h : m.OK P) {k : LLKernel} (hc : m.Current sv k) :
    m.gridAlpha = .ok (m.fk.activeDims.map fun g => (g.1, vmk (m.gridCols g) fun i => ∑ l ∈ Finset.range (m.gridCols g), m.gridEntry g i l *
      ∑ s ∈ Finset.range m.n, interpOf g.1 (m.axesOf g.1) m.gp.Xs s l * k.approx.alpha.getD s 0)) := by
  obtain ⟨hsq, hal, hkeys, hg⟩ := current_facts hs h hc
  unfold LLGP.gridAlpha
  rw [mapExcept_map]
  refine mapExcept_ok fun g hg' => ?_
  obtain ⟨G, g1, g2⟩ := hg g hg'
  obtain ⟨gg, d1, d2, d3, d4⟩ := h.mem_grids hg'
  have hi : dictIdx m.interp g.1 = .ok (gg.W, gg.WT) := by
    refine dictIdx_of_get ?_
    unfold LLGP.interp
    rw [dictGet_mapv (fun g : GroupGrid => (g.W, g.WT)), d1]
    rfl
  have hWT : gg.WT = Arr2.of (m.gridCols g) m.n fun l s => interpOf g.1 (m.axesOf g.1) m.gp.Xs s l := by
    rw [d3.WT, d3.W, Arr2.T]
    unfold LLGP.gridCols
    rw [d4, ← h.data.inputs.len]
    refine Arr2.of_congr fun i hi j hj => ?_
    rw [Arr2.of_get (by exact hj) (by exact hi)]
  rw [hi]
  simp only [ok_bind, LLGP.theKernel, hc.kernel, dictIdx_of_get g1]
  unfold csrDot
  rw [hWT, if_pos (by exact hal.symm), ok_bind]
  have hrep := g2.represents
  unfold matvecOf
  rw [if_pos (by rw [g2.cols, Arr2.dotv_length]; rfl), ok_bind]
  show Except.ok _ = _
  rw [hrep.matvec _ (by rw [g2.cols]; exact Arr2.dotv_length _ _), g2.rows, g2.cols]
  refine congrArg Except.ok (congrArg (Prod.mk _) (vmk_congr fun i hi => Finset.sum_congr rfl fun l hl => ?_))
  congr 1
  unfold Arr2.dotv
  rw [vmk_getD_lt (by exact Finset.mem_range.1 hl)]
  refine Finset.sum_congr rfl fun s hs' => ?_
  rw [Arr2.of_get (Finset.mem_range.1 hl) (Finset.mem_range.1 hs')]

/-- the interpolation of queries on the grid of a group -/
theorem predictGroup_ok {m : LLGP} {P : ℕ} (h : m.OK P) {Xs : List (Arr2 ℝ)} (hX : InputsOK m.fk.D P Xs) {g : List ℕ × List ℕ}
    (hg : g ∈ m.fk.activeDims) {v : List ℝ} (hv : v.length = m.gridCols g) :
    m.predictGroup Xs (g.1, v) = .ok (Arr2.of (Xs.map Arr2.rows).sum (m.gridCols g) (interpOf g.1 (m.axesOf g.1) Xs),
      vmk (Xs.map Arr2.rows).sum fun r => ∑ j ∈ Finset.range (m.gridCols g), interpOf g.1 (m.axesOf g.1) Xs r j * v.getD j 0) := by
  obtain ⟨gg, d1, d2, d3, d4⟩ := h.mem_grids hg
  have hne : Xs ≠ [] := by
    rintro rfl
    have := hX.len
    have := h.ready.wf.Dpos
    simp at *
    omega
  obtain ⟨R, R1, R2⟩ := interp_cols (axes := gg.axes) (ad := g.1) d3.axes d3.dim d3.size (Xs := Xs) hne
  have hax : dictIdx m.gridAxes g.1 = .ok gg.axes := by
    refine dictIdx_of_get ?_
    unfold LLGP.gridAxes
    rw [dictGet_mapv GroupGrid.axes, d1]
    rfl
  unfold LLGP.predictGroup
  rw [takeCols_all hX.cols (h.ready.bound g.1 (List.mem_map_of_mem hg)), hax]
  simp only [ok_bind]
  rw [R1]
  simp only [ok_bind]
  rw [R2, hX.len, ← d4]
  unfold csrDot
  rw [if_pos (by rw [hv]; rfl), ok_bind]
  show Except.ok _ = _
  refine congrArg Except.ok (congrArg₂ Prod.mk rfl ?_)
  unfold Arr2.dotv
  refine vmk_congr fun r hr => Finset.sum_congr rfl fun j hj => ?_
  rw [Arr2.of_get (by exact hr) (by exact Finset.mem_range.1 hj)]

/-- `W_* A Wᵀ` for interpolation matrices of queries and of training inputs -/
theorem cross_interp {ad : List ℕ} {axes : List (List ℝ)} {D : ℕ} {Xs Zs : List (Arr2 ℝ)} (hD : Xs.length = D) (hD' : Zs.length = D) (A : ℕ → ℕ → ℝ) {r s : ℕ}
    (hr : r < (Xs.map Arr2.rows).sum) (hs : s < (Zs.map Arr2.rows).sum) :
    ∑ p ∈ Finset.range (D * gridSize axes), ∑ q ∈ Finset.range (D * gridSize axes), interpOf ad axes Xs r p * A p q * interpOf ad axes Zs s q =
      ∑ p ∈ Finset.range (gridSize axes), ∑ q ∈ Finset.range (gridSize axes), gridWeight axes (coords ad (rowPoint Xs r)) p *
        A (ownerOf (Xs.map Arr2.rows) r * gridSize axes + p) (ownerOf (Zs.map Arr2.rows) s * gridSize axes + q) *
        gridWeight axes (coords ad (rowPoint Zs s)) q := by
  have ho : ∀ Xs : List (Arr2 ℝ), Xs.length = D → ∀ r < (Xs.map Arr2.rows).sum, ownerOf (Xs.map Arr2.rows) r < D := by
    intro Xs hD r hr
    have := ownerOf_lt _ _ hr
    rwa [List.length_map, hD] at this
  have e1 : ∀ p ∈ Finset.range (D * gridSize axes), ∀ q ∈ Finset.range (D * gridSize axes), interpOf ad axes Xs r p * A p q * interpOf ad axes Zs s q =
      (if p / gridSize axes = ownerOf (Xs.map Arr2.rows) r then gridWeight axes (coords ad (rowPoint Xs r)) (p % gridSize axes) else 0) *
        ((if q / gridSize axes = ownerOf (Zs.map Arr2.rows) s then gridWeight axes (coords ad (rowPoint Zs s)) (q % gridSize axes) else 0) * A p q) := by
    intro p hp q hq
    unfold interpOf interpEntry gridSize
    ring
  rw [Finset.sum_congr rfl fun p hp => Finset.sum_congr rfl fun q hq => e1 p hp q hq]
  simp only [← Finset.mul_sum]
  rw [sum_block (ho Xs hD r hr) (fun p => gridWeight axes (coords ad (rowPoint Xs r)) p)
    (fun p => ∑ q ∈ Finset.range (D * gridSize axes), (if q / gridSize axes = ownerOf (Zs.map Arr2.rows) s then
      gridWeight axes (coords ad (rowPoint Zs s)) (q % gridSize axes) else 0) * A p q)]
  refine Finset.sum_congr rfl fun p _ => ?_
  rw [sum_block (ho Zs hD' s hs) (fun q => gridWeight axes (coords ad (rowPoint Zs s)) q) (fun q => A _ q), Finset.mul_sum]
  refine Finset.sum_congr rfl fun q _ => by ring

/-- the covariance between queries and training inputs as products of operators -/
theorem skiCov_cross {m : LLGP} {P : ℕ} (h : m.OK P) {Xs : List (Arr2 ℝ)} (hX : InputsOK m.fk.D P Xs) {r s : ℕ} (hr : r < (Xs.map Arr2.rows).sum) (hs : s < m.n) :
    m.fk.skiCov m.axesOf m.fk.extraOf (ownerOf (Xs.map Arr2.rows) r) (ownerOf (m.gp.Xs.map Arr2.rows) s) (rowPoint Xs r) (rowPoint m.gp.Xs s) =
      (m.fk.activeDims.map fun g => ∑ p ∈ Finset.range (m.gridCols g), ∑ q ∈ Finset.range (m.gridCols g),
        interpOf g.1 (m.axesOf g.1) Xs r p * m.gridEntry g p q * interpOf g.1 (m.axesOf g.1) m.gp.Xs s q).sum := by
  unfold FK.skiCov
  refine congrArg List.sum (List.map_congr_left fun g hg => ?_)
  unfold LLGP.gridCols
  rw [cross_interp hX.len h.data.inputs.len _ hr hs]
  refine Finset.sum_congr rfl fun p hp => Finset.sum_congr rfl fun q hq => ?_
  unfold LLGP.gridEntry
  rw [idx_div (Finset.mem_range.1 hp), idx_div (Finset.mem_range.1 hq), idx_mod (Finset.mem_range.1 hp), idx_mod (Finset.mem_range.1 hq)]

theorem sum_list_swap {α : Type} (S : Finset ℕ) (l : List α) (F : α → ℕ → ℝ) : ∑ s ∈ S, (l.map fun g => F g s).sum = (l.map fun g => ∑ s ∈ S, F g s).sum := by
  induction l with
  | nil => simp
  | cons a l ih => simp only [List.map_cons, List.sum_cons, Finset.sum_add_distrib, ih]

/-- the interpolation matrices of queries and the mean -/
theorem predictMean_ok {sv : Solvers} (hsv : sv.Fit) {m : LLGP} {P : ℕ} (h : m.OK P) {k : LLKernel} (hc : m.Current sv k) {Xs : List (Arr2 ℝ)}
    (hX : InputsOK m.fk.D P Xs) :
    ∃ ga, m.gridAlpha = .ok ga ∧
      m.predictMean Xs ga = .ok (m.fk.activeDims.map fun g => (g.1, Arr2.of (Xs.map Arr2.rows).sum (m.gridCols g) (interpOf g.1 (m.axesOf g.1) Xs)),
        vmk (Xs.map Arr2.rows).sum fun r => ∑ s ∈ Finset.range m.n,
          m.fk.skiCov m.axesOf m.fk.extraOf (ownerOf (Xs.map Arr2.rows) r) (ownerOf (m.gp.Xs.map Arr2.rows) s) (rowPoint Xs r) (rowPoint m.gp.Xs s) *
            k.approx.alpha.getD s 0) := by
  refine ⟨_, gridAlpha_ok hsv h hc, ?_⟩
  unfold LLGP.predictMean
  rw [mapExcept_map, mapExcept_ok (g := fun g => (Arr2.of (Xs.map Arr2.rows).sum (m.gridCols g) (interpOf g.1 (m.axesOf g.1) Xs),
    vmk (Xs.map Arr2.rows).sum fun r => ∑ j ∈ Finset.range (m.gridCols g), interpOf g.1 (m.axesOf g.1) Xs r j *
      ∑ l ∈ Finset.range (m.gridCols g), m.gridEntry g j l * ∑ s ∈ Finset.range m.n, interpOf g.1 (m.axesOf g.1) m.gp.Xs s l * k.approx.alpha.getD s 0))
    (fun g hg => by
      rw [predictGroup_ok h hX hg (vmk_length _ _)]
      refine congrArg Except.ok (congrArg₂ Prod.mk rfl (vmk_congr fun r hr => Finset.sum_congr rfl fun j hj => ?_))
      rw [vmk_getD_lt (Finset.mem_range.1 hj)])]
  simp only [ok_bind]
  rw [if_pos]
  · show Except.ok _ = _
    refine congrArg Except.ok (congrArg₂ Prod.mk ?_ ?_)
    · rw [List.map_map, List.map_map, List.zip_map']
      rfl
    · rw [List.map_map, List.foldl_map]
      obtain ⟨l1, l2⟩ := foldl_vadd_length (fun g : List ℕ × List ℕ => vmk (Xs.map Arr2.rows).sum fun r => ∑ j ∈ Finset.range (m.gridCols g), interpOf g.1 (m.axesOf g.1) Xs r j *
        ∑ l ∈ Finset.range (m.gridCols g), m.gridEntry g j l * ∑ s ∈ Finset.range m.n, interpOf g.1 (m.axesOf g.1) m.gp.Xs s l * k.approx.alpha.getD s 0)
        (Xs.map Arr2.rows).sum m.fk.activeDims (vmk (Xs.map Arr2.rows).sum fun _ => 0) (vmk_length _ _) (fun g _ => vmk_length _ _)
      refine list_ext_getD 0 (l1.trans (vmk_length _ _).symm) fun r hr => ?_
      have hr' : r < (Xs.map Arr2.rows).sum := by rw [← l1]; exact hr
      refine (l2 r).trans ?_
      rw [vmk_getD_lt hr', vmk_getD_lt hr', zero_add]
      rw [show (∑ s ∈ Finset.range m.n, m.fk.skiCov m.axesOf m.fk.extraOf (ownerOf (Xs.map Arr2.rows) r) (ownerOf (m.gp.Xs.map Arr2.rows) s) (rowPoint Xs r)
          (rowPoint m.gp.Xs s) * k.approx.alpha.getD s 0) = ∑ s ∈ Finset.range m.n, (m.fk.activeDims.map fun g => (∑ p ∈ Finset.range (m.gridCols g), ∑ q ∈ Finset.range (m.gridCols g),
        interpOf g.1 (m.axesOf g.1) Xs r p * m.gridEntry g p q * interpOf g.1 (m.axesOf g.1) m.gp.Xs s q) * k.approx.alpha.getD s 0).sum from
        Finset.sum_congr rfl fun s hs => by rw [skiCov_cross h hX hr' (Finset.mem_range.1 hs), List.sum_map_mul_right]]
      rw [sum_list_swap]
      refine congrArg List.sum (List.map_congr_left fun g _ => ?_)
      rw [vmk_getD_lt hr']
      simp only [Finset.mul_sum, Finset.sum_mul]
      rw [Finset.sum_comm (s := Finset.range m.n)]
      refine Finset.sum_congr rfl fun p _ => ?_
      rw [Finset.sum_comm (s := Finset.range m.n)]
      refine Finset.sum_congr rfl fun q _ => Finset.sum_congr rfl fun s _ => by ring
  · intro p hp
    obtain ⟨g, -, rfl⟩ := List.mem_map.1 hp
    exact vmk_length _ _

end Verif
