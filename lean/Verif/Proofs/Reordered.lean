import Verif.Proofs.Observations
import Verif.Props.Pointwise
import Verif.Proofs.LLGPSim

/-! Lemmas for C82: the order of the observations. -/

namespace Verif

/-! ### the grids -/

/-- a list has at most one extreme element -/
theorem foldl_pick {f : ℝ → ℝ → ℝ} {R : ℝ → ℝ → Prop} (hf : ∀ x y, f x y = x ∨ f x y = y) (h1 : ∀ x y, R (f x y) x) (h2 : ∀ x y, R (f x y) y) (hr : ∀ x, R x x)
    (ht : ∀ x y z, R x y → R y z → R x z) : ∀ (l : List ℝ) (a : ℝ), l.foldl f a ∈ a :: l ∧ ∀ x ∈ a :: l, R (l.foldl f a) x
  | [], a => ⟨by simp, fun x hx => by simp at hx; subst hx; exact hr x⟩
  | b :: l, a => by
    obtain ⟨i1, i2⟩ := foldl_pick hf h1 h2 hr ht l (f a b)
    rw [List.foldl_cons]
    refine ⟨?_, fun x hx => ?_⟩
    · rcases List.mem_cons.1 i1 with h | h
      · rw [h]
        rcases hf a b with h | h <;> rw [h] <;> simp
      · exact List.mem_cons_of_mem _ (List.mem_cons_of_mem _ h)
    · have h0 := i2 _ List.mem_cons_self
      rcases List.mem_cons.1 hx with rfl | hx
      · exact ht _ _ _ h0 (h1 _ _)
      · rcases List.mem_cons.1 hx with rfl | hx
        · exact ht _ _ _ h0 (h2 _ _)
        · exact i2 x (List.mem_cons_of_mem _ hx)

theorem foldl_perm {f : ℝ → ℝ → ℝ} {R : ℝ → ℝ → Prop} (hf : ∀ x y, f x y = x ∨ f x y = y) (h1 : ∀ x y, R (f x y) x) (h2 : ∀ x y, R (f x y) y) (hr : ∀ x, R x x)
    (ht : ∀ x y z, R x y → R y z → R x z) (ha : ∀ x y, R x y → R y x → x = y) {a a' : ℝ} {l l' : List ℝ} (h : (a :: l).Perm (a' :: l')) : l.foldl f a = l'.foldl f a' := by
  obtain ⟨i1, i2⟩ := foldl_pick hf h1 h2 hr ht l a
  obtain ⟨j1, j2⟩ := foldl_pick hf h1 h2 hr ht l' a'
  exact ha _ _ (i2 _ (h.symm.subset j1)) (j2 _ (h.subset i1))

/-- the same rows in another order, as far as one column at a time shows it -/
structure ColsPerm (X X' : Arr2 ℝ) : Prop where
  rows : X'.rows = X.rows
  cols : X'.cols = X.cols
  perm : ∀ c < X.cols, (X.col c).Perm (X'.col c)

theorem col_cons {X : Arr2 ℝ} (h : X.rows ≠ 0) (c : ℕ) : X.col c = X.get 0 c :: (X.col c).tail := by
  obtain ⟨n, hn⟩ := Nat.exists_eq_succ_of_ne_zero h
  unfold Arr2.col
  rw [hn, vmk, List.range_succ_eq_map]
  simp

theorem ColsPerm.reduce {X X' : Arr2 ℝ} (h : ColsPerm X X') {f : ℝ → ℝ → ℝ} {R : ℝ → ℝ → Prop} (hf : ∀ x y, f x y = x ∨ f x y = y) (h1 : ∀ x y, R (f x y) x)
    (h2 : ∀ x y, R (f x y) y) (hr : ∀ x, R x x) (ht : ∀ x y z, R x y → R y z → R x z) (ha : ∀ x y, R x y → R y x → x = y) : axisReduce f X' = axisReduce f X := by
  unfold axisReduce
  rw [h.rows, h.cols]
  by_cases h0 : X.rows = 0
  · rw [if_pos h0, if_pos h0]
  · rw [if_neg h0, if_neg h0]
    refine congrArg Except.ok (vmk_congr fun c hc => ?_)
    refine (foldl_perm hf h1 h2 hr ht ha ?_).symm
    rw [← col_cons h0, ← col_cons (by rw [h.rows]; exact h0)]
    exact h.perm c hc

theorem mapExcept_forall₂ {α α' β : Type} {f : α → Except PyErr β} {g : α' → Except PyErr β} {l : List α} {l' : List α'} (h : List.Forall₂ (fun x x' => g x' = f x) l l') :
    mapExcept g l' = mapExcept f l := by
  induction h with
  | nil => rfl
  | cons h _ ih => simp only [mapExcept, h, ih]

theorem autogrid_perm {Xs Xs' : List (Arr2 ℝ)} (h : List.Forall₂ ColsPerm Xs Xs') (lo hi m : GridArg) : autogrid Xs' lo hi m = autogrid Xs lo hi m := by
  have hmin : mapExcept (axisReduce min) Xs' = mapExcept (axisReduce min) Xs := mapExcept_forall₂ (h.imp fun X X' h =>
    h.reduce (R := fun x y => x ≤ y) min_choice min_le_left min_le_right le_refl (fun _ _ _ => le_trans) fun _ _ => le_antisymm)
  have hmax : mapExcept (axisReduce max) Xs' = mapExcept (axisReduce max) Xs := mapExcept_forall₂ (h.imp fun X X' h =>
    h.reduce (R := fun x y => y ≤ x) max_choice le_max_left le_max_right le_refl (fun _ _ _ h1 h2 => le_trans h2 h1) fun _ _ h1 h2 => le_antisymm h2 h1)
  have hrows : Xs'.map Arr2.rows = Xs.map Arr2.rows := by
    clear hmin hmax
    induction h with
    | nil => rfl
    | cons h _ ih => rw [List.map_cons, List.map_cons, h.rows, ih]
  have hlen := h.length_eq.symm
  cases h with
  | nil => rfl
  | cons h0 h =>
    unfold autogrid
    simp only [hmin, hmax, hrows, hlen]
    rw [h0.cols]

theorem takeCols_perm {X X' : Arr2 ℝ} (h : ColsPerm X X') (ad : List ℕ) : ExceptRel ColsPerm (takeCols X ad) (takeCols X' ad) := by
  unfold takeCols
  rw [h.cols]
  by_cases hc : ∀ c ∈ ad, c < X.cols
  · rw [if_pos hc, if_pos hc]
    refine ⟨h.rows, rfl, fun c (hc' : c < ad.length) => ?_⟩
    have hget : ad.getD c 0 < X.cols := hc _ (getD_mem_of_lt hc' 0)
    have e : ∀ Z : Arr2 ℝ, (Arr2.of Z.rows ad.length fun i k => Z.get i (ad.getD k 0)).col c = Z.col (ad.getD c 0) := fun Z => by
      unfold Arr2.col
      exact vmk_congr fun i hi => Arr2.of_get hi hc'
    rw [e, e]
    exact h.perm _ hget
  · rw [if_neg hc, if_neg hc]
    rfl

theorem mapExcept_rel {α α' β β' : Type} {ρ : β → β' → Prop} {f : α → Except PyErr β} {g : α' → Except PyErr β'} {l : List α} {l' : List α'}
    (h : List.Forall₂ (fun x x' => ExceptRel ρ (f x) (g x')) l l') : ExceptRel (List.Forall₂ ρ) (mapExcept f l) (mapExcept g l') := by
  induction h with
  | nil => exact .nil
  | @cons x x' l l' h _ ih =>
    simp only [mapExcept]
    cases h1 : f x <;> cases h2 : g x' <;> rw [h1, h2] at h
    · exact h
    · exact h.elim
    · exact h.elim
    · cases h3 : mapExcept f l <;> cases h4 : mapExcept g l' <;> rw [h3, h4] at ih
      · exact ih
      · exact ih.elim
      · exact ih.elim
      · exact .cons h ih

theorem generateGrid_perm {Xs Xs' : List (Arr2 ℝ)} (h : List.Forall₂ ColsPerm Xs Xs') {lo hi m : GridOpt} {ad : List ℕ} {g g' : GroupGrid}
    (hg : generateGrid Xs lo hi m ad = .ok g) (hg' : generateGrid Xs' lo hi m ad = .ok g') : g'.axes = g.axes := by
  unfold generateGrid at hg hg'
  simp only [bind_ok, pure_ok] at hg hg'
  obtain ⟨a1, b1, a2, b2, a3, b3, Xa, b4, G, b5, d, -, W, -, rfl⟩ := hg
  obtain ⟨a1', b1', a2', b2', a3', b3', Xa', b4', G', b5', d', -, W', -, rfl⟩ := hg'
  rw [b1] at b1'; cases b1'
  rw [b2] at b2'; cases b2'
  rw [b3] at b3'; cases b3'
  have hr := mapExcept_rel (h.imp fun X X' h => takeCols_perm h ad)
  rw [b4, b4'] at hr
  rw [autogrid_perm hr, b5] at b5'
  cases b5'
  rfl

theorem generateGrids_perm {Xs Xs' : List (Arr2 ℝ)} (h : List.Forall₂ ColsPerm Xs Xs') {lo hi m : GridOpt} {fk : FK} {G G' : List (List ℕ × GroupGrid)}
    (hg : generateGrids fk Xs lo hi m = .ok G) (hg' : generateGrids fk Xs' lo hi m = .ok G') (ad : List ℕ) :
    (dictGet G' ad).map GroupGrid.axes = (dictGet G ad).map GroupGrid.axes := by
  unfold generateGrids at hg hg'
  generalize fk.activeDims.map Prod.fst = keys at hg hg'
  induction keys generalizing G G' with
  | nil =>
    simp only [mapExcept, Except.ok.injEq] at hg hg'
    subst hg; subst hg'
    rfl
  | cons key keys ih =>
    simp only [mapExcept, bind_ok, pure_ok] at hg hg'
    obtain ⟨x, ⟨g, g1, rfl⟩, ys, g2, rfl⟩ := hg
    obtain ⟨x', ⟨g', g1', rfl⟩, ys', g2', rfl⟩ := hg'
    simp only [dictGet]
    split_ifs
    · simp only [Option.map_some]
      rw [generateGrid_perm h g1 g1']
    · exact ih g2 g2'

/-! ### matrices -/

open Matrix in
theorem quadratic_equiv {n n' : ℕ} (σ : Fin n ≃ Fin n') {K : Matrix (Fin n) (Fin n) ℝ} {K' : Matrix (Fin n') (Fin n') ℝ} (hK : ∀ i j, K i j = K' (σ i) (σ j))
    {u v : Fin n → ℝ} {u' v' : Fin n' → ℝ} (hu : ∀ i, u i = u' (σ i)) (hv : ∀ i, v i = v' (σ i)) : u' ⬝ᵥ K'⁻¹ *ᵥ v' = u ⬝ᵥ K⁻¹ *ᵥ v := by
  have e : K = K'.submatrix σ σ := by
    ext i j
    exact hK i j
  rw [e, Matrix.inv_submatrix_equiv]
  simp only [dotProduct, Matrix.mulVec]
  rw [← Equiv.sum_comp σ]
  refine Finset.sum_congr rfl fun i _ => ?_
  rw [hu i, ← Equiv.sum_comp σ]
  congr 1
  exact Finset.sum_congr rfl fun j _ => by rw [hv j]; rfl

/-- two models with the same parameters, grids and normalisation whose observations are the same up to their order -/
structure Rearranged (P : ℕ) (m m' : LLGP) : Prop where
  ok : m.OK P
  ok' : m'.OK P
  fk : m'.fk = m.fk
  mode : m'.prediction = m.prediction
  axes : m'.axesOf = m.axesOf
  gp : m'.gp = { m.gp with Xs := m'.gp.Xs, Ys := m'.gp.Ys }
  rows : ∃ σ : Fin (m.gp.Xs.map Arr2.rows).sum ≃ Fin (m'.gp.Xs.map Arr2.rows).sum, RowsWithin P m.gp.Xs m'.gp.Xs σ ∧
    ∀ r : Fin (m.gp.Xs.map Arr2.rows).sum, m.gp.Ys.flatten.getD r 0 = m'.gp.Ys.flatten.getD (σ r) 0

theorem skiCov_eq {m : LLGP} {P : ℕ} (h : m.OK P) {x x' z z' : ℕ → ℝ} (hx : ∀ c < P, x c = x' c) (hz : ∀ c < P, z c = z' c) (extra : List ℕ × List ℕ → ℝ) (a b : ℕ) :
    m.fk.skiCov m.axesOf extra a b x z = m.fk.skiCov m.axesOf extra a b x' z' := by
  unfold FK.skiCov
  congr 1
  refine List.map_congr_left fun g hg => ?_
  exact Finset.sum_congr rfl fun p _ => Finset.sum_congr rfl fun q _ => by rw [coords_eq h hg hx, coords_eq h hg hz]

theorem skiMat_within {m : LLGP} {P : ℕ} (h : m.OK P) {Xs Xs' : List (Arr2 ℝ)} {ι : Fin (Xs.map Arr2.rows).sum → Fin (Xs'.map Arr2.rows).sum}
    (hι : RowsWithin P Xs Xs' ι) (extra : List ℕ × List ℕ → ℝ) (i j : Fin (Xs.map Arr2.rows).sum) :
    m.fk.skiMat m.axesOf extra Xs i j = m.fk.skiMat m.axesOf extra Xs' (ι i) (ι j) := by
  show m.fk.skiCov _ _ _ _ (rowPoint Xs i) (rowPoint Xs j) + _ = m.fk.skiCov _ _ _ _ (rowPoint Xs' (ι i)) (rowPoint Xs' (ι j)) + _
  rw [hι.owner, hι.owner, skiCov_eq h (fun c hc => (hι.point i c hc).symm) (fun c hc => (hι.point j c hc).symm)]
  congr 1
  by_cases e : i = j
  · rw [if_pos (by rw [e]), if_pos (by rw [e])]
  · rw [if_neg fun h' => e (Fin.ext h'), if_neg fun h' => e (hι.inj (Fin.ext h'))]

theorem skiCross_within {m : LLGP} {P : ℕ} (h : m.OK P) {Xs Xs' : List (Arr2 ℝ)} {ι : Fin (Xs.map Arr2.rows).sum → Fin (Xs'.map Arr2.rows).sum}
    (hι : RowsWithin P Xs Xs' ι) (extra : List ℕ × List ℕ → ℝ) (a : ℕ) (x : ℕ → ℝ) (i : Fin (Xs.map Arr2.rows).sum) :
    m.fk.skiCross m.axesOf extra Xs a x i = m.fk.skiCross m.axesOf extra Xs' a x (ι i) := by
  unfold FK.skiCross
  rw [hι.owner, skiCov_eq h (fun _ _ => rfl) fun c hc => (hι.point i c hc).symm]

theorem gridToData_within {m : LLGP} {P : ℕ} (h : m.OK P) {Xs Xs' : List (Arr2 ℝ)} {ι : Fin (Xs.map Arr2.rows).sum → Fin (Xs'.map Arr2.rows).sum}
    (hι : RowsWithin P Xs Xs' ι) (extra : List ℕ × List ℕ → ℝ) {g : List ℕ × List ℕ} (hg : g ∈ m.fk.activeDims) (d p : ℕ) (i : Fin (Xs.map Arr2.rows).sum) :
    m.fk.gridToData (m.axesOf g.1) extra g Xs d p i = m.fk.gridToData (m.axesOf g.1) extra g Xs' d p (ι i) := by
  unfold FK.gridToData
  rw [hι.owner]
  exact Finset.sum_congr rfl fun q _ => by rw [coords_eq h hg fun c hc => (hι.point i c hc).symm]

namespace Rearranged

variable {P : ℕ} {m m' : LLGP} (R : Rearranged P m m')
include R

theorem n_eq : m'.n = m.n := by
  obtain ⟨σ, -⟩ := R.rows
  have := Fintype.card_congr σ
  simpa [LLGP.n] using this.symm

theorem condVar (d : ℕ) (x : ℕ → ℝ) : m.fk.crossCov m'.gp.Xs d x ⬝ᵥ (m.fk.covMat m'.gp.Xs)⁻¹.mulVec (m.fk.crossCov m'.gp.Xs d x) =
    m.fk.crossCov m.gp.Xs d x ⬝ᵥ (m.fk.covMat m.gp.Xs)⁻¹.mulVec (m.fk.crossCov m.gp.Xs d x) := by
  obtain ⟨σ, hσ, -⟩ := R.rows
  exact quadratic_equiv σ (covMat_within R.ok.ready hσ) (crossCov_within R.ok.ready hσ d x) (crossCov_within R.ok.ready hσ d x)

theorem det : (m.fk.covMat m'.gp.Xs).det = (m.fk.covMat m.gp.Xs).det := by
  obtain ⟨σ, hσ, -⟩ := R.rows
  rw [show m.fk.covMat m.gp.Xs = (m.fk.covMat m'.gp.Xs).submatrix σ σ from by ext i j; exact covMat_within R.ok.ready hσ i j, Matrix.det_submatrix_equiv_self]

theorem flyVar (d : ℕ) (x : ℕ → ℝ) :
    m.fk.crossCov m'.gp.Xs d x ⬝ᵥ (m.fk.skiMat m.axesOf m.fk.extraOf m'.gp.Xs)⁻¹.mulVec (m.fk.crossCov m'.gp.Xs d x) =
      m.fk.crossCov m.gp.Xs d x ⬝ᵥ (m.fk.skiMat m.axesOf m.fk.extraOf m.gp.Xs)⁻¹.mulVec (m.fk.crossCov m.gp.Xs d x) := by
  obtain ⟨σ, hσ, -⟩ := R.rows
  exact quadratic_equiv σ (skiMat_within R.ok hσ _) (crossCov_within R.ok.ready hσ d x) (crossCov_within R.ok.ready hσ d x)

theorem gridVar {g : List ℕ × List ℕ} (hg : g ∈ m.fk.activeDims) (d p : ℕ) :
    m.fk.gridExplained m.axesOf m.fk.extraOf g m'.gp.Xs d p = m.fk.gridExplained m.axesOf m.fk.extraOf g m.gp.Xs d p := by
  obtain ⟨σ, hσ, -⟩ := R.rows
  exact quadratic_equiv σ (skiMat_within R.ok hσ _) (gridToData_within R.ok hσ _ hg d p) (gridToData_within R.ok hσ _ hg d p)

theorem mean (d : ℕ) (x : ℕ → ℝ) : m.fk.skiMean m.axesOf m.fk.extraOf m'.gp.Xs m'.gp.Ys d x = m.fk.skiMean m.axesOf m.fk.extraOf m.gp.Xs m.gp.Ys d x := by
  obtain ⟨σ, hσ, hy⟩ := R.rows
  exact quadratic_equiv σ (skiMat_within R.ok hσ _) (skiCross_within R.ok hσ _ d x) fun r => hy r

theorem quadratic : toVec (m'.gp.Xs.map Arr2.rows).sum m'.gp.Ys.flatten ⬝ᵥ (m.fk.skiMat m.axesOf m.fk.extraOf m'.gp.Xs)⁻¹.mulVec (toVec (m'.gp.Xs.map Arr2.rows).sum m'.gp.Ys.flatten) =
    toVec (m.gp.Xs.map Arr2.rows).sum m.gp.Ys.flatten ⬝ᵥ (m.fk.skiMat m.axesOf m.fk.extraOf m.gp.Xs)⁻¹.mulVec (toVec (m.gp.Xs.map Arr2.rows).sum m.gp.Ys.flatten) := by
  obtain ⟨σ, hσ, hy⟩ := R.rows
  exact quadratic_equiv σ (skiMat_within R.ok hσ _) (fun r => hy r) fun r => hy r

end Rearranged

theorem explained_fly_exact {sv : Solvers} (hs : sv.Fit) {m : LLGP} {P : ℕ} (h : m.OK P) (hm : m.prediction = .onTheFly) {k : LLKernel} (hc : m.Current sv k)
    (hx : ExactSolves sv k.approx.K m.n (m.fk.skiFull m.axesOf m.fk.extraOf m.gp.Xs) 1e-4) {e : Env} (he : e.Works) {Xs : List (Arr2 ℝ)} (hX : InputsOK m.fk.D P Xs)
    (hn : 0 < (Xs.map Arr2.rows).sum) (Ws : List (List ℕ × Arr2 ℝ)) :
    m.explained sv e Xs Ws = .ok (vmk (Xs.map Arr2.rows).sum fun r => m.fk.crossCov m.gp.Xs (ownerOf (Xs.map Arr2.rows) r) (rowPoint Xs r) ⬝ᵥ
      (m.fk.skiMat m.axesOf m.fk.extraOf m.gp.Xs)⁻¹.mulVec (m.fk.crossCov m.gp.Xs (ownerOf (Xs.map Arr2.rows) r) (rowPoint Xs r))) := by
  obtain ⟨sol, s1, s2⟩ := exactSol hx
  rw [explained_fly hs h hm hc s1 hX (he _) hn Ws]
  refine congrArg Except.ok (vmk_congr fun r _ => ?_)
  unfold dotProduct
  refine Finset.sum_congr rfl fun s _ => ?_
  congr 1
  have := s2 (vmk m.n fun s => m.fk.cov (ownerOf (Xs.map Arr2.rows) r) (ownerOf (m.gp.Xs.map Arr2.rows) s) (rowPoint Xs r) (rowPoint m.gp.Xs s)) (vmk_length _ _)
  rw [toVec_vmk] at this
  exact congrFun this s

theorem explained_pre_exact {sv : Solvers} (hs : sv.Fit) {m : LLGP} {P : ℕ} (h : m.OK P) (hm : m.prediction = .precompute) {k : LLKernel} (hc : m.Current sv k)
    (hx : ExactSolves sv k.approx.K m.n (m.fk.skiFull m.axesOf m.fk.extraOf m.gp.Xs) 1e-4) {e : Env} (he : e.Works) {Xs : List (Arr2 ℝ)} (hX : InputsOK m.fk.D P Xs)
    {g : List ℕ × List ℕ} (hg : m.fk.activeDims = [g]) (hg1 : g.1 = List.range P) :
    m.explained sv e Xs (m.queryWs Xs) = .ok (vmk (Xs.map Arr2.rows).sum fun r => ∑ p ∈ Finset.range (gridSize (m.axesOf g.1)),
      gridWeight (m.axesOf g.1) (coords g.1 (rowPoint Xs r)) p * m.fk.gridExplained m.axesOf m.fk.extraOf g m.gp.Xs (ownerOf (Xs.map Arr2.rows) r) p) := by
  obtain ⟨sol, s1, s2⟩ := exactSol hx
  rw [explained_pre hs h hm hc s1 hg hg1 (he _)]
  refine congrArg Except.ok (vmk_congr fun r hr => ?_)
  have hgm : g ∈ m.fk.activeDims := by rw [hg]; simp
  simp only [nu_explained h hgm s2]
  unfold LLGP.gridCols
  rw [interp_grid hX.len hr]

theorem predictedAs_unique {p p' : Predicted} {D : ℕ} {lens : List ℕ} {f g f' g' : ℕ → ℕ → ℝ} (h : PredictedAs p D lens f g) (h' : PredictedAs p' D lens f' g')
    (hfg : ∀ d < D, ∀ i < lens.getD d 0, f' d i = f d i ∧ g' d i = g d i) : p' = p := by
  have key : ∀ l l' : List (List ℝ), l.length = D → l'.length = D → (∀ d < D, (l.getD d []).length = lens.getD d 0 ∧ (l'.getD d []).length = lens.getD d 0) →
      (∀ d < D, ∀ i < lens.getD d 0, (l'.getD d []).getD i 0 = (l.getD d []).getD i 0) → l' = l := by
    intro l l' h1 h2 h3 h4
    refine list_ext_getD (d := []) (by rw [h1, h2]) fun d hd => ?_
    rw [h2] at hd
    refine list_ext_getD (d := 0) (by rw [(h3 d hd).1, (h3 d hd).2]) fun i hi => ?_
    rw [(h3 d hd).2] at hi
    exact h4 d hd i hi
  refine Prod.ext ?_ ?_
  · refine key _ _ h.len.1 h'.len.1 (fun d hd => ⟨(h.mlen d hd).1, (h'.mlen d hd).1⟩) fun d hd i hi => ?_
    rw [(h.entry d hd i hi).1, (h'.entry d hd i hi).1, (hfg d hd i hi).1]
  · refine key _ _ h.len.2 h'.len.2 (fun d hd => ⟨(h.mlen d hd).2, (h'.mlen d hd).2⟩) fun d hd i hi => ?_
    rw [(h.entry d hd i hi).2, (h'.entry d hd i hi).2, (hfg d hd i hi).2]

theorem raw_explained_error {sv : Solvers} (hs : sv.Fit) {m : LLGP} {P : ℕ} (h : m.OK P) {k : LLKernel} (hc : m.Current sv k) {Xs : List (Arr2 ℝ)}
    (hX : InputsOK m.fk.D P Xs) (e : Env) (hi : ∀ k ∈ m.fk.kernels, k.noIdentity) {x : PyErr} (hex : m.explained sv e Xs (m.queryWs Xs) = .error x) :
    m.rawPredict sv e Xs = .error x := by
  obtain ⟨ga, g1, g2⟩ := predictMean_ok hs h hc hX
  unfold LLGP.rawPredict
  rw [g1, ok_bind, nativeVariance_ok h.ready hi 0, ok_bind, g2, ok_bind]
  simp only
  unfold LLGP.queryWs at hex
  rw [hex]
  rfl

/-- the parts of `OK` and `Current` that make the solver exact -/
theorem exact_of_current {sv : Solvers} (hs : sv.Fit) (hx : sv.Exact) {m : LLGP} {P : ℕ} (h : m.OK P) {k : LLKernel} (hc : m.Current sv k) (hso : m.fk.Sound)
    (hn : ∀ ad ∈ m.fk.activeDims.map Prod.fst, ad.Nodup) (tol : ℝ) : ExactSolves sv k.approx.K m.n (m.fk.skiFull m.axesOf m.fk.extraOf m.gp.Xs) tol :=
  hx _ _ _ _ (current_facts hs h hc).1 ((Matrix.isUnit_iff_isUnit_det _).1 (h.ski_posDef hso hn).isUnit)

theorem Rearranged.raw {sv : Solvers} (hs : sv.Fit) (hx : sv.Exact) {m m' : LLGP} {P : ℕ} (R : Rearranged P m m') {k k' : LLKernel} (hc : m.Current sv k)
    (hc' : m'.Current sv k') (hso : m.fk.Sound) (hn : ∀ ad ∈ m.fk.activeDims.map Prod.fst, ad.Nodup) {e e' : Env} (he : e.Works) (he' : e'.Works) {Xs : List (Arr2 ℝ)}
    (hX : InputsOK m.fk.D P Xs) : m'.rawPredict sv e' Xs = m.rawPredict sv e Xs := by
  have hso' : m'.fk.Sound := by rw [R.fk]; exact hso
  have hn' : ∀ ad ∈ m'.fk.activeDims.map Prod.fst, ad.Nodup := by rw [R.fk]; exact hn
  have hX' : InputsOK m'.fk.D P Xs := by rw [R.fk]; exact hX
  have hxs := exact_of_current hs hx R.ok hc hso hn
  have hxs' := exact_of_current hs hx R.ok' hc' hso' hn'
  have hpd := covMat_posDef R.ok.ready.wf R.ok.data.inputs.len hso.kernels hso.kappa hso.noise
  have hpd' := covMat_posDef R.ok'.ready.wf R.ok'.data.inputs.len hso'.kernels hso'.kappa hso'.noise
  have hex : m'.explained sv e' Xs (m'.queryWs Xs) = m.explained sv e Xs (m.queryWs Xs) ∧
      ∀ ex, m.explained sv e Xs (m.queryWs Xs) = .ok ex → ex.length = (Xs.map Arr2.rows).sum := by
    cases hm : m.prediction with
    | exact =>
      rw [(explained_exact R.ok hm hX sv e _).1 hpd, (explained_exact R.ok' (R.mode.trans hm) hX' sv e' _).1 hpd']
      refine ⟨congrArg Except.ok (vmk_congr fun r _ => ?_), fun ex h => by rw [← Except.ok.inj h, vmk_length]⟩
      rw [R.fk]
      exact R.condVar _ _
    | onTheFly =>
      by_cases h0 : 0 < (Xs.map Arr2.rows).sum
      · rw [explained_fly_exact hs R.ok hm hc (hxs _) he hX h0, explained_fly_exact hs R.ok' (R.mode.trans hm) hc' (hxs' _) he' hX' h0]
        refine ⟨congrArg Except.ok (vmk_congr fun r _ => ?_), fun ex h => by rw [← Except.ok.inj h, vmk_length]⟩
        rw [R.fk, R.axes]
        exact R.flyVar _ _
      · have h0 : (Xs.map Arr2.rows).sum = 0 := by omega
        rw [explained_fly_none R.ok hm hc hX (he 0) h0, explained_fly_none R.ok' (R.mode.trans hm) hc' hX' (he' 0) h0]
        exact ⟨rfl, fun ex h => by cases h⟩
    | precompute =>
      have hm' := R.mode.trans hm
      obtain ⟨f1, f2⟩ := explained_pre_fails (sv := sv) R.ok hm e Xs (m.queryWs Xs)
      obtain ⟨f1', f2'⟩ := explained_pre_fails (sv := sv) R.ok' hm' e' Xs (m'.queryWs Xs)
      by_cases hl : m.fk.activeDims.length = 1
      · obtain ⟨g, hg⟩ := List.length_eq_one_iff.1 hl
        by_cases hg1 : g.1 = List.range P
        · rw [explained_pre_exact hs R.ok hm hc (hxs _) he hX hg hg1, explained_pre_exact hs R.ok' hm' hc' (hxs' _) he' hX' (by rw [R.fk]; exact hg) hg1]
          refine ⟨congrArg Except.ok (vmk_congr fun r _ => ?_), fun ex h => by rw [← Except.ok.inj h, vmk_length]⟩
          rw [R.fk, R.axes]
          exact Finset.sum_congr rfl fun p _ => by rw [R.gridVar (by rw [hg]; simp)]
        · rw [f2 g hg hg1, f2' g (by rw [R.fk]; exact hg) hg1]
          exact ⟨rfl, fun ex h => by cases h⟩
      · rw [f1 hl, f1' (by rw [R.fk]; exact hl)]
        exact ⟨rfl, fun ex h => by cases h⟩
  obtain ⟨h1, h2⟩ := hex
  cases h3 : m.explained sv e Xs (m.queryWs Xs) with
  | error x =>
    rw [raw_explained_error hs R.ok hc hX e hso.plain h3, raw_explained_error hs R.ok' hc' hX' e' hso'.plain (h1.trans h3)]
  | ok ex =>
    obtain ⟨p, p1, -, p3⟩ := raw_ok hs R.ok hc hX hso.plain e h3 (h2 ex h3)
    obtain ⟨p', q1, -, q3⟩ := raw_ok hs R.ok' hc' hX' hso'.plain e' (h1.trans h3) (h2 ex h3)
    rw [p1, q1]
    rw [R.fk] at q3
    refine congrArg Except.ok (predictedAs_unique p3 q3 fun d hd i hi => ⟨?_, rfl⟩)
    rw [meanWith_exact R.ok hc (hxs _), meanWith_exact R.ok' hc' (hxs' _), R.fk, R.axes]
    exact R.mean _ _

/-! ### models made from reordered observations -/

theorem meanOf_perm {l l' : List ℝ} (h : l.Perm l') : meanOf l' = meanOf l := by
  unfold meanOf
  rw [← list_sum_getD, ← list_sum_getD, h.sum_eq, h.length_eq]

theorem varOf_perm {l l' : List ℝ} (h : l.Perm l') : varOf l' = varOf l := by
  have e : ∀ l : List ℝ, varOf l = (l.map fun y => (y - meanOf l) ^ 2).sum / l.length := fun l => by
    unfold varOf
    rw [list_sum_getD, List.length_map]
    congr 1
    refine Finset.sum_congr rfl fun i hi => ?_
    rw [map_getD_lt (Finset.mem_range.1 hi) _ _ 0]
  rw [e, e, meanOf_perm h, h.length_eq, (h.map _).sum_eq]

theorem sdOf_perm {l l' : List ℝ} (h : l.Perm l') : sdOf l' = sdOf l := by
  unfold sdOf
  rw [varOf_perm h]

theorem documented_fields {a : LLGPArgs} {P : ℕ} {fk : FK} (h : a.Documented P fk) {m : LLGP} (hm : llgpInit a = .ok m) :
    m.gp.inputDim = P ∧ m.gp.outputDim = a.Xs.length ∧
      m.gp.normalizer = (if a.normalize then some (a.Ys.map fun Y => ⟨some (meanOf Y.data), some (sdOf Y.data)⟩) else none) ∧
      fk.setInputDim P = .ok m.fk ∧ generateGrids m.fk m.gp.Xs a.lo a.hi a.m = .ok m.grids := by
  obtain ⟨-, -, -, -, -, hgp⟩ := init_fields hm
  obtain ⟨norms, e, hn⟩ := (C42_validation_partial a.Xs a.Ys (fun X hX => by
      obtain ⟨n, hn⟩ := h.data.points X hX
      rcases hn with ⟨hn, -⟩ | hn <;> rw [hn] <;> simp) (fun Y hY => by
      obtain ⟨i, hi, rfl⟩ := mem_getD hY ⟨[], []⟩
      obtain ⟨n, hn, -⟩ := h.data.shape i (by rw [h.data.len]; exact hi)
      rw [hn]; simp) a.normalize).2.2 P h.data
  rw [hgp] at e
  have e := Except.ok.inj e
  have e1 : m.gp.inputDim = P := by rw [e]
  refine ⟨e1, by rw [e], by rw [e]; exact hn, ?_⟩
  unfold llgpInit at hm
  rw [hgp, ok_bind, h.kernel] at hm
  simp only at hm
  cases hp : predMode a.prediction with
  | none => rw [hp] at hm; cases hm
  | some mode =>
    rw [hp] at hm
    simp only [bind_ok, pure_ok] at hm
    obtain ⟨fk', q1, grids, q2, q3⟩ := hm
    rw [e1] at q1
    rw [q1, ← q3]
    exact ⟨rfl, q2⟩

theorem observed_length (P : ℕ) (Xs Ys : List (NDArr ℝ)) (d : ℕ) : (observed P Xs Ys d).length = (queryLens Xs).getD d 0 := by
  unfold observed
  rw [List.length_map, List.length_range]

theorem observed_getD {P : ℕ} {Xs Ys : List (NDArr ℝ)} {d i : ℕ} (hi : i < (queryLens Xs).getD d 0) (o : List ℝ × ℝ) :
    (observed P Xs Ys d).getD i o = (vmk P (queryPoint P Xs d i), (Ys.getD d ⟨[], []⟩).data.getD i 0) := by
  unfold observed
  rw [map_getD_lt (by simpa using hi) _ _ 0]
  have e : (List.range ((queryLens Xs).getD d 0)).getD i 0 = i := by
    rw [List.getD_eq_getElem _ _ (by simpa using hi), List.getElem_range]
  rw [e]

theorem documented_lens {a : LLGPArgs} {P : ℕ} {fk : FK} (h : a.Documented P fk) {d : ℕ} (hd : d < a.Xs.length) :
    (a.Ys.getD d ⟨[], []⟩).data.length = (queryLens a.Xs).getD d 0 := by
  obtain ⟨n, h1, h2⟩ := h.data.shape d hd
  have hw := h.arraysY _ (getD_mem_of_lt (l := a.Ys) (by rw [← h.data.len]; exact hd) ⟨[], []⟩)
  unfold NDArr.WF at hw
  unfold queryLens
  rw [hw, h1, map_getD_lt hd _ _ ⟨[], []⟩]
  rcases h2 with ⟨h2, -⟩ | h2 <;> rw [h2] <;> simp

theorem observed_values {a : LLGPArgs} {P : ℕ} {fk : FK} (h : a.Documented P fk) {d : ℕ} (hd : d < a.Xs.length) :
    (observed P a.Xs a.Ys d).map Prod.snd = (a.Ys.getD d ⟨[], []⟩).data := by
  refine list_ext_getD (d := 0) (by rw [List.length_map, observed_length, documented_lens h hd]) fun i hi => ?_
  rw [List.length_map, observed_length] at hi
  rw [map_getD_lt (by rw [observed_length]; exact hi) _ _ ([], 0), observed_getD hi]

theorem observed_col {P : ℕ} {Xs Ys : List (NDArr ℝ)} {d c : ℕ} (hd : d < Xs.length) (hc : c < P) :
    (observed P Xs Ys d).map (fun o => o.1.getD c 0) = ((padded P Xs).getD d ⟨0, 0, []⟩).col c := by
  have hr : ((padded P Xs).getD d ⟨0, 0, []⟩).rows = (queryLens Xs).getD d 0 := by
    rw [← padded_lens P, map_getD_lt (by unfold padded; rw [List.length_map]; exact hd) _ _ ⟨0, 0, []⟩]
  refine list_ext_getD (d := 0) (by rw [List.length_map, observed_length, Arr2.col, vmk_length, hr]) fun i hi => ?_
  rw [List.length_map, observed_length] at hi
  rw [map_getD_lt (by rw [observed_length]; exact hi) _ _ ([], 0), observed_getD hi, vmk_getD_lt hc, Arr2.col, vmk_getD_lt (by rw [hr]; exact hi), ← pointOf_padded hd]
  rfl

theorem LLGPArgs.Reordered.cols {a a' : LLGPArgs} {P : ℕ} (h : a.Reordered P a') : List.Forall₂ ColsPerm (padded P a.Xs) (padded P a'.Xs) := by
  have hL : ∀ Q : List (NDArr ℝ), (padded P Q).length = Q.length := fun Q => by unfold padded; rw [List.length_map]
  rw [List.forall₂_iff_get]
  refine ⟨by rw [hL, hL, h.outputs], fun d h1 h2 => ?_⟩
  rw [List.get_eq_getElem, List.get_eq_getElem, ← List.getD_eq_getElem _ ⟨0, 0, []⟩ h1, ← List.getD_eq_getElem _ ⟨0, 0, []⟩ h2]
  rw [hL] at h1 h2
  have hr : ∀ {Xs : List (NDArr ℝ)}, d < Xs.length → ((padded P Xs).getD d ⟨0, 0, []⟩).rows = (queryLens Xs).getD d 0 ∧ ((padded P Xs).getD d ⟨0, 0, []⟩).cols = P :=
    fun {Xs} hd => by
      constructor
      · rw [← padded_lens P, map_getD_lt (by rw [hL]; exact hd) _ _ ⟨0, 0, []⟩]
      · unfold padded
        rw [map_getD_lt hd _ _ ⟨[], []⟩]
  have hp := h.obs d h1
  refine ⟨?_, by rw [(hr h1).2, (hr h2).2], fun c hc => ?_⟩
  · rw [(hr h1).1, (hr h2).1, ← observed_length P a.Xs a.Ys, ← observed_length P a'.Xs a'.Ys, hp.length_eq]
  · rw [(hr h1).2] at hc
    rw [← observed_col (Ys := a.Ys) h1 hc, ← observed_col (Ys := a'.Ys) h2 hc]
    exact hp.map _

theorem reordered_rearranged {a a' : LLGPArgs} {P : ℕ} {fk fk' : FK} (hd : a.Documented P fk) (hd' : a'.Documented P fk') (hr : a.Reordered P a') {m0 m0' : LLGP}
    (h0 : llgpInit a = .ok m0) (h0' : llgpInit a' = .ok m0') {m m' : LLGP} (hok : m.OK P) (hok' : m'.OK P) (hfk : m'.fk = m.fk) (hgp : m.gp = m0.gp) (hgp' : m'.gp = m0'.gp)
    (hg : m.grids = m0.grids) (hg' : m'.grids = m0'.grids) (hm : m.prediction = m0.prediction) (hm' : m'.prediction = m0'.prediction) : Rearranged P m m' := by
  obtain ⟨x1, s1, y1⟩ := documented_gp hd h0
  obtain ⟨x2, s2, y2⟩ := documented_gp hd' h0'
  obtain ⟨i1, o1, n1, f2, f3⟩ := documented_fields hd h0
  obtain ⟨i2, o2, n2, f2', f3'⟩ := documented_fields hd' h0'
  have hlo : a'.lo = a.lo := by rw [hr.same]
  have hhi : a'.hi = a.hi := by rw [hr.same]
  have hmm : a'.m = a.m := by rw [hr.same]
  have hno : a'.normalize = a.normalize := by rw [hr.same]
  have hpr : a'.prediction = a.prediction := by rw [hr.same]
  have hke : a'.functionalKernel = a.functionalKernel := by rw [hr.same]
  have hff : fk' = fk := by
    have := hd'.kernel
    rw [hke, hd.kernel] at this
    exact (Option.some.inj this).symm
  subst hff
  rw [f2] at f2'
  rw [← Except.ok.inj f2'] at f3'
  have hL : ∀ Q : List (NDArr ℝ), (padded P Q).length = Q.length := fun Q => by unfold padded; rw [List.length_map]
  have hdata : ∀ d < a.Xs.length, (a.Ys.getD d ⟨[], []⟩).data.Perm (a'.Ys.getD d ⟨[], []⟩).data := fun d h => by
    rw [← observed_values hd h, ← observed_values hd' (by rw [hr.outputs]; exact h)]
    exact (hr.obs d h).map _
  have hlenY : a'.Ys.length = a.Ys.length := by rw [← hd.data.len, ← hd'.data.len, hr.outputs]
  have hscale : ∀ d < a.Xs.length, a'.scaleOf d = a.scaleOf d ∧ a'.centreOf d = a.centreOf d := fun d h => by
    unfold LLGPArgs.scaleOf LLGPArgs.centreOf
    rw [hno, sdOf_perm (hdata d h), meanOf_perm (hdata d h)]
    exact ⟨rfl, rfl⟩
  refine ⟨hok, hok', hfk, ?_, ?_, ?_, ?_⟩
  · obtain ⟨q1, -⟩ := init_fields h0
    obtain ⟨q2, -⟩ := init_fields h0'
    rw [hpr, q1] at q2
    rw [hm, hm']
    exact (Option.some.inj q2).symm
  · funext ad
    unfold LLGP.axesOf
    rw [hg, hg']
    rw [x1] at f3
    rw [x2, hlo, hhi, hmm] at f3'
    rw [generateGrids_perm hr.cols f3 f3']
  · have hnorm : m'.gp.normalizer = m.gp.normalizer := by
      rw [hgp, hgp', n1, n2, hno]
      congr 2
      refine list_ext_getD (d := ⟨none, none⟩) (by rw [List.length_map, List.length_map, hlenY]) fun d h => ?_
      rw [List.length_map] at h
      have hda : d < a.Xs.length := by rw [hd.data.len, ← hlenY]; exact h
      rw [map_getD_lt h _ _ ⟨[], []⟩, map_getD_lt (by rw [← hlenY]; exact h) _ _ ⟨[], []⟩, meanOf_perm (hdata d hda), sdOf_perm (hdata d hda)]
    have hin : m'.gp.inputDim = m.gp.inputDim := by rw [hgp, hgp', i1, i2]
    have hout : m'.gp.outputDim = m.gp.outputDim := by rw [hgp, hgp', o1, o2, hr.outputs]
    generalize m'.gp = g' at *
    generalize m.gp = g at *
    obtain ⟨_, _, _, _, _⟩ := g'
    obtain ⟨_, _, _, _, _⟩ := g
    simp only at hnorm hin hout
    subst hnorm hin hout
    rfl
  · have hlens : ∀ d < a.Xs.length, (queryLens a'.Xs).getD d 0 = (queryLens a.Xs).getD d 0 := fun d h => by
      rw [← observed_length P a.Xs a.Ys, ← observed_length P a'.Xs a'.Ys, (hr.obs d h).length_eq]
    have hex : ∀ d, ∃ f : ℕ → ℕ, d < a.Xs.length → (∀ i < (queryLens a.Xs).getD d 0, f i < (queryLens a'.Xs).getD d 0 ∧
        (∀ c < P, queryPoint P a'.Xs d (f i) c = queryPoint P a.Xs d i c) ∧ (a'.Ys.getD d ⟨[], []⟩).data.getD (f i) 0 = (a.Ys.getD d ⟨[], []⟩).data.getD i 0) ∧
        ∀ i < (queryLens a.Xs).getD d 0, ∀ j < (queryLens a.Xs).getD d 0, f i = f j → i = j := by
      intro d
      by_cases hd0 : d < a.Xs.length
      · obtain ⟨f, h1, h2⟩ := subperm_injection ([], 0) _ _ (hr.obs d hd0).subperm
        rw [observed_length, observed_length] at h1
        rw [observed_length] at h2
        refine ⟨f, fun _ => ⟨fun i hi => ⟨(h1 i hi).1, ?_⟩, h2⟩⟩
        have := (h1 i hi).2
        rw [observed_getD hi, observed_getD (h1 i hi).1, Prod.mk.injEq] at this
        refine ⟨fun c hc => ?_, this.2⟩
        have := congrArg (fun l => l.getD c 0) this.1
        beta_reduce at this
        rwa [vmk_getD_lt hc, vmk_getD_lt hc] at this
      · exact ⟨id, fun h' => absurd h' hd0⟩
    choose f hf using hex
    have hmX : m.gp.Xs = padded P a.Xs := by rw [hgp, x1]
    have hmX' : m'.gp.Xs = padded P a'.Xs := by rw [hgp', x2]
    have hrows := rows_within (P := P) (Xs := m.gp.Xs) (Xs' := m'.gp.Xs) (by rw [hmX, hmX', hL, hL]; exact hr.outputs) f (fun d h => by
      rw [hmX, hL] at h
      rw [hmX, hmX', padded_lens, padded_lens]
      obtain ⟨h1, h2⟩ := hf d h
      refine ⟨fun i hi => ⟨(h1 i hi).1, fun c hc => ?_⟩, h2⟩
      rw [pointOf_padded (by rw [hr.outputs]; exact h), pointOf_padded h]
      exact (h1 i hi).2.1 c hc)
    obtain ⟨ι, hι, hval⟩ := hrows
    have hn : (m.gp.Xs.map Arr2.rows).sum = (m'.gp.Xs.map Arr2.rows).sum := by
      congr 1
      rw [hmX, hmX', padded_lens, padded_lens]
      refine list_ext_getD (d := 0) (by unfold queryLens; rw [List.length_map, List.length_map, hr.outputs]) fun d h => ?_
      rw [queryLens, List.length_map] at h
      exact (hlens d h).symm
    have hbij : Function.Bijective ι := (Fintype.bijective_iff_injective_and_card ι).2 ⟨hι.inj, by rw [Fintype.card_fin, Fintype.card_fin, hn]⟩
    refine ⟨Equiv.ofBijective ι hbij, hι, fun r => ?_⟩
    show m.gp.Ys.flatten.getD r 0 = m'.gp.Ys.flatten.getD (ι r) 0
    rw [hval r]
    have ho : ownerOf (m.gp.Xs.map Arr2.rows) r < a.Xs.length := by
      have := ownerOf_lt _ _ r.2
      rwa [List.length_map, show m.gp.Xs.length = a.Xs.length by rw [hmX, hL]] at this
    have hin : innerIdx (m.gp.Xs.map Arr2.rows) r < (queryLens a.Xs).getD (ownerOf (m.gp.Xs.map Arr2.rows) r) 0 := by
      have := innerIdx_lt _ r.2
      have e : ∀ d, (m.gp.Xs.map Arr2.rows).getD d 0 = (queryLens a.Xs).getD d 0 := fun d => by rw [hmX, padded_lens]
      rwa [e] at this
    have hr0 := (offset_owner r.2).1
    conv_lhs => rw [← hr0]
    generalize ownerOf (m.gp.Xs.map Arr2.rows) r = d at *
    generalize innerIdx (m.gp.Xs.map Arr2.rows) r = i at *
    obtain ⟨h1, h2⟩ := hf d ho
    have hdY : d < a.Ys.length := by rw [← hd.data.len]; exact ho
    have hdY' : d < a'.Ys.length := by rw [hlenY]; exact hdY
    have e1 : m.gp.Ys.getD d [] = (a.Ys.getD d ⟨[], []⟩).data.map fun y => (y - a.centreOf d) / a.scaleOf d := by
      rw [hgp, y1, List.getD_eq_getElem _ _ (by rw [List.length_mapIdx]; exact hdY), List.getElem_mapIdx, List.getD_eq_getElem _ _ hdY]
    have e2 : m'.gp.Ys.getD d [] = (a'.Ys.getD d ⟨[], []⟩).data.map fun y => (y - a.centreOf d) / a.scaleOf d := by
      rw [hgp', y2, List.getD_eq_getElem _ _ (by rw [List.length_mapIdx]; exact hdY'), List.getElem_mapIdx, List.getD_eq_getElem _ _ hdY', (hscale d ho).1, (hscale d ho).2]
    have l1 := documented_lens hd ho
    have l2 := documented_lens hd' (d := d) (by rw [hr.outputs]; exact ho)
    unfold offset
    rw [← hok.data.lens, ← hok'.data.lens, flatten_getD _ _ (by rw [hgp, y1, List.length_mapIdx]; exact hdY) (by rw [e1, List.length_map, l1]; exact hin),
      flatten_getD _ _ (by rw [hgp', y2, List.length_mapIdx]; exact hdY') (by rw [e2, List.length_map, l2]; exact (h1 i hin).1), e1, e2,
      map_getD_lt (by rw [l1]; exact hin) _ _ 0, map_getD_lt (by rw [l2]; exact (h1 i hin).1) _ _ 0, (h1 i hin).2.2]

/-! ### answers -/

theorem predict_of_raw {gp : MultiGP} {raw raw' : List (Arr2 ℝ) → Except PyErr Predicted} {Xs : List (Arr2 ℝ)} {Ys : List (List ℝ)} {Qs : List (NDArr ℝ)} {D P : ℕ}
    (hQ : QueriesOK D P Qs) (hP : gp.inputDim = P) (h : raw' (padded P Qs) = raw (padded P Qs)) :
    MultiGP.predict { gp with Xs := Xs, Ys := Ys } raw' Qs = gp.predict raw Qs ∧
      ∀ qs, MultiGP.predictQuantiles { gp with Xs := Xs, Ys := Ys } raw' Qs qs = gp.predictQuantiles raw Qs qs := by
  subst hP
  have hp : padDims gp.inputDim Qs = .ok (padded gp.inputDim Qs) := padDims_dataset hQ.2
  have hw : ∀ b, MultiGP.predictWith { gp with Xs := Xs, Ys := Ys } raw' (padded gp.inputDim Qs) b = gp.predictWith raw (padded gp.inputDim Qs) b := fun b => by
    unfold MultiGP.predictWith
    rw [h]
  constructor
  · unfold MultiGP.predict
    rw [hp, ok_bind, ok_bind, hw]
  · intro qs
    unfold MultiGP.predictQuantiles
    rw [hp, ok_bind, ok_bind, hw]

end Verif
