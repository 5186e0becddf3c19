import Verif.Proofs.ApproxGrad
import Verif.Spec.Predict

/-! The interpolated covariance of the observations is positive definite. -/

namespace Verif

open Matrix

/-- a point with the coordinates of a grid point in the dimensions `ad` -/
noncomputable def liftPoint (ad : List ℕ) (u : List ℝ) : ℕ → ℝ := fun c => u.getD (ad.idxOf c) 0

theorem distOn_lift {ad : List ℕ} (hn : ad.Nodup) (u v : List ℝ) : distOn ad (liftPoint ad u) (liftPoint ad v) = euclid ad.length u v := by
  unfold distOn euclid liftPoint
  congr 1
  rw [map_eq_vmk _ 0]
  unfold vmk
  rw [list_sum_range]
  refine Finset.sum_congr rfl fun p hp => ?_
  have hp : p < ad.length := Finset.mem_range.1 hp
  rw [List.getD_eq_getElem _ _ hp, hn.idxOf_getElem p hp]

theorem skiKernel_psd {ι : Type} [Fintype ι] {axes : List (List ℝ)} {ad : List ℕ} (hn : ad.Nodup) (hl : axes.length = ad.length) {f : ℝ → ℝ}
    (hf : ∀ (m : ℕ) (x : Fin m → ℕ → ℝ), (Matrix.of fun i j => f (distOn ad (x i) (x j))).PosSemidef) (x : ι → ℕ → ℝ) :
    (Matrix.of fun r s => skiKernel axes ad f (x r) (x s)).PosSemidef := by
  have e : (Matrix.of fun r s => skiKernel axes ad f (x r) (x s)) =
      (Matrix.of fun (r : ι) (p : Fin (gridSize axes)) => gridWeight axes (coords ad (x r)) p) *
        (Matrix.of fun (p q : Fin (gridSize axes)) => f (distOn ad (liftPoint ad (gridPoint axes p)) (liftPoint ad (gridPoint axes q)))) *
        (Matrix.of fun (r : ι) (p : Fin (gridSize axes)) => gridWeight axes (coords ad (x r)) p)ᴴ := by
    ext r s
    rw [Matrix.mul_apply, Matrix.of_apply]
    unfold skiKernel
    rw [Finset.sum_comm, Finset.sum_range]
    refine Finset.sum_congr rfl fun q _ => ?_
    rw [Matrix.mul_apply, Finset.sum_mul, Finset.sum_range]
    refine Finset.sum_congr rfl fun p _ => ?_
    simp only [Matrix.of_apply, Matrix.conjTranspose_apply, star_trivial]
    rw [distOn_lift hn]
    unfold gridDistance
    rw [hl]
  rw [e]
  exact (hf _ _).mul_mul_conjTranspose_same _

theorem sameOutput_psd {ι : Type} [Fintype ι] (o : ι → ℕ) (n : ℕ) (w : ι → ℕ → ℝ) {c : ℝ} (hc : 0 ≤ c) :
    (Matrix.of fun r s => ∑ p ∈ Finset.range n, ∑ q ∈ Finset.range n, w r p * (if o r = o s ∧ p = q then c else 0) * w s q : Matrix ι ι ℝ).PosSemidef := by
  classical
  set N := Finset.univ.sup o + 1 with hN
  have hlt : ∀ r, o r < N := fun r => Nat.lt_succ_of_le (Finset.le_sup (Finset.mem_univ r))
  have e : (Matrix.of fun r s => ∑ p ∈ Finset.range n, ∑ q ∈ Finset.range n, w r p * (if o r = o s ∧ p = q then c else 0) * w s q : Matrix ι ι ℝ) =
      (Matrix.of fun (r : ι) (ap : Fin N × Fin n) => if o r = ap.1 then w r ap.2 else 0) * (Matrix.diagonal fun _ => c) *
        (Matrix.of fun (r : ι) (ap : Fin N × Fin n) => if o r = ap.1 then w r ap.2 else 0)ᴴ := by
    ext r s
    rw [Matrix.mul_apply, Fintype.sum_prod_type, Finset.sum_eq_single (⟨o r, hlt r⟩ : Fin N)]
    · rw [Matrix.of_apply, Finset.sum_range]
      refine Finset.sum_congr rfl fun p _ => ?_
      rw [Matrix.mul_diagonal, Finset.sum_eq_single (p : ℕ)]
      · simp only [Matrix.of_apply, Matrix.conjTranspose_apply, star_trivial, if_true]
        by_cases h : o r = o s
        · rw [if_pos ⟨h, trivial⟩, if_pos h.symm]
        · rw [if_neg (fun h' => h h'.1), if_neg (fun h' => h h'.symm)]
          ring
      · intro q _ hq
        rw [if_neg (fun h => hq h.2.symm)]
        ring
      · intro hp
        exact absurd (Finset.mem_range.2 p.2) hp
    · intro a _ ha
      refine Finset.sum_eq_zero fun p _ => ?_
      rw [Matrix.mul_diagonal]
      simp only [Matrix.of_apply]
      rw [if_neg (fun h => ha (Fin.ext h.symm))]
      ring
    · intro h
      exact absurd (Finset.mem_univ _) h
  rw [e]
  exact (Matrix.PosSemidef.diagonal (fun _ => hc)).mul_mul_conjTranspose_same _

theorem list_sum_psd {ι : Type} [Fintype ι] {α : Type} (l : List α) (M : α → ι → ι → ℝ) (h : ∀ a ∈ l, (Matrix.of (M a)).PosSemidef) :
    (Matrix.of fun r s => (l.map fun a => M a r s).sum).PosSemidef := by
  induction l with
  | nil => exact Matrix.PosSemidef.zero
  | cons a l ih =>
    have e : (Matrix.of fun r s => ((a :: l).map fun a => M a r s).sum) = Matrix.of (M a) + Matrix.of fun r s => (l.map fun a => M a r s).sum := by
      ext r s
      simp
    rw [e]
    exact (h a (by simp)).add (ih fun b hb => h b (by simp [hb]))

theorem skiMat_split {fk : FK} {P : ℕ} (h : fk.Ready P) (hg : fk.GroupsOK) (hs : fk.Sound) {Xs : List (Arr2 ℝ)} (hX : Xs.length = fk.D)
    {axes : List ℕ → List (List ℝ)} (ha : ∀ ad ∈ fk.activeDims.map Prod.fst, (axes ad).length = ad.length ∧ ad.Nodup)
    {extra : List ℕ × List ℕ → ℝ} (he : ∀ g, 0 ≤ extra g) :
    ∃ S : Matrix (Fin (Xs.map Arr2.rows).sum) (Fin (Xs.map Arr2.rows).sum) ℝ, S.PosSemidef ∧
      fk.skiMat axes extra Xs = Matrix.diagonal (fun r : Fin (Xs.map Arr2.rows).sum => fk.noise.getD (ownerOf (Xs.map Arr2.rows) r) 0) + S := by
  set lens := Xs.map Arr2.rows with hlens
  have hl : lens.length = fk.D := by rw [hlens, List.length_map, hX]
  let o : Fin lens.sum → Fin fk.D := fun r => ⟨ownerOf lens r, hl ▸ ownerOf_lt lens r r.2⟩
  have e : fk.skiMat axes extra Xs = Matrix.diagonal (fun r => fk.noise.getD (o r) 0) + (∑ q ∈ Finset.range fk.Q,
      ((fnMatrix fk.D fk.D (fk.B q)).submatrix o o).hadamard
        (Matrix.of fun (r s : Fin lens.sum) => skiKernel (axes (fk.kdims q)) (fk.kdims q) (fk.kernels.getD q (.identity none)).doc (rowPoint Xs r) (rowPoint Xs s)) +
      Matrix.of fun (r s : Fin lens.sum) => fk.extraPart axes extra (ownerOf lens r) (ownerOf lens s) (rowPoint Xs r) (rowPoint Xs s)) := by
    ext r s
    rw [Matrix.add_apply, Matrix.add_apply, Matrix.sum_apply, add_comm]
    unfold FK.skiMat fnMatrix FK.skiFull
    simp only
    rw [skiCov_kernels h hg]
    congr 1
    by_cases hrs : r = s
    · subst hrs
      rw [if_pos rfl, Matrix.diagonal_apply_eq]
    · rw [if_neg (fun h => hrs (Fin.ext h)), Matrix.diagonal_apply_ne _ hrs]
  refine ⟨_, ?_, e⟩
  refine Matrix.PosSemidef.add ?_ ?_
  · refine Matrix.posSemidef_sum _ fun q hq => ?_
    have hq : q < fk.Q := Finset.mem_range.1 hq
    obtain ⟨ad, had, hmem⟩ := h.dims _ (getD_mem_of_lt hq (.identity none))
    have hkd : fk.kdims q = ad := by unfold FK.kdims; rw [had]; rfl
    obtain ⟨a1, a2⟩ := ha ad hmem
    refine ((B_psd h.wf hq (hs.kappa q hq)).submatrix o).hadamard (skiKernel_psd (by rw [hkd]; exact a2) (by rw [hkd]; exact a1) (hs.kernels q hq) _)
  · unfold FK.extraPart
    refine list_sum_psd fk.activeDims _ fun g _ => ?_
    exact sameOutput_psd (fun r : Fin lens.sum => ownerOf lens r) (gridSize (axes g.1)) (fun r p => gridWeight (axes g.1) (coords g.1 (rowPoint Xs r)) p) (he g)

theorem skiMat_posDef {fk : FK} {P : ℕ} (h : fk.Ready P) (hg : fk.GroupsOK) (hs : fk.Sound) {Xs : List (Arr2 ℝ)} (hX : Xs.length = fk.D)
    {axes : List ℕ → List (List ℝ)} (ha : ∀ ad ∈ fk.activeDims.map Prod.fst, (axes ad).length = ad.length ∧ ad.Nodup)
    {extra : List ℕ × List ℕ → ℝ} (he : ∀ g, 0 ≤ extra g) : (fk.skiMat axes extra Xs).PosDef := by
  obtain ⟨S, hS, e⟩ := skiMat_split h hg hs hX ha he
  rw [e]
  refine Matrix.PosDef.add_posSemidef ?_ hS
  rw [Matrix.posDef_diagonal_iff]
  refine fun r => hs.noise _ ?_
  rw [← hX, ← List.length_map Arr2.rows]
  exact ownerOf_lt _ r r.2

theorem extraOf_nonneg (fk : FK) (g : List ℕ × List ℕ) : 0 ≤ fk.extraOf g := by
  unfold FK.extraOf
  split_ifs <;> norm_num

/-- for a model -/
theorem LLGP.OK.ski_posDef {m : LLGP} {P : ℕ} (h : m.OK P) (hs : m.fk.Sound) (hn : ∀ ad ∈ m.fk.activeDims.map Prod.fst, ad.Nodup) :
    (m.fk.skiMat m.axesOf m.fk.extraOf m.gp.Xs).PosDef := by
  refine skiMat_posDef h.ready h.groups hs h.data.inputs.len (fun ad had => ⟨?_, hn ad had⟩) (extraOf_nonneg m.fk)
  obtain ⟨g, hg, rfl⟩ := List.mem_map.1 had
  obtain ⟨gg, d1, d2, d3, d4⟩ := h.mem_grids hg
  rw [d4, d3.axes]

end Verif
