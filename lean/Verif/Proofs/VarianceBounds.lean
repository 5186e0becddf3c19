import Verif.Props.Fit
import Verif.Props.Reached
import Verif.Proofs.SkiAccuracy

/-! Bounds on the variance that the observations explain in the approximate prediction modes, used by C98. -/

namespace Verif

open Matrix

theorem skiCov_psd {fk : FK} {P : ℕ} (h : fk.Ready P) (hg : fk.GroupsOK) (hs : fk.Sound) {axes : List ℕ → List (List ℝ)}
    (ha : ∀ ad ∈ fk.activeDims.map Prod.fst, (axes ad).length = ad.length ∧ ad.Nodup) {extra : List ℕ × List ℕ → ℝ} (he : ∀ g, 0 ≤ extra g) {n : ℕ} (o : Fin n → Fin fk.D)
    (x : Fin n → ℕ → ℝ) : (Matrix.of fun i j => fk.skiCov axes extra (o i) (o j) (x i) (x j)).PosSemidef := by
  have e : (Matrix.of fun i j => fk.skiCov axes extra (o i) (o j) (x i) (x j)) = (∑ q ∈ Finset.range fk.Q,
      ((fnMatrix fk.D fk.D (fk.B q)).submatrix o o).hadamard
        (Matrix.of fun (r s : Fin n) => skiKernel (axes (fk.kdims q)) (fk.kdims q) (fk.kernels.getD q (.identity none)).doc (x r) (x s))) +
      Matrix.of fun (r s : Fin n) => fk.extraPart axes extra (o r) (o s) (x r) (x s) := by
    ext r s
    rw [Matrix.add_apply, Matrix.sum_apply]
    show fk.skiCov axes extra (o r) (o s) (x r) (x s) = _
    rw [skiCov_kernels h hg]
    rfl
  rw [e]
  refine Matrix.PosSemidef.add ?_ ?_
  · refine Matrix.posSemidef_sum _ fun q hq => ?_
    have hq : q < fk.Q := Finset.mem_range.1 hq
    obtain ⟨ad, had, hmem⟩ := h.dims _ (getD_mem_of_lt hq (.identity none))
    have hkd : fk.kdims q = ad := by unfold FK.kdims; rw [had]; rfl
    obtain ⟨a1, a2⟩ := ha ad hmem
    exact ((B_psd h.wf hq (hs.kappa q hq)).submatrix o).hadamard (skiKernel_psd (by rw [hkd]; exact a2) (by rw [hkd]; exact a1) (hs.kernels q hq) _)
  · unfold FK.extraPart
    refine list_sum_psd fk.activeDims _ fun g _ => ?_
    exact sameOutput_psd (fun r : Fin n => ((o r : Fin fk.D) : ℕ)) (gridSize (axes g.1)) (fun r p => gridWeight (axes g.1) (coords g.1 (x r)) p) (he g)

/-- the SKI covariance of the observations and a further point is positive semi-definite -/
theorem ski_joint {m : LLGP} {P : ℕ} (h : m.OK P) (hs : m.fk.Sound) (hn : ∀ ad ∈ m.fk.activeDims.map Prod.fst, ad.Nodup) {d : ℕ} (hd : d < m.fk.D) (x : ℕ → ℝ)
    (v : Fin (m.gp.Xs.map Arr2.rows).sum → ℝ) :
    0 ≤ (∑ i : Fin (m.gp.Xs.map Arr2.rows).sum, ∑ j : Fin (m.gp.Xs.map Arr2.rows).sum, v i * m.fk.skiCov m.axesOf m.fk.extraOf (ownerOf (m.gp.Xs.map Arr2.rows) i) (ownerOf (m.gp.Xs.map Arr2.rows) j) (rowPoint m.gp.Xs i) (rowPoint m.gp.Xs j) * v j) -
      2 * (∑ i, v i * m.fk.skiCross m.axesOf m.fk.extraOf m.gp.Xs d x i) + m.fk.skiCov m.axesOf m.fk.extraOf d d x x := by
  have hlt : ∀ r : Fin (m.gp.Xs.map Arr2.rows).sum, ownerOf (m.gp.Xs.map Arr2.rows) r < m.fk.D := owner_lt h.data.inputs.len
  have ha : ∀ ad ∈ m.fk.activeDims.map Prod.fst, (m.axesOf ad).length = ad.length ∧ ad.Nodup := fun ad had => ⟨by
    obtain ⟨g, hg, rfl⟩ := List.mem_map.1 had
    obtain ⟨gg, d1, d2, d3, d4⟩ := h.mem_grids hg
    rw [d4]
    exact d3.axes, hn ad had⟩
  have hJ := skiCov_psd h.ready h.groups hs ha (extraOf_nonneg m.fk) (n := (m.gp.Xs.map Arr2.rows).sum + 1)
    (Fin.snoc (fun i => ⟨ownerOf (m.gp.Xs.map Arr2.rows) i, hlt i⟩) ⟨d, hd⟩) (Fin.snoc (fun i => rowPoint m.gp.Xs i) x)
  have hsym : ∀ i : Fin (m.gp.Xs.map Arr2.rows).sum, m.fk.skiCov m.axesOf m.fk.extraOf (ownerOf (m.gp.Xs.map Arr2.rows) i) d (rowPoint m.gp.Xs i) x =
      m.fk.skiCross m.axesOf m.fk.extraOf m.gp.Xs d x i := fun i => by
    have := hJ.1.apply (Fin.last _) (Fin.castSucc i)
    simp only [Matrix.of_apply, Fin.snoc_castSucc, Fin.snoc_last, star_trivial] at this
    exact this
  have := hJ.dotProduct_mulVec_nonneg (Fin.snoc (fun i => - v i) 1)
  simp only [dotProduct, Matrix.mulVec, Fin.sum_univ_castSucc, Matrix.of_apply, Fin.snoc_castSucc, Fin.snoc_last, Pi.star_apply, star_trivial] at this
  refine this.trans (le_of_eq ?_)
  have e2 : ∀ i : Fin (m.gp.Xs.map Arr2.rows).sum, m.fk.skiCov m.axesOf m.fk.extraOf d (ownerOf (m.gp.Xs.map Arr2.rows) i) x (rowPoint m.gp.Xs i) =
      m.fk.skiCross m.axesOf m.fk.extraOf m.gp.Xs d x i := fun i => rfl
  simp only [hsym, e2, mul_one, one_mul, mul_add, Finset.sum_add_distrib, Finset.mul_sum, mul_neg, neg_mul, neg_neg, Finset.sum_neg_distrib]
  have e3 : ∑ i, 2 * (v i * m.fk.skiCross m.axesOf m.fk.extraOf m.gp.Xs d x i) =
      ∑ i, v i * m.fk.skiCross m.axesOf m.fk.extraOf m.gp.Xs d x i + ∑ i, m.fk.skiCross m.axesOf m.fk.extraOf m.gp.Xs d x i * v i := by
    rw [← Finset.sum_add_distrib]
    exact Finset.sum_congr rfl fun i _ => by ring
  rw [e3]
  simp only [mul_assoc]
  ring

/-- the observations explain no more than the SKI variance of the point, under the SKI covariance -/
theorem skiExplained_le {m : LLGP} {P : ℕ} (h : m.OK P) (hs : m.fk.Sound) (hn : ∀ ad ∈ m.fk.activeDims.map Prod.fst, ad.Nodup) {d : ℕ} (hd : d < m.fk.D) (x : ℕ → ℝ) :
    m.fk.skiCross m.axesOf m.fk.extraOf m.gp.Xs d x ⬝ᵥ (m.fk.skiMat m.axesOf m.fk.extraOf m.gp.Xs)⁻¹ *ᵥ m.fk.skiCross m.axesOf m.fk.extraOf m.gp.Xs d x ≤
      m.fk.skiCov m.axesOf m.fk.extraOf d d x x := by
  have hpd := h.ski_posDef hs hn
  have hlt : ∀ r : Fin (m.gp.Xs.map Arr2.rows).sum, ownerOf (m.gp.Xs.map Arr2.rows) r < m.fk.D := owner_lt h.data.inputs.len
  exact schur_ge (K := m.fk.skiMat m.axesOf m.fk.extraOf m.gp.Xs)
    (G := fun i j => m.fk.skiCov m.axesOf m.fk.extraOf (ownerOf (m.gp.Xs.map Arr2.rows) i) (ownerOf (m.gp.Xs.map Arr2.rows) j) (rowPoint m.gp.Xs i) (rowPoint m.gp.Xs j))
    (N := fun i => m.fk.noise.getD (ownerOf (m.gp.Xs.map Arr2.rows) i) 0) ((Matrix.isUnit_iff_isUnit_det _).1 hpd.isUnit) (fun i j => by
      unfold FK.skiMat fnMatrix FK.skiFull
      simp only
      congr 1
      by_cases e : i = j
      · rw [if_pos e, if_pos (by rw [e])]
      · rw [if_neg e, if_neg fun h => e (Fin.ext h)]) (fun i => (hs.noise _ (hlt i)).le) (ski_joint h hs hn hd x)

/-- the interpolation weights add up to one -/
theorem gridWeight_total : ∀ (axes : List (List ℝ)), (∀ a ∈ axes, 0 < a.length) → ∀ x : ℕ → ℝ, ∑ p ∈ Finset.range (gridSize axes), gridWeight axes x p = 1
  | [], _, x => by simp [gridSize, gridWeight]
  | a :: axes, h, x => by
    rw [gridSize_cons, sum_range_mul]
    have e : ∀ i ∈ Finset.range a.length, ∑ p ∈ Finset.range (gridSize axes), gridWeight (a :: axes) x (i * gridSize axes + p) = keysWeight a (x 0) i := by
      intro i _
      calc _ = ∑ p ∈ Finset.range (gridSize axes), keysWeight a (x 0) i * gridWeight axes (fun k => x (k + 1)) p := by
            refine Finset.sum_congr rfl fun p hp => ?_
            have hp : p < gridSize axes := Finset.mem_range.1 hp
            rw [gridWeight, show (axes.map List.length).prod = gridSize axes from rfl, idx_div hp, idx_mod hp]
        _ = _ := by rw [← Finset.mul_sum, gridWeight_total axes (fun b hb => h b (by simp [hb])), mul_one]
    rw [Finset.sum_congr rfl e]
    simp only [keysWeight_eq]
    exact interpRow_sum (h a (by simp)) _

/-- an average with weights that add up to one but may be negative, of numbers in `[0, v]` -/
theorem weighted_bounds {n : ℕ} {w C : ℕ → ℝ} {S v : ℝ} (h1 : ∑ p ∈ Finset.range n, w p = 1) (hS : ∑ p ∈ Finset.range n, |w p| ≤ S) (hC : ∀ p < n, 0 ≤ C p ∧ C p ≤ v) (hv : 0 ≤ v) :
    -((S - 1) / 2 * v) ≤ ∑ p ∈ Finset.range n, w p * C p ∧ ∑ p ∈ Finset.range n, w p * C p ≤ v + (S - 1) / 2 * v := by
  have b1 : ∀ p ∈ Finset.range n, (w p - |w p|) / 2 * v ≤ w p * C p := fun p hp => by
    obtain ⟨c1, c2⟩ := hC p (Finset.mem_range.1 hp)
    rcases abs_cases (w p) with ⟨e, h⟩ | ⟨e, h⟩ <;> rw [e]
    · nlinarith [mul_nonneg h c1]
    · nlinarith [mul_le_mul_of_nonpos_left c2 h.le]
  have b2 : ∀ p ∈ Finset.range n, w p * C p ≤ (w p + |w p|) / 2 * v := fun p hp => by
    obtain ⟨c1, c2⟩ := hC p (Finset.mem_range.1 hp)
    rcases abs_cases (w p) with ⟨e, h⟩ | ⟨e, h⟩ <;> rw [e]
    · nlinarith [mul_le_mul_of_nonneg_left c2 h]
    · nlinarith [mul_nonneg (neg_nonneg.2 h.le) c1]
  have s1 := Finset.sum_le_sum b1
  have s2 := Finset.sum_le_sum b2
  rw [← Finset.sum_mul, ← Finset.sum_div, Finset.sum_sub_distrib, h1] at s1
  rw [← Finset.sum_mul, ← Finset.sum_div, Finset.sum_add_distrib, h1] at s2
  constructor
  · nlinarith
  · nlinarith

end Verif
