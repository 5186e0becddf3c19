import Verif.Spec.Update
import Verif.Props.Influence
import Mathlib.LinearAlgebra.Matrix.SchurComplement

/-! What one more row and column do to the solutions of a linear system. -/

namespace Verif

open Matrix

section
variable {n n' : ℕ} {ι : Fin n → Fin n'} {s : Fin n'}

/-- the rows of a system with one more row: the old ones and `s` -/
structure OneMore (ι : Fin n → Fin n') (s : Fin n') : Prop where
  inj : Function.Injective ι
  fresh : ∀ r, ι r ≠ s
  all : ∀ j, j = s ∨ ∃ r, ι r = j

theorem OneMore.sum (h : OneMore ι s) (g : Fin n' → ℝ) : ∑ j, g j = ∑ i, g (ι i) + g s := by
  have hu : (Finset.univ : Finset (Fin n')) = insert s (Finset.univ.image ι) := by
    ext j
    simp only [Finset.mem_univ, Finset.mem_insert, Finset.mem_image, true_and, true_iff]
    exact h.all j
  rw [hu, Finset.sum_insert (by simpa using h.fresh), Finset.sum_image fun i _ j _ e => h.inj e, add_comm]

variable {K : Matrix (Fin n) (Fin n) ℝ} {K' : Matrix (Fin n') (Fin n') ℝ}

theorem OneMore.schur_pos (h : OneMore ι s) (hK : K.PosDef) (hK' : K'.PosDef) (hs : ∀ i j, K' (ι i) (ι j) = K i j) {c : Fin n → ℝ} (hc : ∀ i, K' (ι i) s = c i) (hc' : ∀ i, K' s (ι i) = c i) :
    0 < K' s s - c ⬝ᵥ K⁻¹ *ᵥ c := by
  have hu := (Matrix.isUnit_iff_isUnit_det _).1 hK.isUnit
  set w := K⁻¹ *ᵥ c with hw
  have hKw : K *ᵥ w = c := by rw [hw, Matrix.mulVec_mulVec, Matrix.mul_nonsing_inv _ hu, Matrix.one_mulVec]
  classical
  set z : Fin n' → ℝ := fun j => if j = s then 1 else -∑ i, if ι i = j then w i else 0 with hz
  have z1 : z s = 1 := if_pos rfl
  have z2 : ∀ i, z (ι i) = -w i := fun i => by
    rw [hz]
    simp only
    rw [if_neg (h.fresh i), neg_inj]
    rw [Finset.sum_eq_single i (fun j _ hj => if_neg fun e => hj (h.inj e)) fun hh => absurd (Finset.mem_univ i) hh, if_pos rfl]
  have hz0 : z ≠ 0 := fun e => by
    have := congrFun e s
    rw [z1] at this
    exact one_ne_zero this
  have key := hK'.dotProduct_mulVec_pos hz0
  rw [star_trivial] at key
  have e : z ⬝ᵥ K' *ᵥ z = K' s s - c ⬝ᵥ w := by
    have r1 : ∀ i, (K' *ᵥ z) (ι i) = 0 := fun i => by
      show ∑ j, K' (ι i) j * z j = 0
      rw [h.sum, z1, hc i]
      have : ∑ j, K' (ι i) (ι j) * z (ι j) = -∑ j, K i j * w j := by
        rw [← Finset.sum_neg_distrib]
        exact Finset.sum_congr rfl fun j _ => by rw [hs, z2]; ring
      rw [this, show ∑ j, K i j * w j = c i from congrFun hKw i]
      ring
    have r2 : (K' *ᵥ z) s = K' s s - c ⬝ᵥ w := by
      show ∑ j, K' s j * z j = _
      rw [h.sum, z1]
      have : ∑ j, K' s (ι j) * z (ι j) = -∑ j, c j * w j := by
        rw [← Finset.sum_neg_distrib]
        exact Finset.sum_congr rfl fun j _ => by rw [hc', z2]; ring
      rw [this]
      show -(c ⬝ᵥ w) + _ = _
      ring
    show ∑ j, z j * (K' *ᵥ z) j = _
    rw [h.sum, z1, r2]
    simp [r1]
  rw [e] at key
  exact key

/-- solutions of the larger system from those of the smaller one -/
theorem OneMore.solve (h : OneMore ι s) (hK : K.PosDef) (hK' : K'.PosDef) (hs : ∀ i j, K' (ι i) (ι j) = K i j) {c : Fin n → ℝ} (hc : ∀ i, K' (ι i) s = c i) (hc' : ∀ i, K' s (ι i) = c i)
    {u v : Fin n → ℝ} {u' v' : Fin n' → ℝ} (hu : ∀ i, u' (ι i) = u i) (hv : ∀ i, v' (ι i) = v i) :
    u' ⬝ᵥ K'⁻¹ *ᵥ v' = u ⬝ᵥ K⁻¹ *ᵥ v + (u' s - u ⬝ᵥ K⁻¹ *ᵥ c) / (K' s s - c ⬝ᵥ K⁻¹ *ᵥ c) * (v' s - c ⬝ᵥ K⁻¹ *ᵥ v) := by
  have hS := h.schur_pos hK hK' hs hc hc'
  have hdu := (Matrix.isUnit_iff_isUnit_det _).1 hK.isUnit
  have hdu' := (Matrix.isUnit_iff_isUnit_det _).1 hK'.isUnit
  set w := K⁻¹ *ᵥ c with hw
  set q := K⁻¹ *ᵥ v with hq
  have hKw : K *ᵥ w = c := by rw [hw, Matrix.mulVec_mulVec, Matrix.mul_nonsing_inv _ hdu, Matrix.one_mulVec]
  have hKq : K *ᵥ q = v := by rw [hq, Matrix.mulVec_mulVec, Matrix.mul_nonsing_inv _ hdu, Matrix.one_mulVec]
  set S := K' s s - c ⬝ᵥ w with hSd
  set t := (v' s - c ⬝ᵥ q) / S with ht
  classical
  set z : Fin n' → ℝ := fun j => if j = s then t else ∑ i, if ι i = j then q i - t * w i else 0 with hz
  have z1 : z s = t := if_pos rfl
  have z2 : ∀ i, z (ι i) = q i - t * w i := fun i => by
    rw [hz]
    simp only
    rw [if_neg (h.fresh i), Finset.sum_eq_single i (fun j _ hj => if_neg fun e => hj (h.inj e)) fun hh => absurd (Finset.mem_univ i) hh, if_pos rfl]
  have hKz : K' *ᵥ z = v' := by
    funext j
    show ∑ l, K' j l * z l = v' j
    rw [h.sum, z1]
    rcases h.all j with rfl | ⟨i, rfl⟩
    · have : ∑ l, K' j (ι l) * z (ι l) = c ⬝ᵥ q - t * (c ⬝ᵥ w) := by
        show _ = ∑ l, c l * q l - t * ∑ l, c l * w l
        rw [Finset.mul_sum, ← Finset.sum_sub_distrib]
        exact Finset.sum_congr rfl fun l _ => by rw [hc', z2]; ring
      rw [this]
      have hts : t * S = v' j - c ⬝ᵥ q := div_mul_cancel₀ _ hS.ne'
      rw [hSd] at hts
      linarith
    · have : ∑ l, K' (ι i) (ι l) * z (ι l) = v i - t * c i := by
        rw [← congrFun hKq i, ← congrFun hKw i]
        show _ = ∑ l, K i l * q l - t * ∑ l, K i l * w l
        rw [Finset.mul_sum, ← Finset.sum_sub_distrib]
        exact Finset.sum_congr rfl fun l _ => by rw [hs, z2]; ring
      rw [this, hc, hv]
      ring
  have hzi : K'⁻¹ *ᵥ v' = z := by rw [← hKz, Matrix.mulVec_mulVec, Matrix.nonsing_inv_mul _ hdu', Matrix.one_mulVec]
  rw [hzi]
  show ∑ j, u' j * z j = _
  rw [h.sum, z1]
  have : ∑ l, u' (ι l) * z (ι l) = u ⬝ᵥ q - t * (u ⬝ᵥ w) := by
    show _ = ∑ l, u l * q l - t * ∑ l, u l * w l
    rw [Finset.mul_sum, ← Finset.sum_sub_distrib]
    exact Finset.sum_congr rfl fun l _ => by rw [hu, z2]; ring
  rw [this, ht]
  ring

theorem OneMore.det (h : OneMore ι s) (hK : K.PosDef) (hs : ∀ i j, K' (ι i) (ι j) = K i j) {c : Fin n → ℝ} (hc : ∀ i, K' (ι i) s = c i) (hc' : ∀ i, K' s (ι i) = c i) :
    K'.det = K.det * (K' s s - c ⬝ᵥ K⁻¹ *ᵥ c) := by
  have hdu := (Matrix.isUnit_iff_isUnit_det _).1 hK.isUnit
  have hb : Function.Bijective (Sum.elim ι fun _ : Unit => s) := by
    constructor
    · rintro (i | i) (j | j) e
      · exact congrArg _ (h.inj e)
      · exact absurd e (h.fresh i)
      · exact absurd e.symm (h.fresh j)
      · rfl
    · intro j
      rcases h.all j with rfl | ⟨i, rfl⟩
      · exact ⟨.inr (), rfl⟩
      · exact ⟨.inl i, rfl⟩
  have hb' : K'.submatrix (Equiv.ofBijective _ hb) (Equiv.ofBijective _ hb) = fromBlocks K (Matrix.of fun i _ => c i) (Matrix.of fun _ i => c i) (Matrix.of fun _ _ => K' s s) := by
    ext (i | i) (j | j)
    · exact hs i j
    · exact hc i
    · exact hc' j
    · rfl
  haveI := Matrix.invertibleOfIsUnitDet K hdu
  rw [← Matrix.det_submatrix_equiv_self (Equiv.ofBijective _ hb) K', hb', Matrix.det_fromBlocks₁₁, Matrix.invOf_eq_nonsing_inv, Matrix.mul_assoc]
  congr 1
  rw [Matrix.det_unique]
  rfl

end

/-- the rows of a model with one more observation -/
structure NewRow (P : ℕ) (m m' : LLGP) (d₀ : ℕ) (x₀ : ℕ → ℝ) (y₀ : ℝ) (ι : Fin (m.gp.Xs.map Arr2.rows).sum → Fin (m'.gp.Xs.map Arr2.rows).sum)
    (s : Fin (m'.gp.Xs.map Arr2.rows).sum) : Prop where
  rows : OneMore ι s
  within : RowsWithin P m.gp.Xs m'.gp.Xs ι
  owner : ownerOf (m'.gp.Xs.map Arr2.rows) s = d₀
  point : ∀ c < P, rowPoint m'.gp.Xs s c = x₀ c
  old : ∀ r, toVec (m'.gp.Xs.map Arr2.rows).sum m'.gp.Ys.flatten (ι r) = toVec (m.gp.Xs.map Arr2.rows).sum m.gp.Ys.flatten r
  new : toVec (m'.gp.Xs.map Arr2.rows).sum m'.gp.Ys.flatten s = y₀

theorem adds_coords {P d₀ : ℕ} {x₀ : ℕ → ℝ} {y₀ : ℝ} {a a' : LLGPArgs} (h : a.Adds P d₀ x₀ y₀ a') {c : ℕ} (hc : c < P) : a'.coords P c = a.coords P c ∪ {x₀ c} := by
  ext z
  constructor
  · rintro ⟨d, hd, i, hi, rfl⟩
    rw [h.outputs] at hd
    rw [h.lens d hd] at hi
    by_cases hlt : i < (queryLens a.Xs).getD d 0
    · exact .inl ⟨d, hd, i, hlt, ((h.old d hd i hlt).2 c hc).symm⟩
    · split_ifs at hi with e
      · subst e
        have : i = (queryLens a.Xs).getD d 0 := by omega
        subst this
        exact .inr (h.new.2 c hc)
      · omega
  · rintro (⟨d, hd, i, hi, rfl⟩ | rfl)
    · exact ⟨d, by rw [h.outputs]; exact hd, i, by rw [h.lens d hd]; omega, (h.old d hd i hi).2 c hc⟩
    · exact ⟨d₀, by rw [h.outputs]; exact h.output, _, by rw [h.lens d₀ h.output, if_pos rfl]; omega, h.new.2 c hc⟩

theorem adds_range {P d₀ : ℕ} {x₀ : ℕ → ℝ} {y₀ : ℝ} {a a' : LLGPArgs} (h : a.Adds P d₀ x₀ y₀ a') {c : ℕ} (hc : c < P) {L H : ℝ} {n : ℕ} (hr : a.GridRange P c L H n) :
    a'.GridRange P c L H n := by
  obtain ⟨⟨z1, z1m, z1l⟩, ⟨z2, z2m, z2l⟩⟩ := h.inside c hc
  have hco := adds_coords h hc
  refine ⟨⟨?_, ?_⟩, ⟨?_, ?_⟩, fun v hv => hr.given v (by rw [← h.options.2.2.2.1]; exact hv), fun hv => absurd (by rw [← h.options.2.2.2.1]; exact hv) (h.size c hc)⟩
  · rw [hco, h.options.2.1]
    rcases hr.low.1 with q | q
    · exact .inl (.inl q)
    · exact .inr q
  · rw [hco, h.options.2.1]
    rintro z ((q | q) | q)
    · exact hr.low.2 (.inl q)
    · rw [Set.mem_singleton_iff.1 q]
      exact (hr.low.2 z1m).trans z1l
    · exact hr.low.2 (.inr q)
  · rw [hco, h.options.2.2.1]
    rcases hr.high.1 with q | q
    · exact .inl (.inl q)
    · exact .inr q
  · rw [hco, h.options.2.2.1]
    rintro z ((q | q) | q)
    · exact hr.high.2 (.inl q)
    · rw [Set.mem_singleton_iff.1 q]
      exact z2l.trans (hr.high.2 z2m)
    · exact hr.high.2 (.inr q)

theorem adds_rows {P d₀ : ℕ} {x₀ : ℕ → ℝ} {y₀ : ℝ} {a a' : LLGPArgs} {m m' : LLGP} (h : a.Adds P d₀ x₀ y₀ a') (ha : m.MadeFrom P a) (ha' : m'.MadeFrom P a') (ok : m.OK P) (ok' : m'.OK P) :
    ∃ ι s, NewRow P m m' d₀ x₀ y₀ ι s := by
  obtain ⟨r1, r2, r3⟩ := model_rows ok ha
  obtain ⟨s1, s2, s3⟩ := model_rows ok' ha'
  have hXl : m.gp.Xs.length = a.Xs.length := by have := congrArg List.length r2; simpa [queryLens] using this
  have hXl' : m'.gp.Xs.length = a.Xs.length := by have := congrArg List.length s2; rw [← h.outputs]; simpa [queryLens] using this
  have sc : ∀ d, a.scaleOf d = 1 ∧ a.centreOf d = 0 ∧ a'.scaleOf d = 1 ∧ a'.centreOf d = 0 := fun d => by
    unfold LLGPArgs.scaleOf LLGPArgs.centreOf
    rw [h.options.1, h.plain]
    exact ⟨rfl, rfl, rfl, rfl⟩
  have pt : ∀ d < a.Xs.length, ∀ i < (queryLens a.Xs).getD d 0, ∀ c < P, pointOf m'.gp.Xs d i c = pointOf m.gp.Xs d i c := fun d hd i hi c hc => by
    have hi' : i < (queryLens a'.Xs).getD d 0 := by rw [h.lens d hd]; omega
    have q := (rowPoint_offset m.gp.Xs (by rw [hXl]; exact hd) (by rw [r2]; exact hi)).2.2
    have q' := (rowPoint_offset m'.gp.Xs (by rw [hXl']; exact hd) (by rw [s2]; exact hi')).2.2
    obtain ⟨_, _, _, p⟩ := r3 d hd i hi
    obtain ⟨_, _, _, p'⟩ := s3 d (by rw [h.outputs]; exact hd) i hi'
    rw [← q, ← q', p, p']
    exact (h.old d hd i hi).2 c hc
  obtain ⟨ι, hι, hv⟩ := rows_within (P := P) (Xs := m.gp.Xs) (Xs' := m'.gp.Xs) (hXl'.trans hXl.symm) (fun _ i => i) fun d hd => ⟨fun i hi => by
    rw [hXl] at hd
    rw [r2] at hi
    exact ⟨by rw [s2, h.lens d hd]; omega, pt d hd i hi⟩, fun i _ j _ e => e⟩
  have hn0 : (queryLens a.Xs).getD d₀ 0 < (queryLens a'.Xs).getD d₀ 0 := by rw [h.lens d₀ h.output, if_pos rfl]; omega
  obtain ⟨hlt, o1, o2, o3⟩ := s3 d₀ (by rw [h.outputs]; exact h.output) _ hn0
  have own : ∀ r : Fin (m.gp.Xs.map Arr2.rows).sum, ownerOf (m.gp.Xs.map Arr2.rows) r < a.Xs.length := fun r => by
    have := ownerOf_lt _ _ r.2
    rwa [List.length_map, hXl] at this
  have inn : ∀ r : Fin (m.gp.Xs.map Arr2.rows).sum, innerIdx (m.gp.Xs.map Arr2.rows) r < (queryLens a.Xs).getD (ownerOf (m.gp.Xs.map Arr2.rows) r) 0 := fun r => by
    have := innerIdx_lt (m.gp.Xs.map Arr2.rows) r.2
    rwa [congrArg (fun l : List ℕ => l.getD (ownerOf (m.gp.Xs.map Arr2.rows) r) 0) r2] at this
  refine ⟨ι, ⟨_, hlt⟩, ⟨⟨hι.inj, fun r e => ?_, fun j => ?_⟩, hι, o1, fun c hc => ?_, fun r => ?_, ?_⟩⟩
  · have e1 := congrArg Fin.val e
    simp only at e1
    rw [hv r] at e1
    have ho := hι.owner r
    have e2 : ownerOf (m'.gp.Xs.map Arr2.rows) (ι r) = d₀ := by rw [e]; exact o1
    rw [ho] at e2
    have hi := inn r
    rw [e2] at e1 hi
    omega
  · have hj := offset_owner j.2
    set d := ownerOf (m'.gp.Xs.map Arr2.rows) j with hd
    have hdl : d < a.Xs.length := by
      have := ownerOf_lt _ _ j.2
      rwa [List.length_map, hXl'] at this
    obtain ⟨j1, j2⟩ := hj
    rw [congrArg (fun l : List ℕ => l.getD d 0) s2] at j2
    rw [h.lens d hdl] at j2
    by_cases hlt2 : innerIdx (m'.gp.Xs.map Arr2.rows) j < (queryLens a.Xs).getD d 0
    · obtain ⟨k1, k2, -, -⟩ := r3 d hdl _ hlt2
      refine .inr ⟨⟨_, k1⟩, Fin.ext ?_⟩
      rw [hv]
      simp only
      rw [k2]
      have k3 := (offset_owner k1).1
      rw [k2] at k3
      omega
    · refine .inl (Fin.ext ?_)
      simp only
      split_ifs at j2 with e
      · rw [← j1, e]
        rw [e] at hlt2 j2
        omega
      · omega
  · rw [o3]
    exact h.new.2 c hc
  · have hi := inn r
    have hd := own r
    have hi' : innerIdx (m.gp.Xs.map Arr2.rows) r < (queryLens a'.Xs).getD (ownerOf (m.gp.Xs.map Arr2.rows) r) 0 := by rw [h.lens _ hd]; omega
    obtain ⟨a1, a2, a3, -⟩ := r3 _ hd _ hi
    obtain ⟨b1, b2, b3, -⟩ := s3 _ (by rw [h.outputs]; exact hd) _ hi'
    have e1 : (⟨_, a1⟩ : Fin (m.gp.Xs.map Arr2.rows).sum) = r := Fin.ext (offset_owner r.2).1
    have e2 : (⟨_, b1⟩ : Fin (m'.gp.Xs.map Arr2.rows).sum) = ι r := Fin.ext (hv r).symm
    rw [e1] at a3
    rw [e2] at b3
    obtain ⟨q1, q2, q3, q4⟩ := sc (ownerOf (m.gp.Xs.map Arr2.rows) r)
    rw [a3, b3, q1, q2, q3, q4, (h.old _ hd _ hi).1]
  · obtain ⟨q1, q2, q3, q4⟩ := sc d₀
    rw [o2, q3, q4, h.new.1]
    simp

section
variable {P : ℕ} {m m' : LLGP} {d₀ : ℕ} {x₀ : ℕ → ℝ} {y₀ : ℝ} {ι : Fin (m.gp.Xs.map Arr2.rows).sum → Fin (m'.gp.Xs.map Arr2.rows).sum} {s : Fin (m'.gp.Xs.map Arr2.rows).sum}

/-- the solutions with one more observation, for any covariance that depends on outputs and points only -/
theorem NewRow.solve (R : NewRow P m m' d₀ x₀ y₀ ι s) {C : ℕ → ℕ → (ℕ → ℝ) → (ℕ → ℝ) → ℝ} {N : ℕ → ℝ}
    (hC : ∀ a b x x' z z', (∀ c < P, x c = x' c) → (∀ c < P, z c = z' c) → C a b x z = C a b x' z')
    {K : Matrix (Fin (m.gp.Xs.map Arr2.rows).sum) (Fin (m.gp.Xs.map Arr2.rows).sum) ℝ} {K' : Matrix (Fin (m'.gp.Xs.map Arr2.rows).sum) (Fin (m'.gp.Xs.map Arr2.rows).sum) ℝ}
    (hK : ∀ i j, K i j = C (ownerOf (m.gp.Xs.map Arr2.rows) i) (ownerOf (m.gp.Xs.map Arr2.rows) j) (rowPoint m.gp.Xs i) (rowPoint m.gp.Xs j) +
      if (i : ℕ) = j then N (ownerOf (m.gp.Xs.map Arr2.rows) i) else 0)
    (hK' : ∀ i j, K' i j = C (ownerOf (m'.gp.Xs.map Arr2.rows) i) (ownerOf (m'.gp.Xs.map Arr2.rows) j) (rowPoint m'.gp.Xs i) (rowPoint m'.gp.Xs j) +
      if (i : ℕ) = j then N (ownerOf (m'.gp.Xs.map Arr2.rows) i) else 0)
    (hd : K.PosDef) (hd' : K'.PosDef) {c : Fin (m.gp.Xs.map Arr2.rows).sum → ℝ} (hc : ∀ j : Fin (m.gp.Xs.map Arr2.rows).sum, c j = C d₀ (ownerOf (m.gp.Xs.map Arr2.rows) j) x₀ (rowPoint m.gp.Xs j)) :
    0 < C d₀ d₀ x₀ x₀ + N d₀ - c ⬝ᵥ K⁻¹ *ᵥ c ∧ K'.det = K.det * (C d₀ d₀ x₀ x₀ + N d₀ - c ⬝ᵥ K⁻¹ *ᵥ c) ∧
    ∀ (u v : Fin (m.gp.Xs.map Arr2.rows).sum → ℝ) (u' v' : Fin (m'.gp.Xs.map Arr2.rows).sum → ℝ), (∀ i, u' (ι i) = u i) → (∀ i, v' (ι i) = v i) →
      u' ⬝ᵥ K'⁻¹ *ᵥ v' = u ⬝ᵥ K⁻¹ *ᵥ v + (u' s - u ⬝ᵥ K⁻¹ *ᵥ c) / (C d₀ d₀ x₀ x₀ + N d₀ - c ⬝ᵥ K⁻¹ *ᵥ c) * (v' s - c ⬝ᵥ K⁻¹ *ᵥ v) := by
  have h1 : ∀ i j, K' (ι i) (ι j) = K i j := fun i j => by
    rw [hK, hK', R.within.owner, R.within.owner, hC _ _ _ _ _ _ (R.within.point i) (R.within.point j)]
    congr 1
    by_cases e : i = j
    · rw [if_pos (by rw [e]), if_pos (by rw [e])]
    · rw [if_neg fun h' => e (Fin.ext h'), if_neg fun h' => e (R.within.inj (Fin.ext h'))]
  have h2 : ∀ i, K' s (ι i) = c i := fun i => by
    rw [hc, hK', R.within.owner, R.owner, hC _ _ _ _ _ _ R.point (R.within.point i), if_neg fun h' => R.rows.fresh i (Fin.ext h'.symm), add_zero]
  have h3 : ∀ i, K' (ι i) s = c i := fun i => by
    rw [← h2 i]
    have := hd'.isHermitian.apply s (ι i)
    rwa [star_trivial] at this
  have h4 : K' s s = C d₀ d₀ x₀ x₀ + N d₀ := by
    rw [hK', R.owner, hC _ _ _ _ _ _ R.point R.point, if_pos rfl]
  have p1 := R.rows.schur_pos hd hd' h1 h3 h2
  have p2 := R.rows.det hd h1 h3 h2
  rw [h4] at p1 p2
  refine ⟨p1, p2, fun u v u' v' hu hv => ?_⟩
  rw [R.rows.solve hd hd' h1 h3 h2 hu hv, h4]

/-- the mean at any point -/
theorem NewRow.mean (R : NewRow P m m' d₀ x₀ y₀ ι s) (ok : m.OK P) (ok' : m'.OK P) (hfk : m'.fk = m.fk) (hax : m'.axesOf = m.axesOf) (hs : m.fk.Sound)
    (hn : ∀ ad ∈ m.fk.activeDims.map Prod.fst, ad.Nodup) (d : ℕ) (x : ℕ → ℝ) :
    0 < m.fk.skiLeft m.axesOf m.fk.extraOf m.gp.Xs d₀ x₀ d₀ x₀ + m.fk.noise.getD d₀ 0 ∧
    m'.fk.skiMean m'.axesOf m'.fk.extraOf m'.gp.Xs m'.gp.Ys d x = m.fk.skiMean m.axesOf m.fk.extraOf m.gp.Xs m.gp.Ys d x +
      m.fk.skiLeft m.axesOf m.fk.extraOf m.gp.Xs d x d₀ x₀ / (m.fk.skiLeft m.axesOf m.fk.extraOf m.gp.Xs d₀ x₀ d₀ x₀ + m.fk.noise.getD d₀ 0) *
        (y₀ - m.fk.skiMean m.axesOf m.fk.extraOf m.gp.Xs m.gp.Ys d₀ x₀) ∧
    toVec (m'.gp.Xs.map Arr2.rows).sum m'.gp.Ys.flatten ⬝ᵥ (m'.fk.skiMat m'.axesOf m'.fk.extraOf m'.gp.Xs)⁻¹ *ᵥ toVec (m'.gp.Xs.map Arr2.rows).sum m'.gp.Ys.flatten =
      toVec (m.gp.Xs.map Arr2.rows).sum m.gp.Ys.flatten ⬝ᵥ (m.fk.skiMat m.axesOf m.fk.extraOf m.gp.Xs)⁻¹ *ᵥ toVec (m.gp.Xs.map Arr2.rows).sum m.gp.Ys.flatten +
      (y₀ - m.fk.skiMean m.axesOf m.fk.extraOf m.gp.Xs m.gp.Ys d₀ x₀) ^ 2 / (m.fk.skiLeft m.axesOf m.fk.extraOf m.gp.Xs d₀ x₀ d₀ x₀ + m.fk.noise.getD d₀ 0) := by
  have hpd := ok.ski_posDef hs hn
  have hpd' := ok'.ski_posDef (by rw [hfk]; exact hs) (by rw [hfk]; exact hn)
  rw [hfk, hax] at hpd' ⊢
  obtain ⟨q1, -, q3⟩ := R.solve (C := m.fk.skiCov m.axesOf m.fk.extraOf) (N := fun d => m.fk.noise.getD d 0) (fun a b x x' z z' h1 h2 => skiCov_eq ok h1 h2 _ _ _)
    (K := m.fk.skiMat m.axesOf m.fk.extraOf m.gp.Xs) (K' := m.fk.skiMat m.axesOf m.fk.extraOf m'.gp.Xs) (fun i j => rfl) (fun i j => rfl) hpd hpd'
    (c := m.fk.skiCross m.axesOf m.fk.extraOf m.gp.Xs d₀ x₀) fun j => rfl
  have hg : ∀ t : ℝ, m.fk.skiCov m.axesOf m.fk.extraOf d₀ d₀ x₀ x₀ + m.fk.noise.getD d₀ 0 - t = m.fk.skiCov m.axesOf m.fk.extraOf d₀ d₀ x₀ x₀ - t + m.fk.noise.getD d₀ 0 := fun t => by ring
  simp only [hg] at q1 q3
  have hsym : ((m.fk.skiMat m.axesOf m.fk.extraOf m.gp.Xs)⁻¹)ᵀ = (m.fk.skiMat m.axesOf m.fk.extraOf m.gp.Xs)⁻¹ := by
    rw [Matrix.transpose_nonsing_inv, show (m.fk.skiMat m.axesOf m.fk.extraOf m.gp.Xs)ᵀ = _ from (by simpa using hpd.1 : (m.fk.skiMat m.axesOf m.fk.extraOf m.gp.Xs).IsSymm)]
  refine ⟨q1, ?_, ?_⟩
  · have key := q3 (m.fk.skiCross m.axesOf m.fk.extraOf m.gp.Xs d x) (toVec (m.gp.Xs.map Arr2.rows).sum m.gp.Ys.flatten) (m.fk.skiCross m.axesOf m.fk.extraOf m'.gp.Xs d x)
      (toVec (m'.gp.Xs.map Arr2.rows).sum m'.gp.Ys.flatten) (fun i => by
        unfold FK.skiCross
        rw [R.within.owner]
        exact skiCov_eq ok (fun _ _ => rfl) (R.within.point i) _ _ _) R.old
    rw [R.new] at key
    unfold FK.skiMean
    rw [key]
    have : m.fk.skiCross m.axesOf m.fk.extraOf m'.gp.Xs d x s = m.fk.skiCov m.axesOf m.fk.extraOf d d₀ x x₀ := by
      unfold FK.skiCross
      rw [R.owner]
      exact skiCov_eq ok (fun _ _ => rfl) R.point _ _ _
    rw [this]
    rfl
  · have key := q3 (toVec (m.gp.Xs.map Arr2.rows).sum m.gp.Ys.flatten) (toVec (m.gp.Xs.map Arr2.rows).sum m.gp.Ys.flatten) (toVec (m'.gp.Xs.map Arr2.rows).sum m'.gp.Ys.flatten)
      (toVec (m'.gp.Xs.map Arr2.rows).sum m'.gp.Ys.flatten) R.old R.old
    rw [key, R.new]
    have hc : toVec (m.gp.Xs.map Arr2.rows).sum m.gp.Ys.flatten ⬝ᵥ (m.fk.skiMat m.axesOf m.fk.extraOf m.gp.Xs)⁻¹ *ᵥ m.fk.skiCross m.axesOf m.fk.extraOf m.gp.Xs d₀ x₀ =
        m.fk.skiCross m.axesOf m.fk.extraOf m.gp.Xs d₀ x₀ ⬝ᵥ (m.fk.skiMat m.axesOf m.fk.extraOf m.gp.Xs)⁻¹ *ᵥ toVec (m.gp.Xs.map Arr2.rows).sum m.gp.Ys.flatten := by
      rw [dotProduct_mulVec, ← mulVec_transpose, hsym, dotProduct_comm]
    unfold FK.skiMean FK.skiLeft
    rw [hc, div_mul_eq_mul_div, ← sq]

/-- what is left of the interpolated variance is not negative -/
theorem skiLeft_nonneg (ok : m.OK P) (hs : m.fk.Sound) (hn : ∀ ad ∈ m.fk.activeDims.map Prod.fst, ad.Nodup) {d : ℕ} (hd : d < m.fk.D) (x : ℕ → ℝ) :
    0 ≤ m.fk.skiLeft m.axesOf m.fk.extraOf m.gp.Xs d x d x := by
  have hpd := ok.ski_posDef hs hn
  have hu := (Matrix.isUnit_iff_isUnit_det _).1 hpd.isUnit
  have hp := noiseRows_pos ok hs
  set c := m.fk.skiCross m.axesOf m.fk.extraOf m.gp.Xs d x with hc
  set w := (m.fk.skiMat m.axesOf m.fk.extraOf m.gp.Xs)⁻¹ *ᵥ c with hw
  have hKw : m.fk.skiMat m.axesOf m.fk.extraOf m.gp.Xs *ᵥ w = c := by rw [hw, Matrix.mulVec_mulVec, Matrix.mul_nonsing_inv _ hu, Matrix.one_mulVec]
  have hJ := ski_joint ok hs hn hd x w
  have h1 : (∑ i : Fin (m.gp.Xs.map Arr2.rows).sum, ∑ j : Fin (m.gp.Xs.map Arr2.rows).sum, w i * m.fk.skiCov m.axesOf m.fk.extraOf (ownerOf (m.gp.Xs.map Arr2.rows) i)
      (ownerOf (m.gp.Xs.map Arr2.rows) j) (rowPoint m.gp.Xs i) (rowPoint m.gp.Xs j) * w j) = (∑ i, w i * c i) - ∑ i, m.fk.noiseRows m.gp.Xs i * w i ^ 2 := by
    rw [← Finset.sum_sub_distrib]
    refine Finset.sum_congr rfl fun i _ => ?_
    have e1 : c i = ∑ j, m.fk.skiMat m.axesOf m.fk.extraOf m.gp.Xs i j * w j := (congrFun hKw i).symm
    have e2 : ∑ j, m.fk.skiMat m.axesOf m.fk.extraOf m.gp.Xs i j * w j = (∑ j : Fin (m.gp.Xs.map Arr2.rows).sum, m.fk.skiCov m.axesOf m.fk.extraOf (ownerOf (m.gp.Xs.map Arr2.rows) i)
      (ownerOf (m.gp.Xs.map Arr2.rows) j) (rowPoint m.gp.Xs i) (rowPoint m.gp.Xs j) * w j) + m.fk.noiseRows m.gp.Xs i * w i := by
      simp only [noise_split, add_mul, Finset.sum_add_distrib, ite_mul, zero_mul, Finset.sum_ite_eq, Finset.mem_univ, if_true]
    rw [e1, e2, mul_add, Finset.mul_sum]
    rw [show w i * (m.fk.noiseRows m.gp.Xs i * w i) = m.fk.noiseRows m.gp.Xs i * w i ^ 2 by ring, add_sub_cancel_right]
    exact Finset.sum_congr rfl fun j _ => by ring
  rw [h1] at hJ
  have h2 : (0 : ℝ) ≤ ∑ i, m.fk.noiseRows m.gp.Xs i * w i ^ 2 := Finset.sum_nonneg fun i _ => mul_nonneg (hp i).le (sq_nonneg _)
  have h3 : c ⬝ᵥ w = ∑ i, w i * c i := Finset.sum_congr rfl fun i _ => mul_comm _ _
  unfold FK.skiLeft
  rw [← hc, ← hw, h3]
  rw [← hc] at hJ
  linarith

/-- the conditional variance at any point, and the determinant -/
theorem NewRow.var (R : NewRow P m m' d₀ x₀ y₀ ι s) (ok : m.OK P) (ok' : m'.OK P) (hfk : m'.fk = m.fk) (hs : m.fk.Sound) (d : ℕ) (x : ℕ → ℝ) :
    0 < m.fk.condVar m.gp.Xs d₀ x₀ ∧ m'.fk.condVar m'.gp.Xs d x = m.fk.condVar m.gp.Xs d x - m.fk.covLeft m.gp.Xs d x d₀ x₀ ^ 2 / m.fk.condVar m.gp.Xs d₀ x₀ ∧
      (m'.fk.covMat m'.gp.Xs).det = (m.fk.covMat m.gp.Xs).det * m.fk.condVar m.gp.Xs d₀ x₀ := by
  have hpd := covMat_posDef ok.ready.wf ok.data.inputs.len hs.kernels hs.kappa hs.noise
  have hpd' := covMat_posDef (Xs := m'.gp.Xs) ok.ready.wf (by rw [← hfk]; exact ok'.data.inputs.len) hs.kernels hs.kappa hs.noise
  rw [hfk]
  obtain ⟨q1, q2, q3⟩ := R.solve (C := m.fk.cov) (N := fun d => m.fk.noise.getD d 0) (fun a b x x' z z' h1 h2 => cov_congr ok.ready h1 h2)
    (K := m.fk.covMat m.gp.Xs) (K' := m.fk.covMat m'.gp.Xs) (fun i j => rfl) (fun i j => rfl) hpd hpd'
    (c := m.fk.crossCov m.gp.Xs d₀ x₀) fun j => rfl
  refine ⟨q1, ?_, q2⟩
  have key := q3 (m.fk.crossCov m.gp.Xs d x) (m.fk.crossCov m.gp.Xs d x) (m.fk.crossCov m'.gp.Xs d x) (m.fk.crossCov m'.gp.Xs d x)
    (fun i => (crossCov_within ok.ready R.within d x i).symm) (fun i => (crossCov_within ok.ready R.within d x i).symm)
  have e1 : m.fk.crossCov m'.gp.Xs d x s = m.fk.cov d d₀ x x₀ := by
    unfold FK.crossCov
    rw [R.owner]
    exact cov_congr ok.ready (fun _ _ => rfl) R.point
  have hsym : ((m.fk.covMat m.gp.Xs)⁻¹)ᵀ = (m.fk.covMat m.gp.Xs)⁻¹ := by
    rw [Matrix.transpose_nonsing_inv, show (m.fk.covMat m.gp.Xs)ᵀ = _ from (by simpa using hpd.1 : (m.fk.covMat m.gp.Xs).IsSymm)]
  have hc : m.fk.crossCov m.gp.Xs d₀ x₀ ⬝ᵥ (m.fk.covMat m.gp.Xs)⁻¹ *ᵥ m.fk.crossCov m.gp.Xs d x =
      m.fk.crossCov m.gp.Xs d x ⬝ᵥ (m.fk.covMat m.gp.Xs)⁻¹ *ᵥ m.fk.crossCov m.gp.Xs d₀ x₀ := by
    rw [dotProduct_mulVec, ← mulVec_transpose, hsym, dotProduct_comm]
  rw [e1, hc] at key
  unfold FK.condVar FK.covLeft FK.priorVar
  rw [key]
  ring

end

end Verif
