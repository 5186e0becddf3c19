import Verif.Spec.Observations
import Verif.Props.SkiAccuracy

/-! Lemmas for C81 and C82: data sets with the same, or with more, observations. -/

namespace Verif

/-! ### lists -/

theorem subperm_injection {α : Type*} (d : α) : ∀ (l l' : List α), l.Subperm l' →
    ∃ f : ℕ → ℕ, (∀ i < l.length, f i < l'.length ∧ l'.getD (f i) d = l.getD i d) ∧ ∀ i < l.length, ∀ j < l.length, f i = f j → i = j
  | [], l', _ => ⟨id, (fun i hi => by simp at hi), (fun i hi => by simp at hi)⟩
  | a :: l, l', h => by
    obtain ⟨l1, l2, rfl⟩ := List.append_of_mem (h.subset List.mem_cons_self)
    have h2 : l.Subperm (l1 ++ l2) := by
      have h3 : (a :: l).Subperm (a :: (l1 ++ l2)) := h.trans List.perm_middle.subperm
      exact (List.subperm_cons a).1 h3
    obtain ⟨f, hf, hinj⟩ := subperm_injection d l (l1 ++ l2) h2
    refine ⟨fun i => if i = 0 then l1.length else if f (i - 1) < l1.length then f (i - 1) else f (i - 1) + 1, fun i hi => ?_, fun i hi j hj => ?_⟩
    · rcases i with _ | i
      · simp
      · have hi' : i < l.length := by simpa using hi
        obtain ⟨g1, g2⟩ := hf i hi'
        simp only [Nat.add_eq_zero_iff, one_ne_zero, and_false, if_false, Nat.add_sub_cancel]
        rw [List.length_append] at g1
        by_cases hlt : f i < l1.length
        · rw [if_pos hlt]
          refine ⟨by simp; omega, ?_⟩
          rw [List.getD_cons_succ, ← g2, List.getD_append _ _ _ _ hlt, List.getD_append _ _ _ _ hlt]
        · rw [if_neg hlt]
          refine ⟨by simp; omega, ?_⟩
          rw [List.getD_cons_succ, ← g2, List.getD_append_right _ _ _ _ (by omega), List.getD_append_right _ _ _ _ (by omega),
            show f i + 1 - l1.length = (f i - l1.length) + 1 by omega, List.getD_cons_succ]
    · rcases i with _ | i <;> rcases j with _ | j
      · intro _; rfl
      · simp only [Nat.add_eq_zero_iff, one_ne_zero, and_false, if_false, if_true, Nat.add_sub_cancel]
        split_ifs <;> omega
      · simp only [Nat.add_eq_zero_iff, one_ne_zero, and_false, if_false, if_true, Nat.add_sub_cancel]
        split_ifs <;> omega
      · simp only [Nat.add_eq_zero_iff, one_ne_zero, and_false, if_false, Nat.add_sub_cancel]
        intro he
        have : f i = f j := by split_ifs at he <;> omega
        rw [hinj i (by simpa using hi) j (by simpa using hj) this]

/-! ### rows -/

/-- observations `r` of `Xs` are among those of `Xs'` -/
structure RowsWithin (P : ℕ) (Xs Xs' : List (Arr2 ℝ)) (ι : Fin (Xs.map Arr2.rows).sum → Fin (Xs'.map Arr2.rows).sum) : Prop where
  inj : Function.Injective ι
  owner : ∀ r, ownerOf (Xs'.map Arr2.rows) (ι r) = ownerOf (Xs.map Arr2.rows) r
  point : ∀ r, ∀ c < P, rowPoint Xs' (ι r) c = rowPoint Xs r c

theorem rows_within {P : ℕ} {Xs Xs' : List (Arr2 ℝ)} (hl : Xs'.length = Xs.length)
    (f : ℕ → ℕ → ℕ) (hf : ∀ d < Xs.length, (∀ i < (Xs.map Arr2.rows).getD d 0, f d i < (Xs'.map Arr2.rows).getD d 0 ∧ ∀ c < P, pointOf Xs' d (f d i) c = pointOf Xs d i c) ∧
      ∀ i < (Xs.map Arr2.rows).getD d 0, ∀ j < (Xs.map Arr2.rows).getD d 0, f d i = f d j → i = j) :
    ∃ ι, RowsWithin P Xs Xs' ι ∧ ∀ r, (ι r : ℕ) = offset (Xs'.map Arr2.rows) (ownerOf (Xs.map Arr2.rows) r) + f (ownerOf (Xs.map Arr2.rows) r) (innerIdx (Xs.map Arr2.rows) r) := by
  set L := Xs.map Arr2.rows with hL
  set L' := Xs'.map Arr2.rows with hL'
  have ho : ∀ r : Fin L.sum, ownerOf L r < Xs.length := fun r => by
    have := ownerOf_lt L r r.2
    simpa [hL] using this
  have hi : ∀ r : Fin L.sum, innerIdx L r < L.getD (ownerOf L r) 0 := fun r => innerIdx_lt L r.2
  have hg : ∀ r : Fin L.sum, ownerOf L' (offset L' (ownerOf L r) + f (ownerOf L r) (innerIdx L r)) = ownerOf L r ∧
      offset L' (ownerOf L r) + f (ownerOf L r) (innerIdx L r) < L'.sum ∧
      rowPoint Xs' (offset L' (ownerOf L r) + f (ownerOf L r) (innerIdx L r)) = pointOf Xs' (ownerOf L r) (f (ownerOf L r) (innerIdx L r)) := fun r =>
    rowPoint_offset Xs' (by rw [hl]; exact ho r) ((hf _ (ho r)).1 _ (hi r)).1
  refine ⟨fun r => ⟨_, (hg r).2.1⟩, ⟨fun r s h => ?_, fun r => (hg r).1, fun r c hc => ?_⟩, fun r => rfl⟩
  · have h1 : offset L' (ownerOf L r) + f (ownerOf L r) (innerIdx L r) = offset L' (ownerOf L s) + f (ownerOf L s) (innerIdx L s) := congrArg Fin.val h
    have h2 : ownerOf L r = ownerOf L s := by rw [← (hg r).1, h1, (hg s).1]
    rw [h2] at h1
    have h3 : innerIdx L r = innerIdx L s := (hf _ (ho s)).2 _ (h2 ▸ hi r) _ (hi s) (by omega)
    have e1 := (offset_owner r.2).1
    have e2 := (offset_owner s.2).1
    exact Fin.ext (by rw [← e1, ← e2, h2, h3])
  · show rowPoint Xs' (offset L' (ownerOf L r) + f (ownerOf L r) (innerIdx L r)) c = _
    rw [(hg r).2.2, ((hf _ (ho r)).1 _ (hi r)).2 c hc]
    rfl

/-! ### covariances -/

open Matrix in
theorem quadratic_within {n n' : ℕ} {ι : Fin n → Fin n'} (hι : Function.Injective ι) {K : Matrix (Fin n) (Fin n) ℝ} {K' : Matrix (Fin n') (Fin n') ℝ}
    (hK : IsUnit K.det) (hK' : K'.PosDef) (hsub : ∀ i j, K i j = K' (ι i) (ι j)) {k : Fin n → ℝ} {k' : Fin n' → ℝ} (hk : ∀ i, k i = k' (ι i)) :
    k ⬝ᵥ K⁻¹ *ᵥ k ≤ k' ⬝ᵥ K'⁻¹ *ᵥ k' := by
  set v := K⁻¹ *ᵥ k with hv
  set w := K'⁻¹ *ᵥ k' with hw
  have hKv : K *ᵥ v = k := by rw [hv, Matrix.mulVec_mulVec, Matrix.mul_nonsing_inv _ hK, Matrix.one_mulVec]
  have hKw : K' *ᵥ w = k' := by
    rw [hw, Matrix.mulVec_mulVec, Matrix.mul_nonsing_inv _ ((Matrix.isUnit_iff_isUnit_det _).1 hK'.isUnit), Matrix.one_mulVec]
  set u : Fin n' → ℝ := fun j => ∑ i, if ι i = j then v i else 0 with hu
  have hsum : ∀ g : Fin n' → ℝ, u ⬝ᵥ g = ∑ i, v i * g (ι i) := by
    intro g
    simp only [dotProduct, hu, Finset.sum_mul]
    rw [Finset.sum_comm]
    refine Finset.sum_congr rfl fun i _ => ?_
    simp only [ite_mul, zero_mul]
    rw [Finset.sum_ite_eq Finset.univ (ι i), if_pos (Finset.mem_univ _)]
  have h1 : u ⬝ᵥ k' = k ⬝ᵥ v := by
    rw [hsum]
    exact Finset.sum_congr rfl fun i _ => by rw [hk i, mul_comm]
  have h2 : u ⬝ᵥ K' *ᵥ u = k ⬝ᵥ v := by
    rw [hsum, dotProduct]
    refine Finset.sum_congr rfl fun i _ => ?_
    have : (K' *ᵥ u) (ι i) = k i := by
      show (fun j => K' (ι i) j) ⬝ᵥ u = k i
      rw [dotProduct_comm, hsum, ← congrFun hKv i]
      exact Finset.sum_congr rfl fun j _ => by
        show v j * K' (ι i) (ι j) = K i j * v j
        rw [hsub i j, mul_comm]
    rw [this, mul_comm]
  have h3 : w ⬝ᵥ K' *ᵥ u = k ⬝ᵥ v := by
    have hsym : K'ᵀ = K' := by
      have := hK'.isHermitian
      rwa [Matrix.IsHermitian, Matrix.conjTranspose_eq_transpose_of_trivial] at this
    rw [Matrix.dotProduct_mulVec, ← Matrix.mulVec_transpose, hsym, hKw, dotProduct_comm, h1]
  have h4 : 0 ≤ (u - w) ⬝ᵥ K' *ᵥ (u - w) := by
    have := hK'.posSemidef.dotProduct_mulVec_nonneg (u - w)
    simpa using this
  rw [Matrix.mulVec_sub, sub_dotProduct, dotProduct_sub, dotProduct_sub, h2, h3, hKw, h1] at h4
  rw [dotProduct_comm k' w]
  linarith

theorem covMat_within {fk : FK} {P : ℕ} (h : fk.Ready P) {Xs Xs' : List (Arr2 ℝ)} {ι : Fin (Xs.map Arr2.rows).sum → Fin (Xs'.map Arr2.rows).sum}
    (hι : RowsWithin P Xs Xs' ι) (i j : Fin (Xs.map Arr2.rows).sum) : fk.covMat Xs i j = fk.covMat Xs' (ι i) (ι j) := by
  show fk.cov _ _ (rowPoint Xs i) (rowPoint Xs j) + _ = fk.cov _ _ (rowPoint Xs' (ι i)) (rowPoint Xs' (ι j)) + _
  rw [hι.owner, hι.owner, cov_congr h (fun c hc => (hι.point i c hc).symm) (fun c hc => (hι.point j c hc).symm)]
  congr 1
  by_cases e : i = j
  · rw [if_pos (by rw [e]), if_pos (by rw [e])]
  · rw [if_neg fun h' => e (Fin.ext h'), if_neg fun h' => e (hι.inj (Fin.ext h'))]

theorem crossCov_within {fk : FK} {P : ℕ} (h : fk.Ready P) {Xs Xs' : List (Arr2 ℝ)} {ι : Fin (Xs.map Arr2.rows).sum → Fin (Xs'.map Arr2.rows).sum}
    (hι : RowsWithin P Xs Xs' ι) (a : ℕ) (x : ℕ → ℝ) (i : Fin (Xs.map Arr2.rows).sum) : fk.crossCov Xs a x i = fk.crossCov Xs' a x (ι i) := by
  unfold FK.crossCov
  rw [hι.owner, cov_congr h (fun _ _ => rfl) fun c hc => (hι.point i c hc).symm]

/-- more observations never make the conditional variance larger -/
theorem condVar_within {fk : FK} {P : ℕ} (h : fk.Ready P) (hs : fk.Sound) {Xs Xs' : List (Arr2 ℝ)} (hX : Xs.length = fk.D) (hX' : Xs'.length = fk.D)
    {ι : Fin (Xs.map Arr2.rows).sum → Fin (Xs'.map Arr2.rows).sum} (hι : RowsWithin P Xs Xs' ι) (a : ℕ) (x : ℕ → ℝ) : fk.condVar Xs' a x ≤ fk.condVar Xs a x := by
  have hpd := covMat_posDef h.wf hX hs.kernels hs.kappa hs.noise
  have hpd' := covMat_posDef h.wf hX' hs.kernels hs.kappa hs.noise
  have := quadratic_within hι.inj ((Matrix.isUnit_iff_isUnit_det _).1 hpd.isUnit) hpd' (covMat_within h hι) (crossCov_within h hι a x)
  unfold FK.condVar
  linarith

/-- observations never make the variance larger than that of the prior -/
theorem condVar_le_prior {fk : FK} {P : ℕ} (h : fk.Ready P) (hs : fk.Sound) {Xs : List (Arr2 ℝ)} (hX : Xs.length = fk.D) (a : ℕ) (x : ℕ → ℝ) :
    fk.condVar Xs a x ≤ fk.priorVar a x := by
  have hpd := covMat_posDef h.wf hX hs.kernels hs.kappa hs.noise
  have := hpd.inv.posSemidef.dotProduct_mulVec_nonneg (fk.crossCov Xs a x)
  simp only [star_trivial] at this
  unfold FK.condVar
  linarith

/-- close to an observation of the same output little variance is left -/
theorem condVar_at_data {fk : FK} {P : ℕ} (h : fk.Ready P) (hs : fk.Sound) {Xs : List (Arr2 ℝ)} (hX : Xs.length = fk.D) (r : Fin (Xs.map Arr2.rows).sum) (x : ℕ → ℝ)
    (hx : ∀ c < P, rowPoint Xs r c = x c) : fk.condVar Xs (ownerOf (Xs.map Arr2.rows) r) x ≤ 2 * fk.noise.getD (ownerOf (Xs.map Arr2.rows) r) 0 := by
  set a := ownerOf (Xs.map Arr2.rows) r with ha
  have hpd := covMat_posDef h.wf hX hs.kernels hs.kappa hs.noise
  have haD : a < fk.D := owner_lt hX r
  have hn := hs.noise a haD
  have hc : 0 ≤ fk.cov a a x x := by
    have h1 := condVar_ge h.wf hX hs haD x
    have h2 := condVar_le_prior h hs hX a x
    unfold FK.priorVar at h2
    linarith
  have e1 : fk.covMat Xs r r = fk.cov a a x x + fk.noise.getD a 0 := by
    show fk.cov a a (rowPoint Xs r) (rowPoint Xs r) + (if (r : ℕ) = r then _ else _) = _
    rw [cov_congr h hx hx, if_pos rfl]
  have e2 : fk.crossCov Xs a x r = fk.cov a a x x := by
    unfold FK.crossCov
    rw [← ha, cov_congr h (fun _ _ => rfl) hx]
  have hpos : 0 < fk.cov a a x x + fk.noise.getD a 0 := by linarith
  have hι : Function.Injective (fun _ : Fin 1 => r) := fun i j _ => Subsingleton.elim i j
  have key := quadratic_within (K := Matrix.of fun _ _ => fk.cov a a x x + fk.noise.getD a 0) (k := fun _ => fk.cov a a x x) hι
    (by
      rw [Matrix.det_unique]
      exact isUnit_iff_ne_zero.2 hpos.ne') hpd (fun i j => e1.symm) (k' := fk.crossCov Xs a x) (fun i => e2.symm)
  have e3 : (fun _ : Fin 1 => fk.cov a a x x) ⬝ᵥ Matrix.mulVec (Matrix.of fun _ _ : Fin 1 => fk.cov a a x x + fk.noise.getD a 0)⁻¹ (fun _ => fk.cov a a x x) =
      fk.cov a a x x * ((fk.cov a a x x + fk.noise.getD a 0)⁻¹ * fk.cov a a x x) := by
    simp [dotProduct, Matrix.mulVec, Matrix.inv_def, Matrix.det_unique, Matrix.adjugate_fin_one]
  rw [e3] at key
  unfold FK.condVar FK.priorVar
  set c := fk.cov a a x x
  set s := fk.noise.getD a 0
  have h5 : c - c * ((c + s)⁻¹ * c) ≤ s := by
    have : c * ((c + s)⁻¹ * c) = c - s * (c / (c + s)) := by
      field_simp
      ring
    rw [this]
    have h6 : c / (c + s) ≤ 1 := by
      rw [div_le_one hpos]
      linarith
    nlinarith
  linarith

/-! ### models -/

theorem rows_within_padded {P : ℕ} {Xs Xs' : List (NDArr ℝ)} (hl : Xs'.length = Xs.length) (h : ∀ d < Xs.length, (located P Xs d).Subperm (located P Xs' d)) :
    ∃ ι, RowsWithin P (padded P Xs) (padded P Xs') ι := by
  have hL : ∀ Q : List (NDArr ℝ), (padded P Q).length = Q.length := fun Q => by unfold padded; rw [List.length_map]
  have hex : ∀ d, ∃ f : ℕ → ℕ, d < Xs.length → (∀ i < (queryLens Xs).getD d 0, f i < (queryLens Xs').getD d 0 ∧ ∀ c < P, queryPoint P Xs' d (f i) c = queryPoint P Xs d i c) ∧
      ∀ i < (queryLens Xs).getD d 0, ∀ j < (queryLens Xs).getD d 0, f i = f j → i = j := by
    intro d
    by_cases hd : d < Xs.length
    · obtain ⟨f, h1, h2⟩ := subperm_injection [] _ _ (h d hd)
      have l1 : ∀ Q : List (NDArr ℝ), (located P Q d).length = (queryLens Q).getD d 0 := fun Q => by unfold located; simp
      have l2 : ∀ (Q : List (NDArr ℝ)) (i : ℕ), i < (queryLens Q).getD d 0 → (located P Q d).getD i [] = vmk P (queryPoint P Q d i) := fun Q i hi => by
        unfold located
        rw [map_getD_lt (by simpa using hi) _ _ 0]
        congr 2
        rw [List.getD_eq_getElem _ _ (by simpa using hi), List.getElem_range]
      rw [l1, l1] at h1
      rw [l1] at h2
      refine ⟨f, fun _ => ⟨fun i hi => ⟨(h1 i hi).1, fun c hc => ?_⟩, h2⟩⟩
      have := (h1 i hi).2
      rw [l2 _ _ (h1 i hi).1, l2 _ _ hi] at this
      have := congrArg (fun l => l.getD c 0) this
      beta_reduce at this
      rwa [vmk_getD_lt hc, vmk_getD_lt hc] at this
    · exact ⟨id, fun h' => absurd h' hd⟩
  choose f hf using hex
  obtain ⟨ι, hι, -⟩ := rows_within (P := P) (Xs := padded P Xs) (Xs' := padded P Xs') (by rw [hL, hL]; exact hl) f (fun d hd => by
    rw [hL] at hd
    rw [padded_lens, padded_lens]
    obtain ⟨h1, h2⟩ := hf d hd
    refine ⟨fun i hi => ⟨(h1 i hi).1, fun c hc => ?_⟩, h2⟩
    rw [pointOf_padded (by rw [hl]; exact hd), pointOf_padded hd]
    exact (h1 i hi).2 c hc)
  exact ⟨ι, hι⟩

theorem documented_gp {a : LLGPArgs} {P : ℕ} {fk : FK} (h : a.Documented P fk) {m : LLGP} (hm : llgpInit a = .ok m) :
    m.gp.Xs = padded P a.Xs ∧ (∀ d < a.Xs.length, normOf m.gp d = (a.scaleOf d, a.centreOf d) ∧ 0 < a.scaleOf d) ∧
      m.gp.Ys = a.Ys.mapIdx fun d Y => Y.data.map fun y => (y - a.centreOf d) / a.scaleOf d := by
  obtain ⟨-, -, -, -, -, hgp⟩ := init_fields hm
  obtain ⟨norms, e, hn⟩ := (C42_validation_partial a.Xs a.Ys (fun X hX => by
      obtain ⟨n, hn⟩ := h.data.points X hX
      rcases hn with ⟨hn, -⟩ | hn <;> rw [hn] <;> simp) (fun Y hY => by
      obtain ⟨i, hi, rfl⟩ := mem_getD hY ⟨[], []⟩
      obtain ⟨n, hn, -⟩ := h.data.shape i (by rw [h.data.len]; exact hi)
      rw [hn]; simp) a.normalize).2.2 P h.data
  rw [hgp] at e
  have e := Except.ok.inj e
  rw [e]
  refine ⟨rfl, fun d hd => ?_, ?_⟩
  · have hd' : d < a.Ys.length := by rw [← h.data.len]; exact hd
    have hm : a.Ys.getD d ⟨[], []⟩ ∈ a.Ys := getD_mem_of_lt hd' _
    unfold normOf LLGPArgs.scaleOf LLGPArgs.centreOf
    show (match norms with
      | some norms => (((norms.getD d ⟨none, none⟩).std).getD 1, ((norms.getD d ⟨none, none⟩).mean).getD 0)
      | none => (1, 0)) = _ ∧ _
    subst hn
    cases hnn : a.normalize
    · simp
    · simp only [if_true]
      rw [map_getD_lt hd' _ _ ⟨[], []⟩]
      exact ⟨rfl, lt_of_le_of_ne (sdOf_nonneg _) fun h0 => ((h.data.spread _ hm).resolve_left (h.filled _ hm)) h0.symm⟩
  · show (if a.normalize then a.Ys.map fun Y => Y.data.map fun y => (y - meanOf Y.data) / sdOf Y.data else a.Ys.map NDArr.data) = _
    unfold LLGPArgs.scaleOf LLGPArgs.centreOf
    cases hnn : a.normalize
    all_goals
      refine List.ext_getElem (by simp) fun d h1 h2 => ?_
      have hd' : d < a.Ys.length := by simpa using h2
      simp [hd']

theorem MadeFrom.scale {m : LLGP} {P : ℕ} {a : LLGPArgs} (h : m.MadeFrom P a) : m.gp.Xs = padded P a.Xs ∧
    (∀ d < a.Xs.length, normOf m.gp d = (a.scaleOf d, a.centreOf d) ∧ 0 < a.scaleOf d) ∧
      m.gp.Ys = a.Ys.mapIdx fun d Y => Y.data.map fun y => (y - a.centreOf d) / a.scaleOf d := by
  obtain ⟨fk, m0, hd, hm, e1, -, -⟩ := h
  rw [e1]
  exact documented_gp hd hm

end Verif
