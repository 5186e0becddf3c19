import Verif.Spec.Measured
import Verif.Props.Fit
import Verif.Props.VarianceBounds
import Verif.Props.Repeated

/-! Points that were measured several times. -/

namespace Verif

open Matrix

variable {n : ℕ}

/-- the fit at observations of the same row: their average is nearly met when there are many of them -/
theorem repeated_mean {S : Matrix (Fin n) (Fin n) ℝ} (hS : S.PosSemidef) {ν : Fin n → ℝ} (hν : ∀ i, 0 < ν i) {y α : Fin n → ℝ} (h : (S + diagonal ν) *ᵥ α = y)
    (T : Finset (Fin n)) {s : Fin n} (hrow : ∀ t ∈ T, ∀ j, S t j = S s j) {ν₀ : ℝ} (h0 : ∀ t ∈ T, ν t = ν₀) (hp : 0 < ν₀) (hT : 0 < T.card) (hv : 0 < S s s) {z : ℝ}
    (hz : z = (∑ t ∈ T, y t) / T.card) :
    (z - (S *ᵥ α) s) ^ 2 ≤ ν₀ / (2 * T.card) * (z ^ 2 / S s s + ∑ i, if i ∈ T then 0 else (y i - z * S i s / S s s) ^ 2 / ν i) := by
  have hk : (0 : ℝ) < T.card := by exact_mod_cast hT
  have hy : ∀ i, y i = (S *ᵥ α) i + ν i * α i := fun i => by rw [← h, add_mulVec, Pi.add_apply, mulVec_diagonal]
  set f := S *ᵥ α with hf
  have hfT : ∀ t ∈ T, f t = f s := fun t ht => by
    show ∑ j, S t j * α j = ∑ j, S s j * α j
    exact Finset.sum_congr rfl fun j _ => by rw [hrow t ht j]
  set v := S s s with hvd
  set g : Fin n → ℝ := fun i => z * S i s / v with hg
  -- the residuals at the repeated observations
  have hA : T.card * (z - f s) = ν₀ * ∑ t ∈ T, α t := by
    have e1 : T.card * z = ∑ t ∈ T, y t := by rw [hz]; field_simp
    rw [mul_sub, e1, Finset.mul_sum, Finset.sum_congr rfl fun t ht => by rw [hy t, hfT t ht, h0 t ht], Finset.sum_add_distrib, Finset.sum_const, nsmul_eq_mul]
    ring
  have hsym : ∀ i j, S i j = S j i := fun i j => by simpa using (hS.1.apply j i)
  -- the quadratic form at the difference of the two weights
  have hq : 0 ≤ z ^ 2 / v - 2 * (∑ i, α i * g i) + ∑ i, α i * f i := by
    have q := hS.dotProduct_mulVec_nonneg (Pi.single s (z / v) - α)
    rw [star_trivial, mulVec_sub, sub_dotProduct, dotProduct_sub, dotProduct_sub, single_dotProduct, single_dotProduct] at q
    have e1 : (S *ᵥ Pi.single s (z / v)) = g := by
      funext i
      rw [mulVec_single]
      simp only [Pi.smul_apply, MulOpposite.smul_eq_mul_unop, MulOpposite.unop_op, hg, Matrix.col_apply]
      ring
    have e2 : z / v * (S *ᵥ α) s = α ⬝ᵥ g := by
      unfold dotProduct mulVec dotProduct
      rw [Finset.mul_sum]
      exact Finset.sum_congr rfl fun i _ => by rw [hg]; simp only; rw [hsym s i]; ring
    rw [e1, e2] at q
    have e3 : z / v * g s = z ^ 2 / v := by
      rw [hg]
      simp only
      rw [← hvd]
      field_simp
    rw [e3] at q
    have e4 : α ⬝ᵥ g = ∑ i, α i * g i := rfl
    have e5 : α ⬝ᵥ (S *ᵥ α) = ∑ i, α i * f i := rfl
    rw [e4, e5] at q
    linarith
  have hpsd : 0 ≤ ∑ i, α i * f i := by
    have q := hS.dotProduct_mulVec_nonneg α
    rw [star_trivial] at q
    exact q
  have hrest : 2 * (∑ i, α i * f i) - 2 * (∑ i, α i * g i) + 2 * ((z - f s) * ∑ t ∈ T, α t) ≤ ∑ i, if i ∈ T then 0 else (y i - g i) ^ 2 / ν i := by
    have e1 : (z - f s) * ∑ t ∈ T, α t = ∑ i, if i ∈ T then α i * (g i - f i) else 0 := by
      rw [Finset.sum_ite_mem, Finset.univ_inter, Finset.mul_sum]
      refine Finset.sum_congr rfl fun t ht => ?_
      rw [hfT t ht, hg]
      simp only
      rw [hrow t ht s, ← hvd, mul_div_assoc, div_self hv.ne']
      ring
    rw [e1, Finset.mul_sum, Finset.mul_sum, Finset.mul_sum, ← Finset.sum_sub_distrib, ← Finset.sum_add_distrib]
    refine Finset.sum_le_sum fun i _ => ?_
    by_cases hi : i ∈ T
    · rw [if_pos hi, if_pos hi]
      exact le_of_eq (by ring)
    · rw [if_neg hi, if_neg hi, hy i, mul_zero, add_zero]
      have hν' := hν i
      rw [le_div_iff₀ hν']
      nlinarith [sq_nonneg (f i - g i), sq_nonneg (ν i * α i)]
  have hfin : 2 * ((z - f s) * ∑ t ∈ T, α t) ≤ z ^ 2 / v + ∑ i, if i ∈ T then 0 else (y i - g i) ^ 2 / ν i := by linarith
  change (z - f s) ^ 2 ≤ ν₀ / (2 * T.card) * (z ^ 2 / v + ∑ i, if i ∈ T then 0 else (y i - g i) ^ 2 / ν i)
  clear_value f v g
  generalize hB : z ^ 2 / v + (∑ i, if i ∈ T then 0 else (y i - g i) ^ 2 / ν i) = B at hfin ⊢
  generalize (∑ t ∈ T, α t) = A at hfin hA
  generalize (T.card : ℝ) = k at hk hA ⊢
  generalize z - f s = δ at hfin hA ⊢
  rw [div_mul_eq_mul_div, le_div_iff₀ (by positivity)]
  rw [show δ ^ 2 * (2 * k) = ν₀ * (2 * (δ * A)) from by linear_combination 2 * δ * hA]
  exact mul_le_mul_of_nonneg_left hfin hp.le

/-- what is explained by observations of the same row -/
theorem repeated_explained {K : Matrix (Fin n) (Fin n) ℝ} (hK : K.PosDef) (T : Finset (Fin n)) (hT : 0 < T.card) {c : Fin n → ℝ} {v v₀ ν₀ : ℝ} (hc : ∀ t ∈ T, c t = v)
    (hK1 : ∀ t ∈ T, ∀ u ∈ T, K t u = v₀ + if t = u then ν₀ else 0) : 2 * v - v₀ - ν₀ / T.card ≤ c ⬝ᵥ K⁻¹ *ᵥ c := by
  have hk : (0 : ℝ) < T.card := by exact_mod_cast hT
  have hu := (Matrix.isUnit_iff_isUnit_det _).1 hK.isUnit
  set w : Fin n → ℝ := fun i => if i ∈ T then (T.card : ℝ)⁻¹ else 0 with hw
  have q := hK.posSemidef.dotProduct_mulVec_nonneg (K⁻¹ *ᵥ c - w)
  rw [star_trivial, mulVec_sub, mulVec_mulVec, Matrix.mul_nonsing_inv _ hu, one_mulVec, sub_dotProduct, dotProduct_sub, dotProduct_sub] at q
  have hsym : (K⁻¹ *ᵥ c) ⬝ᵥ (K *ᵥ w) = w ⬝ᵥ c := by
    rw [dotProduct_mulVec, ← mulVec_transpose, show Kᵀ = K from (by simpa using hK.1 : K.IsSymm), mulVec_mulVec, Matrix.mul_nonsing_inv _ hu, one_mulVec, dotProduct_comm]
  have e1 : w ⬝ᵥ c = v := by
    have : w ⬝ᵥ c = ∑ i, if i ∈ T then (T.card : ℝ)⁻¹ * v else 0 := Finset.sum_congr rfl fun i _ => by
      rw [hw]
      by_cases hi : i ∈ T
      · simp only [if_pos hi]
        rw [hc i hi]
      · simp only [if_neg hi, zero_mul]
    rw [this, Finset.sum_ite_mem, Finset.univ_inter, Finset.sum_const, nsmul_eq_mul]
    field_simp
  have e2 : w ⬝ᵥ (K *ᵥ w) = v₀ + ν₀ / T.card := by
    have a1 : ∀ t ∈ T, (K *ᵥ w) t = v₀ + (T.card : ℝ)⁻¹ * ν₀ := fun t ht => by
      have : (K *ᵥ w) t = ∑ u, if u ∈ T then (v₀ + if t = u then ν₀ else 0) * (T.card : ℝ)⁻¹ else 0 := by
        show ∑ u, K t u * w u = _
        refine Finset.sum_congr rfl fun u _ => ?_
        rw [hw]
        by_cases hu : u ∈ T
        · simp only [if_pos hu]
          rw [hK1 t ht u hu]
        · simp only [if_neg hu, mul_zero]
      rw [this, Finset.sum_ite_mem, Finset.univ_inter, ← Finset.sum_mul, Finset.sum_add_distrib, Finset.sum_ite_eq, if_pos ht, Finset.sum_const, nsmul_eq_mul]
      field_simp
    have : w ⬝ᵥ (K *ᵥ w) = ∑ t, if t ∈ T then (T.card : ℝ)⁻¹ * (v₀ + (T.card : ℝ)⁻¹ * ν₀) else 0 := Finset.sum_congr rfl fun t _ => by
      rw [hw]
      by_cases ht : t ∈ T
      · simp only [if_pos ht]
        rw [← hw, a1 t ht]
      · simp only [if_neg ht, zero_mul]
    rw [this, Finset.sum_ite_mem, Finset.univ_inter, Finset.sum_const, nsmul_eq_mul]
    field_simp
  have e3 : (K⁻¹ *ᵥ c) ⬝ᵥ c = c ⬝ᵥ K⁻¹ *ᵥ c := dotProduct_comm _ _
  rw [hsym, e1, e2, e3] at q
  linarith

/-- a sum over all observations, output by output -/
theorem sum_rows_fin (lens : List ℕ) (g : Fin lens.sum → ℝ) (f : ℕ → ℕ → ℝ)
    (h : ∀ d < lens.length, ∀ i < lens.getD d 0, ∃ hlt : offset lens d + i < lens.sum, g ⟨offset lens d + i, hlt⟩ = f d i) :
    ∑ s, g s = ∑ d ∈ Finset.range lens.length, ∑ i ∈ Finset.range (lens.getD d 0), f d i := by
  set G : ℕ → ℝ := fun s : ℕ => if hs : s < lens.sum then g ⟨s, hs⟩ else 0 with hG
  have e0 : ∀ s : Fin lens.sum, g s = G s := fun s => by
    rw [hG]
    simp only [s.2, dif_pos]
  rw [Finset.sum_congr rfl fun s _ => e0 s, ← Finset.sum_range, sum_rows]
  refine Finset.sum_congr rfl fun d hd => Finset.sum_congr rfl fun i hi => ?_
  obtain ⟨hlt, e⟩ := h d (Finset.mem_range.1 hd) i (Finset.mem_range.1 hi)
  rw [hG]
  simp only
  rw [dif_pos hlt, e]

/-- the observations of a model, one by one: output, value and point -/
theorem model_rows {m : LLGP} {P : ℕ} {a : LLGPArgs} (ok : m.OK P) (ha : m.MadeFrom P a) : a.Xs.length = m.fk.D ∧ m.gp.Xs.map Arr2.rows = queryLens a.Xs ∧
    ∀ d < a.Xs.length, ∀ i < (queryLens a.Xs).getD d 0, ∃ hlt : offset (m.gp.Xs.map Arr2.rows) d + i < (m.gp.Xs.map Arr2.rows).sum,
      ownerOf (m.gp.Xs.map Arr2.rows) (offset (m.gp.Xs.map Arr2.rows) d + i) = d ∧
      toVec (m.gp.Xs.map Arr2.rows).sum m.gp.Ys.flatten ⟨_, hlt⟩ = (a.value d i - a.centreOf d) / a.scaleOf d ∧
      rowPoint m.gp.Xs (offset (m.gp.Xs.map Arr2.rows) d + i) = queryPoint P a.Xs d i := by
  obtain ⟨x1, s1, y1⟩ := MadeFrom.scale ha
  have hl : m.gp.Xs.length = m.fk.D := ok.data.inputs.len
  have hXl : a.Xs.length = m.gp.Xs.length := by rw [x1]; unfold padded; rw [List.length_map]
  have hlens : m.gp.Xs.map Arr2.rows = queryLens a.Xs := by rw [x1, padded_lens]
  have hYl : a.Ys.length = a.Xs.length := by
    obtain ⟨_, _, h, -⟩ := ha
    exact h.data.len.symm
  refine ⟨hXl.trans hl, hlens, fun d hd i hi => ?_⟩
  have hDl : (a.Ys.getD d ⟨[], []⟩).data.length = (queryLens a.Xs).getD d 0 := by
    obtain ⟨_, _, h, -⟩ := ha
    exact documented_lens h hd
  have hdY : d < a.Ys.length := by rw [hYl]; exact hd
  obtain ⟨ho, hlt, hp⟩ := rowPoint_offset m.gp.Xs (d := d) (i := i) (by rw [← hXl]; exact hd) (by rw [hlens]; exact hi)
  refine ⟨hlt, ho, ?_, ?_⟩
  · show m.gp.Ys.flatten.getD (offset (m.gp.Xs.map Arr2.rows) d + i) 0 = _
    have e2 : d < m.gp.Ys.length := by rw [y1, List.length_mapIdx]; exact hdY
    have hin : i < (a.Ys.getD d ⟨[], []⟩).data.length := by rw [hDl]; exact hi
    unfold offset
    rw [← ok.data.lens, flatten_getD _ _ e2 (by rw [ys_getD ha hdY, List.length_map]; exact hin), ys_getD ha hdY, map_getD_lt hin _ _ 0]
    rfl
  · rw [hp, x1, pointOf_padded hd]

open Classical in
/-- the observations of output `d` at `x` among all observations -/
noncomputable def LLGP.rowsAt (m : LLGP) (P d : ℕ) (x : ℕ → ℝ) : Finset (Fin (m.gp.Xs.map Arr2.rows).sum) :=
  Finset.univ.filter fun s => ownerOf (m.gp.Xs.map Arr2.rows) s = d ∧ ∀ c < P, rowPoint m.gp.Xs s c = x c

theorem mem_rowsAt {m : LLGP} {P d : ℕ} {x : ℕ → ℝ} {s : Fin (m.gp.Xs.map Arr2.rows).sum} :
    s ∈ m.rowsAt P d x ↔ ownerOf (m.gp.Xs.map Arr2.rows) s = d ∧ ∀ c < P, rowPoint m.gp.Xs s c = x c := by
  unfold LLGP.rowsAt
  simp

theorem mem_measuredAt {a : LLGPArgs} {P d i : ℕ} {x : ℕ → ℝ} : i ∈ a.measuredAt P d x ↔ i < (queryLens a.Xs).getD d 0 ∧ ∀ c < P, queryPoint P a.Xs d i c = x c := by
  unfold LLGPArgs.measuredAt
  simp

open Classical in
/-- sums over the observations of output `d` at `x` -/
theorem sum_rowsAt {m : LLGP} {P : ℕ} {a : LLGPArgs} (ok : m.OK P) (ha : m.MadeFrom P a) {d : ℕ} (hd : d < a.Xs.length) (x : ℕ → ℝ) (g : Fin (m.gp.Xs.map Arr2.rows).sum → ℝ)
    (f : ℕ → ℝ) (h : ∀ i < (queryLens a.Xs).getD d 0, ∀ hlt : offset (m.gp.Xs.map Arr2.rows) d + i < (m.gp.Xs.map Arr2.rows).sum, g ⟨_, hlt⟩ = f i) :
    ∑ s ∈ m.rowsAt P d x, g s = ∑ i ∈ a.measuredAt P d x, f i := by
  obtain ⟨r1, r2, r3⟩ := model_rows ok ha
  have hXl : (m.gp.Xs.map Arr2.rows).length = a.Xs.length := by rw [r2]; unfold queryLens; rw [List.length_map]
  have e1 : ∑ s ∈ m.rowsAt P d x, g s = ∑ s, if s ∈ m.rowsAt P d x then g s else 0 := by rw [Finset.sum_ite_mem, Finset.univ_inter]
  rw [e1, sum_rows_fin _ _ (fun d' i => if d' = d ∧ i ∈ a.measuredAt P d x then f i else 0) fun d' hd' i hi => by
    obtain ⟨hlt, q1, -, q3⟩ := r3 d' (by rw [← hXl]; exact hd') i (by rw [← r2]; exact hi)
    refine ⟨hlt, ?_⟩
    have hi' : i < (queryLens a.Xs).getD d' 0 := by rw [← r2]; exact hi
    by_cases e : d' = d
    · subst e
      have : (⟨_, hlt⟩ : Fin _) ∈ m.rowsAt P d' x ↔ i ∈ a.measuredAt P d' x := by
        rw [mem_rowsAt, mem_measuredAt]
        simp only [q1, q3, true_and, hi']
      by_cases hm : i ∈ a.measuredAt P d' x
      · rw [if_pos (this.2 hm), if_pos ⟨rfl, hm⟩, h i hi' hlt]
      · rw [if_neg fun hh => hm (this.1 hh), if_neg fun hh => hm hh.2]
    · rw [if_neg fun hh => e (by rw [← (mem_rowsAt.1 hh).1, q1]), if_neg fun hh => e hh.1]]
  rw [hXl, Finset.sum_eq_single d, r2]
  · simp only [true_and]
    rw [← Finset.sum_filter]
    refine Finset.sum_congr ?_ fun _ _ => rfl
    ext i
    rw [Finset.mem_filter, Finset.mem_range]
    exact ⟨fun h => h.2, fun h => ⟨(mem_measuredAt.1 h).1, h⟩⟩
  · intro d' _ hne
    exact Finset.sum_eq_zero fun i _ => if_neg fun hh => hne hh.1
  · intro hh
    exact absurd (Finset.mem_range.2 hd) hh

theorem card_rowsAt {m : LLGP} {P : ℕ} {a : LLGPArgs} (ok : m.OK P) (ha : m.MadeFrom P a) {d : ℕ} (hd : d < a.Xs.length) (x : ℕ → ℝ) :
    ((m.rowsAt P d x).card : ℝ) = (a.measuredAt P d x).card := by
  have := sum_rowsAt ok ha hd x (fun _ => 1) (fun _ => 1) fun _ _ _ => rfl
  simpa using this

end Verif
