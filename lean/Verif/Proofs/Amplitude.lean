import Verif.Spec.Amplitude
import Verif.Props.Continuity

/-! Lemmas for C118: the answers of models whose covariance functions are multiples of each other. -/

namespace Verif

open Matrix

theorem inv_scaled {n : ℕ} {M : Matrix (Fin n) (Fin n) ℝ} (hd : M.det ≠ 0) {c : ℝ} (hc : 0 < c) : (c • M)⁻¹ = c⁻¹ • M⁻¹ := by
  refine inv_eq_left_inv ?_
  rw [smul_mul_smul_comm, inv_mul_cancel₀ hc.ne', one_smul, nonsing_inv_mul _ hd.isUnit]

theorem quad_scaled {n : ℕ} {M : Matrix (Fin n) (Fin n) ℝ} (hd : M.det ≠ 0) {c : ℝ} (hc : 0 < c) (v w : Fin n → ℝ) :
    (c • v) ⬝ᵥ (c • M)⁻¹ *ᵥ (c • w) = c * (v ⬝ᵥ M⁻¹ *ᵥ w) := by
  rw [inv_scaled hd hc, smul_mulVec, mulVec_smul, smul_dotProduct, dotProduct_smul, dotProduct_smul, smul_eq_mul, smul_eq_mul, smul_eq_mul]
  field_simp

theorem mean_scaled {n : ℕ} {M : Matrix (Fin n) (Fin n) ℝ} (hd : M.det ≠ 0) {c : ℝ} (hc : 0 < c) (v y : Fin n → ℝ) :
    (c • v) ⬝ᵥ (c • M)⁻¹ *ᵥ y = v ⬝ᵥ M⁻¹ *ᵥ y := by
  rw [inv_scaled hd hc, smul_mulVec, smul_dotProduct, dotProduct_smul, smul_eq_mul, smul_eq_mul]
  field_simp

theorem max_scaled {c : ℝ} (hc : 0 < c) (x : ℝ) : max 0 (c * x) = c * max 0 x := by
  rw [mul_max_of_nonneg _ _ hc.le, mul_zero]

/-- models of the same data with the same grids, of which one has `c` times the covariance function of the other -/
structure ScaledFunction (c : ℝ) (P : ℕ) (m m' : LLGP) : Prop where
  pos : 0 < c
  ok : m.OK P
  ok' : m'.OK P
  scaled : ScaledCovariance c m.fk m'.fk
  clean : m.fk.Unspoiled
  clean' : m'.fk.Unspoiled
  mode : m'.prediction = m.prediction
  gp : m'.gp = m.gp
  axes : ∀ ad ∈ m.fk.activeDims.map Prod.fst, m'.axesOf ad = m.axesOf ad

theorem unspoiled_extra {fk : FK} (h : fk.Unspoiled) {g : List ℕ × List ℕ} (hg : g ∈ fk.activeDims) : fk.extraOf g = 0 := by
  unfold FK.extraOf
  rw [if_neg (h g hg)]

namespace ScaledFunction

variable {c : ℝ} {P : ℕ} {m m' : LLGP} (R : ScaledFunction c P m m')
include R

theorem keys : (m'.fk.activeDims.map Prod.fst).Perm (m.fk.activeDims.map Prod.fst) := by
  rw [List.perm_ext_iff_of_nodup R.ok'.groups.nodup R.ok.groups.nodup]
  intro ad
  rw [key_iff R.ok.ready R.ok.groups, key_iff R.ok'.ready R.ok'.groups]
  exact R.scaled.dims ad

theorem cov {a b : ℕ} (ha : a < m.fk.D) (hb : b < m.fk.D) (x z : ℕ → ℝ) : m'.fk.cov a b x z = c * m.fk.cov a b x z := by
  rw [cov_onDims R.ok.ready R.ok.groups, cov_onDims R.ok'.ready R.ok'.groups, (R.keys.map _).sum_eq, ← List.sum_map_mul_left]
  exact congrArg List.sum (List.map_congr_left fun ad _ => R.scaled.parts ad a ha b hb _ (Real.sqrt_nonneg _))

theorem groupCov {g g' : List ℕ × List ℕ} (hg : g ∈ m.fk.activeDims) (hg' : g' ∈ m'.fk.activeDims) (he : g'.1 = g.1) {a b : ℕ} (ha : a < m.fk.D) (hb : b < m.fk.D)
    (axes : List (List ℝ)) (p q : ℕ) :
    (m'.fk.gridCov axes g'.2 a b p q + if a = b ∧ p = q then m'.fk.extraOf g' else 0) =
      c * (m.fk.gridCov axes g.2 a b p q + if a = b ∧ p = q then m.fk.extraOf g else 0) := by
  rw [gridCov_onDims R.ok.ready R.ok.groups hg, gridCov_onDims R.ok'.ready R.ok'.groups hg', he,
    R.scaled.parts _ a ha b hb (gridDistance axes p q) (Real.sqrt_nonneg _), unspoiled_extra R.clean hg, unspoiled_extra R.clean' hg', ite_self, add_zero, add_zero]

theorem skiCov {a b : ℕ} (ha : a < m.fk.D) (hb : b < m.fk.D) (x z : ℕ → ℝ) :
    m'.fk.skiCov m'.axesOf m'.fk.extraOf a b x z = c * m.fk.skiCov m.axesOf m.fk.extraOf a b x z := by
  unfold FK.skiCov
  rw [sum_by_key R.ok.groups.nodup, sum_by_key R.ok'.groups.nodup, (R.keys.map _).sum_eq, ← List.sum_map_mul_left]
  refine congrArg List.sum (List.map_congr_left fun ad had => ?_)
  have h : ∃ g ∈ m.fk.activeDims, g.1 = ad := by
    obtain ⟨g, hg, e⟩ := List.mem_map.1 had
    exact ⟨g, hg, e⟩
  have h' : ∃ g ∈ m'.fk.activeDims, g.1 = ad := by
    obtain ⟨g, hg, e⟩ := List.mem_map.1 (R.keys.mem_iff.2 had)
    exact ⟨g, hg, e⟩
  rw [dif_pos h, dif_pos h']
  obtain ⟨h1, h2⟩ := h.choose_spec
  obtain ⟨h1', h2'⟩ := h'.choose_spec
  generalize h.choose = g at *
  generalize h'.choose = g' at *
  have he : g'.1 = g.1 := by rw [h2, h2']
  rw [he, R.axes g.1 (List.mem_map_of_mem h1), Finset.mul_sum]
  refine Finset.sum_congr rfl fun p _ => ?_
  rw [Finset.mul_sum]
  refine Finset.sum_congr rfl fun q _ => ?_
  rw [R.groupCov h1 h1' he ha hb]
  ring

theorem crossCov {d : ℕ} (hd : d < m.fk.D) (x : ℕ → ℝ) : m'.fk.crossCov m.gp.Xs d x = c • m.fk.crossCov m.gp.Xs d x := by
  funext s
  exact R.cov hd (owner_lt R.ok.data.inputs.len s) _ _

theorem skiCross {d : ℕ} (hd : d < m.fk.D) (x : ℕ → ℝ) : m'.fk.skiCross m'.axesOf m'.fk.extraOf m.gp.Xs d x = c • m.fk.skiCross m.axesOf m.fk.extraOf m.gp.Xs d x := by
  funext s
  exact R.skiCov hd (owner_lt R.ok.data.inputs.len s) _ _

theorem fullCov {r s : ℕ} (hr : r < m.n) (hs : s < m.n) : m'.fk.fullCov m.gp.Xs r s = c * m.fk.fullCov m.gp.Xs r s := by
  unfold FK.fullCov
  simp only
  rw [R.cov (owner_lt_D R.ok hr) (owner_lt_D R.ok hs), R.scaled.noise _ (owner_lt_D R.ok hr), mul_add, mul_ite, mul_zero]

theorem covMat : m'.fk.covMat m.gp.Xs = c • m.fk.covMat m.gp.Xs := by
  ext i j
  exact R.fullCov i.2 j.2

theorem skiMat : m'.fk.skiMat m'.axesOf m'.fk.extraOf m.gp.Xs = c • m.fk.skiMat m.axesOf m.fk.extraOf m.gp.Xs := by
  ext i j
  show m'.fk.skiFull _ _ _ i j = c * m.fk.skiFull _ _ _ i j
  unfold FK.skiFull
  simp only
  rw [R.skiCov (owner_lt R.ok.data.inputs.len i) (owner_lt R.ok.data.inputs.len j), R.scaled.noise _ (owner_lt R.ok.data.inputs.len i), mul_add, mul_ite, mul_zero]

theorem gridToData {g g' : List ℕ × List ℕ} (hg : g ∈ m.fk.activeDims) (hg' : g' ∈ m'.fk.activeDims) (he : g'.1 = g.1) {d : ℕ} (hd : d < m.fk.D) (p : ℕ) :
    m'.fk.gridToData (m'.axesOf g'.1) m'.fk.extraOf g' m.gp.Xs d p = c • m.fk.gridToData (m.axesOf g.1) m.fk.extraOf g m.gp.Xs d p := by
  funext s
  rw [Pi.smul_apply, smul_eq_mul]
  unfold FK.gridToData
  rw [he, R.axes g.1 (List.mem_map_of_mem hg), Finset.mul_sum]
  exact Finset.sum_congr rfl fun q _ => by rw [R.groupCov hg hg' he hd (owner_lt R.ok.data.inputs.len s), mul_assoc]

theorem priorVar {d : ℕ} (hd : d < m.fk.D) (x : ℕ → ℝ) : m'.fk.priorVar d x = c * m.fk.priorVar d x := by
  unfold FK.priorVar
  rw [R.cov hd hd, R.scaled.noise d hd, mul_add]

/-- predictions exist for both or neither: means are the same, variances are multiplied by `c` -/
theorem predictions {sv : Solvers} (hs : sv.Fit) (hx : sv.Exact) {k k' : LLKernel} (hc : m.Current sv k) (hc' : m'.Current sv k') (hso : m.fk.Sound) (hso' : m'.fk.Sound)
    (hn : ∀ ad ∈ m.fk.activeDims.map Prod.fst, ad.Nodup) {e e' : Env} (he : e.Works) (he' : e'.Works) {Qs : List (NDArr ℝ)} (hQ : QueriesOK m.fk.D P Qs) (hw : ∀ Q ∈ Qs, Q.WF)
    {r : Predicted} (hr : m.gp.predict (m.rawPredict sv e) Qs = .ok r) :
    ∃ r', m'.gp.predict (m'.rawPredict sv e') Qs = .ok r' ∧ ∀ d < m.fk.D, ∀ i < (queryLens Qs).getD d 0,
      (r'.1.getD d []).getD i 0 = (r.1.getD d []).getD i 0 ∧ (r'.2.getD d []).getD i 0 = c * (r.2.getD d []).getD i 0 := by
  have hn' : ∀ ad ∈ m'.fk.activeDims.map Prod.fst, ad.Nodup := fun ad h => hn ad (R.keys.mem_iff.1 h)
  have A : Asked sv m P k Qs := ⟨hs, R.ok, hc, hQ, hw⟩
  have A' : Asked sv m' P k' Qs := ⟨hs, R.ok', hc', by rw [R.scaled.outputs]; exact hQ, hw⟩
  have hX := exact_of_current hs hx R.ok hc hso hn
  have hX' := exact_of_current hs hx R.ok' hc' hso' hn'
  have hpd := (sound_posDef R.ok hso).det_pos.ne'
  have hsk := (R.ok.ski_posDef hso hn).det_pos.ne'
  have means : ∀ r' : Predicted, m'.gp.predict (m'.rawPredict sv e') Qs = .ok r' → ∀ d < m.fk.D, ∀ i < (queryLens Qs).getD d 0,
      (r'.1.getD d []).getD i 0 = (r.1.getD d []).getD i 0 := by
    intro r' hr' d hd i hi
    rw [C44_exact_solve sv m' P k' Qs A' e' r' (hX' _) hr' d (by rw [R.scaled.outputs]; exact hd) i hi, R.gp, C44_exact_solve sv m P k Qs A e r (hX _) hr d hd i hi]
    congr 2
    unfold FK.skiMean
    rw [R.skiCross hd, R.skiMat, mean_scaled hsk R.pos]
  obtain ⟨-, can⟩ := ((C43_returns sv m P k Qs A e he).2).1 ⟨r, hr⟩
  unfold LLGP.CanPredict at can
  cases hm : m.prediction with
  | exact =>
    obtain ⟨r₁, v1, v2⟩ := C45_exact sv m P k Qs A e hm hso
    rw [hr] at v1
    cases v1
    obtain ⟨r', w1, w2⟩ := C45_exact sv m' P k' Qs A' e' (R.mode.trans hm) hso'
    refine ⟨r', w1, fun d hd i hi => ⟨means r' w1 d hd i hi, ?_⟩⟩
    rw [(w2 d (by rw [R.scaled.outputs]; exact hd) i hi).1, (v2 d hd i hi).1, R.gp]
    unfold FK.condVar
    rw [R.priorVar hd, R.crossCov hd, R.covMat, quad_scaled hpd R.pos]
    ring
  | onTheFly =>
    have h0 : 0 < (queryLens Qs).sum := by
      rw [hm] at can
      exact can
    obtain ⟨r₁, v1, v2⟩ := C46_on_the_fly sv m P k Qs A e he hm (hX _) hso.plain h0
    rw [hr] at v1
    cases v1
    obtain ⟨r', w1, w2⟩ := C46_on_the_fly sv m' P k' Qs A' e' he' (R.mode.trans hm) (hX' _) hso'.plain h0
    refine ⟨r', w1, fun d hd i hi => ⟨means r' w1 d hd i hi, ?_⟩⟩
    rw [w2 d (by rw [R.scaled.outputs]; exact hd) i hi, v2 d hd i hi, R.gp, R.priorVar hd, R.crossCov hd, R.skiMat, quad_scaled hsk R.pos, ← mul_sub, max_scaled R.pos, mul_assoc]
  | precompute =>
    obtain ⟨g, hg, hg1⟩ : ∃ g, m.fk.activeDims = [g] ∧ g.1 = List.range P := by
      rw [hm] at can
      exact can
    obtain ⟨g', q1, q2⟩ : ∃ g', m'.fk.activeDims = [g'] ∧ g'.1 = g.1 := by
      have hk := R.keys
      rw [hg] at hk
      have hl : m'.fk.activeDims.length = 1 := by simpa using hk.length_eq
      obtain ⟨g', hg'⟩ := List.length_eq_one_iff.1 hl
      rw [hg'] at hk
      exact ⟨g', hg', by simpa using hk⟩
    obtain ⟨r₁, v1, v2⟩ := C46_precompute sv m P k Qs A e he hm (hX _) hso.plain g hg hg1
    rw [hr] at v1
    cases v1
    obtain ⟨r', w1, w2⟩ := C46_precompute sv m' P k' Qs A' e' he' (R.mode.trans hm) (hX' _) hso'.plain g' q1 (q2.trans hg1)
    refine ⟨r', w1, fun d hd i hi => ⟨means r' w1 d hd i hi, ?_⟩⟩
    have hgm : g ∈ m.fk.activeDims := by rw [hg]; simp
    have hgm' : g' ∈ m'.fk.activeDims := by rw [q1]; simp
    have e1 : ∀ p, m'.fk.gridExplained m'.axesOf m'.fk.extraOf g' m.gp.Xs d p = c * m.fk.gridExplained m.axesOf m.fk.extraOf g m.gp.Xs d p := fun p => by
      unfold FK.gridExplained
      rw [R.gridToData hgm hgm' q2 hd, R.skiMat, quad_scaled hsk R.pos]
    rw [w2 d (by rw [R.scaled.outputs]; exact hd) i hi, v2 d hd i hi, R.gp, q2, R.axes g.1 (List.mem_map_of_mem hgm), R.priorVar hd]
    simp only [e1]
    have e2 : ∀ p, gridWeight (m.axesOf g.1) (coords g.1 (queryPoint P Qs d i)) p * (c * m.fk.gridExplained m.axesOf m.fk.extraOf g m.gp.Xs d p) =
        c * (gridWeight (m.axesOf g.1) (coords g.1 (queryPoint P Qs d i)) p * m.fk.gridExplained m.axesOf m.fk.extraOf g m.gp.Xs d p) := fun p => by ring
    simp only [e2]
    rw [← Finset.mul_sum, ← mul_sub, max_scaled R.pos, mul_assoc]

theorem det (hso : m.fk.Sound) : Real.log (m'.fk.covMat m'.gp.Xs).det = Real.log (m.fk.covMat m.gp.Xs).det + m.n * Real.log c := by
  rw [R.gp, R.covMat, det_smul, Fintype.card_fin, Real.log_mul (pow_pos R.pos _).ne' (sound_posDef R.ok hso).det_pos.ne', Real.log_pow, add_comm]
  rfl

theorem quadratic {sv : Solvers} (hs : sv.Fit) (hx : sv.Exact) {k k' : LLKernel} (hc : m.Current sv k) (hc' : m'.Current sv k') (hso : m.fk.Sound) (hso' : m'.fk.Sound)
    (hn : ∀ ad ∈ m.fk.activeDims.map Prod.fst, ad.Nodup) :
    toVec m'.n m'.y ⬝ᵥ toVec m'.n k'.approx.alpha = (toVec m.n m.y ⬝ᵥ toVec m.n k.approx.alpha) / c := by
  have hn' : ∀ ad ∈ m'.fk.activeDims.map Prod.fst, ad.Nodup := fun ad h => hn ad (R.keys.mem_iff.1 h)
  have hsk := (R.ok.ski_posDef hso hn).det_pos.ne'
  have e0 : toVec m.n m.y ⬝ᵥ toVec m.n k.approx.alpha = toVec (m.gp.Xs.map Arr2.rows).sum m.y ⬝ᵥ
      (m.fk.skiMat m.axesOf m.fk.extraOf m.gp.Xs)⁻¹ *ᵥ toVec (m.gp.Xs.map Arr2.rows).sum m.y := by
    rw [alpha_exact R.ok hc (exact_of_current hs hx R.ok hc hso hn _)]
    rfl
  have e1 : toVec m'.n m'.y ⬝ᵥ toVec m'.n k'.approx.alpha = toVec (m'.gp.Xs.map Arr2.rows).sum m'.y ⬝ᵥ
      (m'.fk.skiMat m'.axesOf m'.fk.extraOf m'.gp.Xs)⁻¹ *ᵥ toVec (m'.gp.Xs.map Arr2.rows).sum m'.y := by
    rw [alpha_exact R.ok' hc' (exact_of_current hs hx R.ok' hc' hso' hn' _)]
    rfl
  have hy : m'.y = m.y := by unfold LLGP.y; rw [R.gp]
  rw [e0, e1, hy, R.gp, R.skiMat, inv_scaled hsk R.pos, smul_mulVec, dotProduct_smul, smul_eq_mul]
  field_simp

end ScaledFunction

end Verif
