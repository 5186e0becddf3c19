import Verif.Spec.Continuity
import Verif.Props.SameCovariance
import Mathlib.Topology.Instances.Matrix
import Mathlib.Topology.Algebra.Ring.Real
import Mathlib.Analysis.SpecialFunctions.Trigonometric.Basic
import Mathlib.Analysis.SpecialFunctions.Log.Basic

/-! Lemmas for C114: the answers of a model depend continuously on the covariance function. -/

namespace Verif

open Matrix Filter Topology

variable {ι : Type} {l : Filter ι}

theorem tends_inv {n : ℕ} {M : ι → Matrix (Fin n) (Fin n) ℝ} {M₀ : Matrix (Fin n) (Fin n) ℝ} (h : Tendsto M l (𝓝 M₀)) (hd : M₀.det ≠ 0) :
    Tendsto (fun t => (M t)⁻¹) l (𝓝 M₀⁻¹) := by
  have h1 : Tendsto (fun t => (M t).det) l (𝓝 M₀.det) := (continuous_id.matrix_det.tendsto M₀).comp h
  have h2 : Tendsto (fun t => (M t).adjugate) l (𝓝 M₀.adjugate) := (continuous_id.matrix_adjugate.tendsto M₀).comp h
  have h3 := (h1.inv₀ hd).smul h2
  simp only [Matrix.inv_def, Ring.inverse_eq_inv']
  exact h3

theorem tends_entries {n : ℕ} {M : ι → Matrix (Fin n) (Fin n) ℝ} {M₀ : Matrix (Fin n) (Fin n) ℝ} (h : ∀ i j, Tendsto (fun t => M t i j) l (𝓝 (M₀ i j))) :
    Tendsto M l (𝓝 M₀) := tendsto_pi_nhds.2 fun i => tendsto_pi_nhds.2 fun j => h i j

theorem tends_quad {n : ℕ} {M : ι → Matrix (Fin n) (Fin n) ℝ} {M₀ : Matrix (Fin n) (Fin n) ℝ} (h : Tendsto M l (𝓝 M₀)) (hd : M₀.det ≠ 0) {v w : ι → Fin n → ℝ}
    {v₀ w₀ : Fin n → ℝ} (hv : Tendsto v l (𝓝 v₀)) (hw : Tendsto w l (𝓝 w₀)) : Tendsto (fun t => v t ⬝ᵥ (M t)⁻¹ *ᵥ w t) l (𝓝 (v₀ ⬝ᵥ M₀⁻¹ *ᵥ w₀)) := by
  have hi := tends_inv h hd
  show Tendsto (fun t => ∑ i, v t i * ∑ j, (M t)⁻¹ i j * w t j) l (𝓝 (∑ i, v₀ i * ∑ j, M₀⁻¹ i j * w₀ j))
  refine tendsto_finsetSum _ fun i _ => (tendsto_pi_nhds.1 hv i).mul (tendsto_finsetSum _ fun j _ => ?_)
  exact (tendsto_pi_nhds.1 (tendsto_pi_nhds.1 hi i) j).mul (tendsto_pi_nhds.1 hw j)

/-- models of the same data with the same grids whose covariance functions tend to that of `m` -/
structure NearFunction (l : Filter ι) (P : ℕ) (m : LLGP) (m' : ι → LLGP) : Prop where
  ok : m.OK P
  ok' : ∀ t, (m' t).OK P
  tends : CovarianceTends l (fun t => (m' t).fk) m.fk
  spoiled : ∀ t, SpoiledAlike m.fk (m' t).fk
  mode : ∀ t, (m' t).prediction = m.prediction
  gp : ∀ t, (m' t).gp = m.gp
  axes : ∀ t, ∀ ad ∈ m.fk.activeDims.map Prod.fst, (m' t).axesOf ad = m.axesOf ad

namespace NearFunction

variable {P : ℕ} {m : LLGP} {m' : ι → LLGP} (R : NearFunction l P m m')
include R

theorem keys (t : ι) : ((m' t).fk.activeDims.map Prod.fst).Perm (m.fk.activeDims.map Prod.fst) := by
  rw [List.perm_ext_iff_of_nodup (R.ok' t).groups.nodup R.ok.groups.nodup]
  intro ad
  rw [key_iff R.ok.ready R.ok.groups, key_iff (R.ok' t).ready (R.ok' t).groups]
  exact R.tends.dims t ad

theorem cov {a b : ℕ} (ha : a < m.fk.D) (hb : b < m.fk.D) (x z : ℕ → ℝ) : Tendsto (fun t => (m' t).fk.cov a b x z) l (𝓝 (m.fk.cov a b x z)) := by
  rw [cov_onDims R.ok.ready R.ok.groups]
  have e : (fun t => (m' t).fk.cov a b x z) = fun t => ((m.fk.activeDims.map Prod.fst).map fun ad => (m' t).fk.onDims ad a b (distOn ad x z)).sum := by
    funext t
    rw [cov_onDims (R.ok' t).ready (R.ok' t).groups, ((R.keys t).map _).sum_eq]
  rw [e]
  exact tendsto_list_sum _ fun ad _ => R.tends.parts ad a ha b hb _ (Real.sqrt_nonneg _)

/-- the contribution of a group of dimensions to the interpolated covariance -/
theorem groupCov {g : List ℕ × List ℕ} {g' : ι → List ℕ × List ℕ} (hg : g ∈ m.fk.activeDims) (hg' : ∀ t, g' t ∈ (m' t).fk.activeDims) (he : ∀ t, (g' t).1 = g.1)
    {a b : ℕ} (ha : a < m.fk.D) (hb : b < m.fk.D) (axes : List (List ℝ)) (p q : ℕ) :
    Tendsto (fun t => (m' t).fk.gridCov axes (g' t).2 a b p q + if a = b ∧ p = q then (m' t).fk.extraOf (g' t) else 0) l
      (𝓝 (m.fk.gridCov axes g.2 a b p q + if a = b ∧ p = q then m.fk.extraOf g else 0)) := by
  have e : (fun t => (m' t).fk.gridCov axes (g' t).2 a b p q + if a = b ∧ p = q then (m' t).fk.extraOf (g' t) else 0) =
      fun t => (m' t).fk.onDims g.1 a b (gridDistance axes p q) + if a = b ∧ p = q then m.fk.extraOf g else 0 := by
    funext t
    have : (m' t).fk.extraOf (g' t) = m.fk.extraOf g := by
      unfold FK.extraOf
      have hiff := R.spoiled t g hg (g' t) (hg' t) (he t)
      by_cases hsp : Spoiled m.fk g
      · rw [if_pos hsp, if_pos (hiff.2 hsp)]
      · rw [if_neg hsp, if_neg fun h => hsp (hiff.1 h)]
    rw [gridCov_onDims (R.ok' t).ready (R.ok' t).groups (hg' t), he, this]
  rw [e, gridCov_onDims R.ok.ready R.ok.groups hg]
  exact (R.tends.parts _ a ha b hb (gridDistance axes p q) (Real.sqrt_nonneg _)).add_const _

theorem skiCov {a b : ℕ} (ha : a < m.fk.D) (hb : b < m.fk.D) (x z : ℕ → ℝ) :
    Tendsto (fun t => (m' t).fk.skiCov (m' t).axesOf (m' t).fk.extraOf a b x z) l (𝓝 (m.fk.skiCov m.axesOf m.fk.extraOf a b x z)) := by
  unfold FK.skiCov
  rw [sum_by_key R.ok.groups.nodup]
  have e : ∀ t, _ = _ := fun t => (sum_by_key (R.ok' t).groups.nodup (fun g => ∑ p ∈ Finset.range (gridSize ((m' t).axesOf g.1)), ∑ q ∈ Finset.range (gridSize ((m' t).axesOf g.1)),
    gridWeight ((m' t).axesOf g.1) (coords g.1 x) p * ((m' t).fk.gridCov ((m' t).axesOf g.1) g.2 a b p q + if a = b ∧ p = q then (m' t).fk.extraOf g else 0) *
      gridWeight ((m' t).axesOf g.1) (coords g.1 z) q)).trans ((R.keys t).map _).sum_eq
  simp only [e]
  refine tendsto_list_sum _ fun ad had => ?_
  have h : ∃ g ∈ m.fk.activeDims, g.1 = ad := by
    obtain ⟨g, hg, e⟩ := List.mem_map.1 had
    exact ⟨g, hg, e⟩
  have h' : ∀ t, ∃ g ∈ (m' t).fk.activeDims, g.1 = ad := fun t => by
    obtain ⟨g, hg, e⟩ := List.mem_map.1 ((R.keys t).mem_iff.2 had)
    exact ⟨g, hg, e⟩
  simp only [dif_pos h, dif_pos (h' _)]
  obtain ⟨h1, h2⟩ := h.choose_spec
  have h1' : ∀ t, (h' t).choose ∈ (m' t).fk.activeDims := fun t => (h' t).choose_spec.1
  have he : ∀ t, (h' t).choose.1 = h.choose.1 := fun t => by rw [(h' t).choose_spec.2, h2]
  have hax : ∀ t, (m' t).axesOf h.choose.1 = m.axesOf h.choose.1 := fun t => R.axes t _ (List.mem_map_of_mem h1)
  simp only [he, hax]
  exact tendsto_finsetSum _ fun p _ => tendsto_finsetSum _ fun q _ => ((R.groupCov h1 h1' he ha hb _ p q).const_mul _).mul_const _

theorem crossCov {d : ℕ} (hd : d < m.fk.D) (x : ℕ → ℝ) : Tendsto (fun t => (m' t).fk.crossCov m.gp.Xs d x) l (𝓝 (m.fk.crossCov m.gp.Xs d x)) :=
  tendsto_pi_nhds.2 fun s => R.cov hd (owner_lt R.ok.data.inputs.len s) _ _

theorem skiCross {d : ℕ} (hd : d < m.fk.D) (x : ℕ → ℝ) :
    Tendsto (fun t => (m' t).fk.skiCross (m' t).axesOf (m' t).fk.extraOf m.gp.Xs d x) l (𝓝 (m.fk.skiCross m.axesOf m.fk.extraOf m.gp.Xs d x)) :=
  tendsto_pi_nhds.2 fun s => R.skiCov hd (owner_lt R.ok.data.inputs.len s) _ _

theorem fullCov {r s : ℕ} (hr : r < m.n) (hs : s < m.n) : Tendsto (fun t => (m' t).fk.fullCov m.gp.Xs r s) l (𝓝 (m.fk.fullCov m.gp.Xs r s)) := by
  unfold FK.fullCov
  simp only
  refine (R.cov (owner_lt_D R.ok hr) (owner_lt_D R.ok hs) _ _).add ?_
  by_cases h : r = s
  · simp only [if_pos h]
    exact R.tends.noise _ (owner_lt_D R.ok hr)
  · simp only [if_neg h]
    exact tendsto_const_nhds

theorem covMat : Tendsto (fun t => (m' t).fk.covMat m.gp.Xs) l (𝓝 (m.fk.covMat m.gp.Xs)) :=
  tends_entries fun i j => R.fullCov i.2 j.2

theorem skiMat : Tendsto (fun t => (m' t).fk.skiMat (m' t).axesOf (m' t).fk.extraOf m.gp.Xs) l (𝓝 (m.fk.skiMat m.axesOf m.fk.extraOf m.gp.Xs)) := by
  refine tends_entries fun i j => ?_
  show Tendsto (fun t => (m' t).fk.skiFull _ _ _ i j) l (𝓝 (m.fk.skiFull _ _ _ i j))
  unfold FK.skiFull
  simp only
  refine (R.skiCov (owner_lt R.ok.data.inputs.len i) (owner_lt R.ok.data.inputs.len j) _ _).add ?_
  by_cases h : (i : ℕ) = j
  · simp only [if_pos h]
    exact R.tends.noise _ (owner_lt R.ok.data.inputs.len i)
  · simp only [if_neg h]
    exact tendsto_const_nhds

theorem gridToData {g : List ℕ × List ℕ} {g' : ι → List ℕ × List ℕ} (hg : g ∈ m.fk.activeDims) (hg' : ∀ t, g' t ∈ (m' t).fk.activeDims) (he : ∀ t, (g' t).1 = g.1)
    {d : ℕ} (hd : d < m.fk.D) (p : ℕ) :
    Tendsto (fun t => (m' t).fk.gridToData ((m' t).axesOf (g' t).1) (m' t).fk.extraOf (g' t) m.gp.Xs d p) l
      (𝓝 (m.fk.gridToData (m.axesOf g.1) m.fk.extraOf g m.gp.Xs d p)) := by
  refine tendsto_pi_nhds.2 fun s => ?_
  unfold FK.gridToData
  have hax : ∀ t, (m' t).axesOf g.1 = m.axesOf g.1 := fun t => R.axes t _ (List.mem_map_of_mem hg)
  simp only [he, hax]
  exact tendsto_finsetSum _ fun q _ => (R.groupCov hg hg' he hd (owner_lt R.ok.data.inputs.len s) _ p q).mul_const _

theorem mean (hso : m.fk.Sound) (hn : ∀ ad ∈ m.fk.activeDims.map Prod.fst, ad.Nodup) {d : ℕ} (hd : d < m.fk.D) (x : ℕ → ℝ) :
    Tendsto (fun t => (m' t).fk.skiMean (m' t).axesOf (m' t).fk.extraOf m.gp.Xs m.gp.Ys d x) l (𝓝 (m.fk.skiMean m.axesOf m.fk.extraOf m.gp.Xs m.gp.Ys d x)) :=
  tends_quad R.skiMat (R.ok.ski_posDef hso hn).det_pos.ne' (R.skiCross hd x) tendsto_const_nhds

theorem priorVar {d : ℕ} (hd : d < m.fk.D) (x : ℕ → ℝ) : Tendsto (fun t => (m' t).fk.priorVar d x) l (𝓝 (m.fk.priorVar d x)) :=
  (R.cov hd hd x x).add (R.tends.noise d hd)

/-- predictions exist for all or none, and tend -/
theorem predictions {sv : Solvers} (hs : sv.Fit) (hx : sv.Exact) {k : LLKernel} {k' : ι → LLKernel} (hc : m.Current sv k) (hc' : ∀ t, (m' t).Current sv (k' t))
    (hso : m.fk.Sound) (hso' : ∀ t, (m' t).fk.Sound) (hn : ∀ ad ∈ m.fk.activeDims.map Prod.fst, ad.Nodup) {e : Env} {e' : ι → Env} (he : e.Works) (he' : ∀ t, (e' t).Works)
    {Qs : List (NDArr ℝ)} (hQ : QueriesOK m.fk.D P Qs) (hw : ∀ Q ∈ Qs, Q.WF) {r : Predicted} (hr : m.gp.predict (m.rawPredict sv e) Qs = .ok r) :
    ∃ r' : ι → Predicted, (∀ t, (m' t).gp.predict ((m' t).rawPredict sv (e' t)) Qs = .ok (r' t)) ∧ PredictionsTend l m.fk.D (queryLens Qs) r' r := by
  have hn' : ∀ t, ∀ ad ∈ (m' t).fk.activeDims.map Prod.fst, ad.Nodup := fun t ad h => hn ad ((R.keys t).mem_iff.1 h)
  have A : Asked sv m P k Qs := ⟨hs, R.ok, hc, hQ, hw⟩
  have A' : ∀ t, Asked sv (m' t) P (k' t) Qs := fun t => ⟨hs, R.ok' t, hc' t, by rw [R.tends.outputs]; exact hQ, hw⟩
  have hX := exact_of_current hs hx R.ok hc hso hn
  have hX' := fun t => exact_of_current hs hx (R.ok' t) (hc' t) (hso' t) (hn' t)
  have hpd := sound_posDef R.ok hso
  have hsk := R.ok.ski_posDef hso hn
  -- the means
  have means : ∀ r' : ι → Predicted, (∀ t, (m' t).gp.predict ((m' t).rawPredict sv (e' t)) Qs = .ok (r' t)) → ∀ d < m.fk.D, ∀ i < (queryLens Qs).getD d 0,
      Tendsto (fun t => ((r' t).1.getD d []).getD i 0) l (𝓝 ((r.1.getD d []).getD i 0)) := by
    intro r' hr' d hd i hi
    have e1 : (fun t => ((r' t).1.getD d []).getD i 0) = fun t => (m' t).fk.skiMean (m' t).axesOf (m' t).fk.extraOf m.gp.Xs m.gp.Ys d (queryPoint P Qs d i) *
        (normOf m.gp d).1 + (normOf m.gp d).2 := by
      funext t
      rw [C44_exact_solve sv (m' t) P (k' t) Qs (A' t) (e' t) (r' t) (hX' t _) (hr' t) d (by rw [R.tends.outputs]; exact hd) i hi, R.gp t]
    rw [e1, C44_exact_solve sv m P k Qs A e r (hX _) hr d hd i hi]
    exact ((R.mean hso hn hd _).mul_const _).add_const _
  obtain ⟨-, can⟩ := ((C43_returns sv m P k Qs A e he).2).1 ⟨r, hr⟩
  unfold LLGP.CanPredict at can
  cases hm : m.prediction with
  | exact =>
    obtain ⟨r₁, v1, v2⟩ := C45_exact sv m P k Qs A e hm hso
    rw [hr] at v1
    cases v1
    choose r' w1 w2 using fun t => C45_exact sv (m' t) P (k' t) Qs (A' t) (e' t) ((R.mode t).trans hm) (hso' t)
    refine ⟨r', w1, fun d hd i hi => ⟨means r' w1 d hd i hi, ?_⟩⟩
    have e1 : (fun t => ((r' t).2.getD d []).getD i 0) = fun t => (m' t).fk.condVar m.gp.Xs d (queryPoint P Qs d i) * (normOf m.gp d).1 ^ 2 := by
      funext t
      rw [(w2 t d (by rw [R.tends.outputs]; exact hd) i hi).1, R.gp t]
    rw [e1, (v2 d hd i hi).1]
    exact ((R.priorVar hd _).sub (tends_quad R.covMat hpd.det_pos.ne' (R.crossCov hd _) (R.crossCov hd _))).mul_const _
  | onTheFly =>
    have h0 : 0 < (queryLens Qs).sum := by
      rw [hm] at can
      exact can
    obtain ⟨r₁, v1, v2⟩ := C46_on_the_fly sv m P k Qs A e he hm (hX _) hso.plain h0
    rw [hr] at v1
    cases v1
    choose r' w1 w2 using fun t => C46_on_the_fly sv (m' t) P (k' t) Qs (A' t) (e' t) (he' t) ((R.mode t).trans hm) (hX' t _) (hso' t).plain h0
    refine ⟨r', w1, fun d hd i hi => ⟨means r' w1 d hd i hi, ?_⟩⟩
    have e1 : (fun t => ((r' t).2.getD d []).getD i 0) = fun t => max 0 ((m' t).fk.priorVar d (queryPoint P Qs d i) - (m' t).fk.crossCov m.gp.Xs d (queryPoint P Qs d i) ⬝ᵥ
        ((m' t).fk.skiMat (m' t).axesOf (m' t).fk.extraOf m.gp.Xs)⁻¹ *ᵥ (m' t).fk.crossCov m.gp.Xs d (queryPoint P Qs d i)) * (normOf m.gp d).1 ^ 2 := by
      funext t
      rw [w2 t d (by rw [R.tends.outputs]; exact hd) i hi, R.gp t]
    rw [e1, v2 d hd i hi]
    exact (tendsto_const_nhds.max ((R.priorVar hd _).sub (tends_quad R.skiMat hsk.det_pos.ne' (R.crossCov hd _) (R.crossCov hd _)))).mul_const _
  | precompute =>
    obtain ⟨g, hg, hg1⟩ : ∃ g, m.fk.activeDims = [g] ∧ g.1 = List.range P := by
      rw [hm] at can
      exact can
    have hgs : ∀ t, ∃ g', (m' t).fk.activeDims = [g'] ∧ g'.1 = g.1 := fun t => by
      have hk := R.keys t
      rw [hg] at hk
      have hl : (m' t).fk.activeDims.length = 1 := by simpa using hk.length_eq
      obtain ⟨g', hg'⟩ := List.length_eq_one_iff.1 hl
      rw [hg'] at hk
      exact ⟨g', hg', by simpa using hk⟩
    choose g' q1 q2 using hgs
    obtain ⟨r₁, v1, v2⟩ := C46_precompute sv m P k Qs A e he hm (hX _) hso.plain g hg hg1
    rw [hr] at v1
    cases v1
    choose r' w1 w2 using fun t => C46_precompute sv (m' t) P (k' t) Qs (A' t) (e' t) (he' t) ((R.mode t).trans hm) (hX' t _) (hso' t).plain (g' t) (q1 t) ((q2 t).trans hg1)
    refine ⟨r', w1, fun d hd i hi => ⟨means r' w1 d hd i hi, ?_⟩⟩
    have hgm : g ∈ m.fk.activeDims := by rw [hg]; simp
    have hgm' : ∀ t, g' t ∈ (m' t).fk.activeDims := fun t => by rw [q1 t]; simp
    have e1 : (fun t => ((r' t).2.getD d []).getD i 0) = fun t => max 0 ((m' t).fk.priorVar d (queryPoint P Qs d i) - ∑ p ∈ Finset.range (gridSize (m.axesOf g.1)),
        gridWeight (m.axesOf g.1) (coords g.1 (queryPoint P Qs d i)) p * (m' t).fk.gridExplained (m' t).axesOf (m' t).fk.extraOf (g' t) m.gp.Xs d p) * (normOf m.gp d).1 ^ 2 := by
      funext t
      rw [w2 t d (by rw [R.tends.outputs]; exact hd) i hi, R.gp t, q2 t, R.axes t g.1 (List.mem_map_of_mem hgm)]
    rw [e1, v2 d hd i hi]
    refine (tendsto_const_nhds.max ((R.priorVar hd _).sub (tendsto_finsetSum _ fun p _ => Tendsto.const_mul _ ?_))).mul_const _
    exact tends_quad R.skiMat hsk.det_pos.ne' (R.gridToData hgm hgm' q2 hd p) (R.gridToData hgm hgm' q2 hd p)

theorem logDet (hso : m.fk.Sound) : Tendsto (fun t => Real.log ((m' t).fk.covMat (m' t).gp.Xs).det) l (𝓝 (Real.log (m.fk.covMat m.gp.Xs).det)) := by
  have e1 : (fun t => Real.log ((m' t).fk.covMat (m' t).gp.Xs).det) = fun t => Real.log ((m' t).fk.covMat m.gp.Xs).det := by
    funext t
    rw [R.gp t]
  rw [e1]
  exact ((continuous_id.matrix_det.tendsto _).comp R.covMat).log (sound_posDef R.ok hso).det_pos.ne'

theorem quadratic {sv : Solvers} (hs : sv.Fit) (hx : sv.Exact) {k : LLKernel} {k' : ι → LLKernel} (hc : m.Current sv k) (hc' : ∀ t, (m' t).Current sv (k' t))
    (hso : m.fk.Sound) (hso' : ∀ t, (m' t).fk.Sound) (hn : ∀ ad ∈ m.fk.activeDims.map Prod.fst, ad.Nodup) :
    Tendsto (fun t => toVec (m' t).n (m' t).y ⬝ᵥ toVec (m' t).n (k' t).approx.alpha) l (𝓝 (toVec m.n m.y ⬝ᵥ toVec m.n k.approx.alpha)) := by
  have hn' : ∀ t, ∀ ad ∈ (m' t).fk.activeDims.map Prod.fst, ad.Nodup := fun t ad h => hn ad ((R.keys t).mem_iff.1 h)
  have hy : ∀ t, (m' t).y = m.y := fun t => by unfold LLGP.y; rw [R.gp]
  have e0 : toVec m.n m.y ⬝ᵥ toVec m.n k.approx.alpha = toVec (m.gp.Xs.map Arr2.rows).sum m.y ⬝ᵥ
      (m.fk.skiMat m.axesOf m.fk.extraOf m.gp.Xs)⁻¹ *ᵥ toVec (m.gp.Xs.map Arr2.rows).sum m.y := by
    rw [alpha_exact R.ok hc (exact_of_current hs hx R.ok hc hso hn _)]
    rfl
  have e1 : (fun t => toVec (m' t).n (m' t).y ⬝ᵥ toVec (m' t).n (k' t).approx.alpha) = fun t => toVec (m.gp.Xs.map Arr2.rows).sum m.y ⬝ᵥ
      ((m' t).fk.skiMat (m' t).axesOf (m' t).fk.extraOf m.gp.Xs)⁻¹ *ᵥ toVec (m.gp.Xs.map Arr2.rows).sum m.y := by
    funext t
    rw [alpha_exact (R.ok' t) (hc' t) (exact_of_current hs hx (R.ok' t) (hc' t) (hso' t) (hn' t) _), hy t]
    unfold LLGP.n
    rw [R.gp t]
  rw [e0, e1]
  exact tends_quad R.skiMat (R.ok.ski_posDef hso hn).det_pos.ne' tendsto_const_nhds tendsto_const_nhds

theorem numbers {sv : Solvers} (hs : sv.Fit) (hx : sv.Exact) {k : LLKernel} {k' : ι → LLKernel} (hc : m.Current sv k) (hc' : ∀ t, (m' t).Current sv (k' t))
    (hso : m.fk.Sound) (hso' : ∀ t, (m' t).fk.Sound) (hn : ∀ ad ∈ m.fk.activeDims.map Prod.fst, ad.Nodup) :
    ∃ (L : ExactLMC) (L' : ι → ExactLMC) (x y z : ℝ) (x' y' z' : ι → ℝ), m.dense = .ok L ∧ (∀ t, (m' t).dense = .ok (L' t)) ∧
      (∀ i < m.n, ∀ j < m.n, Tendsto (fun t => (L' t).K.get i j) l (𝓝 (L.K.get i j))) ∧
      (logDetOf L = some x ∧ (∀ t, logDetOf (L' t) = some (x' t)) ∧ Tendsto x' l (𝓝 x)) ∧
      (m.normalQuadratic = .ok y ∧ (∀ t, (m' t).normalQuadratic = .ok (y' t)) ∧ Tendsto y' l (𝓝 y)) ∧
      m.logLikelihoodOf L = .ok (some z) ∧ (∀ t, (m' t).logLikelihoodOf (L' t) = .ok (some (z' t))) ∧ Tendsto z' l (𝓝 z) := by
  have hpd := sound_posDef R.ok hso
  obtain ⟨L, hl, cl⟩ := (exactLMC_contents R.ok.ready R.ok.data).1 hpd
  choose L' hl' cl' using fun t => (exactLMC_contents (R.ok' t).ready (R.ok' t).data).1 (sound_posDef (R.ok' t) (hso' t))
  obtain ⟨q1, q2⟩ := C40_log_likelihood sv hs m P R.ok k hc _ hl
  have q' := fun t => C40_log_likelihood sv hs (m' t) P (R.ok' t) (k' t) (hc' t) _ (hl' t)
  have hn1 : ∀ t, (m' t).n = m.n := fun t => by unfold LLGP.n; rw [R.gp]
  have hdet := R.logDet hso
  have hq := R.quadratic hs hx hc hc' hso hso' hn
  have hll := (((hdet.add hq).add_const (m.n * Real.log (2 * Real.pi))).const_mul (-(1 / 2)))
  refine ⟨L, L', _, _, _, _, _, _, hl, hl', fun i hi j hj => ?_, ⟨logDet_ok R.ok hl, fun t => logDet_ok (R.ok' t) (hl' t), hdet⟩, ⟨q1, fun t => (q' t).1, hq⟩, q2, fun t => ?_, hll⟩
  · have e1 : ∀ t, (L' t).K.get i j = (m' t).fk.fullCov m.gp.Xs i j := by
      intro t
      rw [(cl' t).K, R.gp t]
      exact Arr2.of_get hi hj
    have e2 : L.K.get i j = m.fk.fullCov m.gp.Xs i j := by
      rw [cl.K]
      exact Arr2.of_get hi hj
    simp only [e1, e2]
    exact R.fullCov hi hj
  · rw [(q' t).2, hn1 t]

end NearFunction

end Verif
