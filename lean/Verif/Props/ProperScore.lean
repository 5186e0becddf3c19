import Verif.Spec.ProperScore
import Verif.Proofs.LikelihoodNear
import Verif.Proofs.Gibbs
import Verif.Props.CalibrationDraws
import Verif.Props.Stretched
import Verif.Props.Grids

/-! C108: the mean of the log likelihood is greatest at the parameters the data were drawn with. -/

namespace Verif

open MeasureTheory ProbabilityTheory Matrix

section
variable {Ω : Type} [MeasurableSpace Ω] {μ : Measure Ω} {fk : FK} {Xs : List (Arr2 ℝ)} {Y : Ω → List (NDArr ℝ)}

/-- the square of a linear combination of the observations -/
theorem FK.Generates.square (h : fk.Generates Xs μ Y) (hp : (fk.covMat Xs).PosSemidef) (c : Fin (Xs.map Arr2.rows).sum → ℝ) :
    Integrable (fun ω => (c ⬝ᵥ toVec (Xs.map Arr2.rows).sum ((Y ω).map NDArr.data).flatten) ^ 2) μ ∧
    ∫ ω, (c ⬝ᵥ toVec (Xs.map Arr2.rows).sum ((Y ω).map NDArr.data).flatten) ^ 2 ∂μ = c ⬝ᵥ fk.covMat Xs *ᵥ c := by
  set t : ℕ → ℝ := fun r => if hr : r < (Xs.map Arr2.rows).sum then c ⟨r, hr⟩ else 0 with ht
  have t1 : ∀ r : Fin (Xs.map Arr2.rows).sum, t r = c r := fun r => by rw [ht]; simp [r.2]
  have hl := h.normal t
  have e1 : (fun ω => ∑ r ∈ Finset.range (Xs.map Arr2.rows).sum, t r * ((Y ω).map NDArr.data).flatten.getD r 0) = fun ω => c ⬝ᵥ toVec (Xs.map Arr2.rows).sum ((Y ω).map NDArr.data).flatten := by
    funext ω
    rw [Finset.sum_range]
    unfold dotProduct
    refine Finset.sum_congr rfl fun r _ => ?_
    show t r * _ = _
    rw [t1]
    rfl
  have e2 : ∑ r ∈ Finset.range (Xs.map Arr2.rows).sum, ∑ s ∈ Finset.range (Xs.map Arr2.rows).sum, t r * t s * fk.fullCov Xs r s = c ⬝ᵥ fk.covMat Xs *ᵥ c := by
    rw [Finset.sum_range]
    unfold dotProduct mulVec dotProduct
    refine Finset.sum_congr rfl fun r _ => ?_
    rw [Finset.sum_range, Finset.mul_sum]
    refine Finset.sum_congr rfl fun s _ => ?_
    show t r * t s * _ = _
    rw [t1, t1]
    show c r * c s * fk.covMat Xs r s = _
    ring
  rw [e1, e2] at hl
  obtain ⟨i, e⟩ := law_square hl
  refine ⟨i, e.trans (Real.coe_toNNReal _ ?_)⟩
  have := hp.dotProduct_mulVec_nonneg c
  simpa using this

/-- the mean of a quadratic form of the observations -/
theorem FK.Generates.quadratic (h : fk.Generates Xs μ Y) (hp : (fk.covMat Xs).PosSemidef) {A : Matrix (Fin (Xs.map Arr2.rows).sum) (Fin (Xs.map Arr2.rows).sum) ℝ} (hA : A.PosDef) :
    Integrable (fun ω => toVec (Xs.map Arr2.rows).sum ((Y ω).map NDArr.data).flatten ⬝ᵥ A *ᵥ toVec (Xs.map Arr2.rows).sum ((Y ω).map NDArr.data).flatten) μ ∧
    ∫ ω, toVec (Xs.map Arr2.rows).sum ((Y ω).map NDArr.data).flatten ⬝ᵥ A *ᵥ toVec (Xs.map Arr2.rows).sum ((Y ω).map NDArr.data).flatten ∂μ = (A * fk.covMat Xs).trace := by
  obtain ⟨U, -, -, hU⟩ := exists_cholesky _ A hA
  have e : (fun ω => toVec (Xs.map Arr2.rows).sum ((Y ω).map NDArr.data).flatten ⬝ᵥ A *ᵥ toVec (Xs.map Arr2.rows).sum ((Y ω).map NDArr.data).flatten) =
      fun ω => ∑ k, (U k ⬝ᵥ toVec (Xs.map Arr2.rows).sum ((Y ω).map NDArr.data).flatten) ^ 2 := by
    funext ω
    rw [← hU, ← mulVec_mulVec, dotProduct_mulVec, vecMul_transpose]
    unfold dotProduct
    refine Finset.sum_congr rfl fun k _ => ?_
    rw [sq]
    rfl
  rw [e]
  refine ⟨integrable_finsetSum _ fun k _ => (h.square hp (U k)).1, ?_⟩
  rw [integral_finsetSum _ fun k _ => (h.square hp (U k)).1]
  simp only [(h.square hp _).2]
  rw [← hU, Matrix.mul_assoc, trace_mul_comm]
  unfold Matrix.trace
  refine Finset.sum_congr rfl fun k _ => ?_
  rw [dotProduct_mulVec]
  rfl

end

/-- a program with grids of at least `N` cells is one with grids of at least fewer cells -/
theorem Replies.coarser {P : ℕ} {fk : FK} {Xs : List (NDArr ℝ)} {lo hi : GridOpt} {N N' : ℕ} {Ys : List (NDArr ℝ)} {q : Query} {ans : Answer} (h : Replies P fk Xs lo hi N Ys q ans) (hN : N' ≤ N) :
    Replies P fk Xs lo hi N' Ys q ans := by
  obtain ⟨sv, ops, i, a, m, e, h1, h2, h3, h4, h5, h6, h7, h8, h9, h10, h11⟩ := h
  exact ⟨sv, ops, i, a, m, e, h1, h2, h3, h4, h5, h6, h7, h8, h9, fun c hc k hk => hN.trans (h10 c hc k hk), h11⟩

theorem Replies.inputs {P : ℕ} {fk : FK} {Xs : List (NDArr ℝ)} {lo hi : GridOpt} {N : ℕ} {Ys : List (NDArr ℝ)} {q : Query} {ans : Answer} (h : Replies P fk Xs lo hi N Ys q ans)
    (hr : fk.Regular P) : (padded P Xs).length = fk.D := by
  obtain ⟨sv, ops, i, a, m, e, hs, hx, h, he, rfl, -, -, -, -, -, h7, -, -⟩ := h
  obtain ⟨k, f1, f2, f3, f4, f5, f6, f7⟩ := h.facts hs
  have hP' : m.gp.inputDim = P := by
    have := f5.ready.input
    rw [h7, hr.ready.input] at this
    exact (Option.some.inj this).symm
  rw [hP'] at f1
  rw [← (MadeFrom.scale f1).1, ← h7]
  exact f5.data.inputs.len

/-- the mean of the log density of the observations under `fk`, if they are drawn from `truth` -/
noncomputable def FK.meanLik (truth fk : FK) (Xs : List (Arr2 ℝ)) : ℝ :=
  -(1 / 2) * (((fk.covMat Xs)⁻¹ * truth.covMat Xs).trace + Real.log (fk.covMat Xs).det + (Xs.map Arr2.rows).sum * Real.log (2 * Real.pi))

/-- with fine enough grids the mean of the reported log likelihood is near that of the exact one -/
theorem mean_likelihood (P : ℕ) (hP : 0 < P) (truth fk : FK) (hT : truth.Regular P) (hr : fk.Regular P) (hD : truth.D = fk.D) (Xs : List (NDArr ℝ)) (lo hi : GridOpt) (ε : ℝ) (hε : 0 < ε) :
    ∃ N, 0 < N ∧ ∀ {Ω : Type} [MeasurableSpace Ω] (μ : Measure Ω) (Y : Ω → List (NDArr ℝ)) (v : Ω → ℝ), truth.Generates (padded P Xs) μ Y →
      (∀ᵐ ω ∂μ, Replies P fk Xs lo hi N (Y ω) .logLikelihood (.extended (some (v ω)))) → AEStronglyMeasurable v μ →
      (padded P Xs).length = fk.D ∧ Integrable v μ ∧ |∫ ω, v ω ∂μ - truth.meanLik fk (padded P Xs)| ≤ ε := by
  set n := ((padded P Xs).map Arr2.rows).sum with hn
  set B := n * ∑ t, truth.covMat (padded P Xs) t t with hB
  set η := ε / (|B| + 1) with hη
  have hη0 : 0 < η := by positivity
  obtain ⟨N, hN, H⟩ := likelihood_near hP hr Xs lo hi hη0
  refine ⟨N, hN, fun {Ω} _ μ Y v hg hrep hmeas => ?_⟩
  have hμ : IsProbabilityMeasure μ := law_probability (hg.normal 0)
  have near := hrep.mono fun ω hω => H (Y ω) (v ω) hω
  have hX : (padded P Xs).length = fk.D := near.exists.choose_spec.1
  have hK := covMat_posDef hr.ready.wf hX hr.sound.kernels hr.sound.kappa hr.sound.noise
  have hK' := (covMat_posDef hT.ready.wf (hX.trans hD.symm) hT.sound.kernels hT.sound.kappa hT.sound.noise).posSemidef
  obtain ⟨iq, eq⟩ := hg.quadratic hK' hK.inv
  set S : Ω → ℝ := fun ω => ∑ t, |toVec n ((Y ω).map NDArr.data).flatten t| with hS
  have sq1 : ∀ t : Fin n, Integrable (fun ω => toVec n ((Y ω).map NDArr.data).flatten t ^ 2) μ ∧ ∫ ω, toVec n ((Y ω).map NDArr.data).flatten t ^ 2 ∂μ = truth.covMat (padded P Xs) t t := fun t => by
    have := hg.square hK' (Pi.single t 1)
    simp only [single_one_dotProduct, mulVec_single_one] at this
    exact this
  have hS2 : ∀ ω, S ω ^ 2 ≤ n * ∑ t, toVec n ((Y ω).map NDArr.data).flatten t ^ 2 := fun ω => by
    have := sq_sum_le_card_mul_sum_sq (s := Finset.univ) (f := fun t => |toVec n ((Y ω).map NDArr.data).flatten t|)
    rw [Finset.card_univ, Fintype.card_fin] at this
    simpa only [sq_abs] using this
  have iy : Integrable (fun ω => n * ∑ t, toVec n ((Y ω).map NDArr.data).flatten t ^ 2) μ := (integrable_finsetSum _ fun t _ => (sq1 t).1).const_mul _
  have ey : ∫ ω, n * ∑ t, toVec n ((Y ω).map NDArr.data).flatten t ^ 2 ∂μ = B := by
    rw [integral_const_mul, integral_finsetSum _ fun t _ => (sq1 t).1]
    simp only [(sq1 _).2]
    rw [hB]
  set l : Ω → ℝ := fun ω => fk.logLik (padded P Xs) ((Y ω).map NDArr.data) with hl
  have el : l = fun ω => -(1 / 2) * (toVec n ((Y ω).map NDArr.data).flatten ⬝ᵥ (fk.covMat (padded P Xs))⁻¹ *ᵥ toVec n ((Y ω).map NDArr.data).flatten +
      (Real.log (fk.covMat (padded P Xs)).det + n * Real.log (2 * Real.pi))) := by
    funext ω
    rw [hl]
    rw [← add_assoc]
    rfl
  have il : Integrable l μ := by
    rw [el]
    exact (iq.add (integrable_const _)).const_mul _
  have eil : ∫ ω, l ω ∂μ = truth.meanLik fk (padded P Xs) := by
    rw [el, integral_const_mul, integral_add iq (integrable_const _), eq, integral_const]
    unfold FK.meanLik
    simp only [probReal_univ, one_smul]
    ring
  have hb : ∀ᵐ ω ∂μ, ‖v ω - l ω‖ ≤ η * (n * ∑ t, toVec n ((Y ω).map NDArr.data).flatten t ^ 2) := by
    filter_upwards [near] with ω hω
    rw [hl]
    exact hω.2.trans (mul_le_mul_of_nonneg_left (hS2 ω) hη0.le)
  have ib := iy.const_mul η
  have id' : Integrable (fun ω => v ω - l ω) μ := ib.mono' (hmeas.sub il.aestronglyMeasurable) hb
  have iv : Integrable v μ := (id'.add il).congr (ae_of_all _ fun ω => by simp)
  refine ⟨hX, iv, ?_⟩
  rw [← eil, ← integral_sub iv il]
  refine (norm_integral_le_of_norm_le ib hb).trans ?_
  rw [integral_const_mul, ey, hη, div_mul_eq_mul_div, div_le_iff₀ (by positivity)]
  exact mul_le_mul_of_nonneg_left ((le_abs_self B).trans (by linarith)) hε.le

/-- the divergence is the difference of the means, is not negative, and is zero only if the two models give all pairs of observations the same covariances -/
theorem C108_divergence (P : ℕ) (truth fk : FK) (hT : truth.Regular P) (hr : fk.Regular P) (Xs : List (Arr2 ℝ)) (hX : Xs.length = fk.D) (hX' : Xs.length = truth.D) :
    0 ≤ truth.divergence fk Xs ∧ (truth.divergence fk Xs = 0 ↔ ∀ r < (Xs.map Arr2.rows).sum, ∀ s < (Xs.map Arr2.rows).sum, fk.fullCov Xs r s = truth.fullCov Xs r s) := by
  have hK := covMat_posDef hr.ready.wf hX hr.sound.kernels hr.sound.kappa hr.sound.noise
  have hK' := covMat_posDef hT.ready.wf hX' hT.sound.kernels hT.sound.kappa hT.sound.noise
  obtain ⟨g1, g2⟩ := gibbs hK hK'
  unfold FK.divergence
  refine ⟨by positivity, ?_⟩
  rw [div_eq_zero_iff, or_iff_left (two_ne_zero (α := ℝ)), g2]
  constructor
  · intro h r hr s hs
    exact congrFun (congrFun h ⟨r, hr⟩) ⟨s, hs⟩
  · intro h
    ext r s
    exact h r r.2 s s.2

/-- C108: with fine enough grids the mean log likelihood of a model with the parameters that the data were drawn with exceeds that of a model with any other parameters by
the divergence of the two, up to any given precision. -/
theorem C108_proper (P : ℕ) (hP : 0 < P) (truth fk : FK) (hT : truth.Regular P) (hr : fk.Regular P) (hD : truth.D = fk.D) (Xs : List (NDArr ℝ)) (lo hi : GridOpt) (ε : ℝ) (hε : 0 < ε) :
    ∃ N, 0 < N ∧ ∀ {Ω : Type} [MeasurableSpace Ω] (μ : Measure Ω) (Y : Ω → List (NDArr ℝ)) (v w : Ω → ℝ), truth.Generates (padded P Xs) μ Y →
      (∀ᵐ ω ∂μ, Replies P truth Xs lo hi N (Y ω) .logLikelihood (.extended (some (v ω)))) →
      (∀ᵐ ω ∂μ, Replies P fk Xs lo hi N (Y ω) .logLikelihood (.extended (some (w ω)))) → AEStronglyMeasurable v μ → AEStronglyMeasurable w μ →
      Integrable v μ ∧ Integrable w μ ∧ |∫ ω, v ω ∂μ - ∫ ω, w ω ∂μ - truth.divergence fk (padded P Xs)| ≤ ε := by
  obtain ⟨N1, h1, H1⟩ := mean_likelihood P hP truth truth hT hT rfl Xs lo hi (ε / 2) (by positivity)
  obtain ⟨N2, h2, H2⟩ := mean_likelihood P hP truth fk hT hr hD Xs lo hi (ε / 2) (by positivity)
  refine ⟨max N1 N2, lt_max_of_lt_left h1, fun {Ω} _ μ Y v w hg hv hw mv mw => ?_⟩
  obtain ⟨a0, a1, a2⟩ := H1 μ Y v hg (hv.mono fun ω h => h.coarser (le_max_left _ _)) mv
  obtain ⟨-, b1, b2⟩ := H2 μ Y w hg (hw.mono fun ω h => h.coarser (le_max_right _ _)) mw
  refine ⟨a1, b1, ?_⟩
  have hK' := covMat_posDef hT.ready.wf a0 hT.sound.kernels hT.sound.kappa hT.sound.noise
  have e : truth.divergence fk (padded P Xs) = truth.meanLik truth (padded P Xs) - truth.meanLik fk (padded P Xs) := by
    unfold FK.divergence FK.meanLik
    rw [nonsing_inv_mul _ hK'.det_pos.ne'.isUnit, trace_one, Fintype.card_fin]
    ring
  rw [e]
  rw [abs_le] at *
  constructor <;> linarith

/-- C108: with fine enough grids no parameters have a greater mean log likelihood than those that the data were drawn with, up to any given precision, and parameters that give
some observations other covariances have a smaller one. -/
theorem C108_best (P : ℕ) (hP : 0 < P) (truth fk : FK) (hT : truth.Regular P) (hr : fk.Regular P) (hD : truth.D = fk.D) (Xs : List (NDArr ℝ)) (lo hi : GridOpt) :
    (∀ ε, 0 < ε → ∃ N, 0 < N ∧ ∀ {Ω : Type} [MeasurableSpace Ω] (μ : Measure Ω) (Y : Ω → List (NDArr ℝ)) (v w : Ω → ℝ), truth.Generates (padded P Xs) μ Y →
      (∀ᵐ ω ∂μ, Replies P truth Xs lo hi N (Y ω) .logLikelihood (.extended (some (v ω)))) →
      (∀ᵐ ω ∂μ, Replies P fk Xs lo hi N (Y ω) .logLikelihood (.extended (some (w ω)))) → AEStronglyMeasurable v μ → AEStronglyMeasurable w μ →
      ∫ ω, w ω ∂μ ≤ ∫ ω, v ω ∂μ + ε) ∧
    ((∃ r < ((padded P Xs).map Arr2.rows).sum, ∃ s < ((padded P Xs).map Arr2.rows).sum, fk.fullCov (padded P Xs) r s ≠ truth.fullCov (padded P Xs) r s) →
      ∃ N, 0 < N ∧ ∀ {Ω : Type} [MeasurableSpace Ω] (μ : Measure Ω) (Y : Ω → List (NDArr ℝ)) (v w : Ω → ℝ), truth.Generates (padded P Xs) μ Y →
      (∀ᵐ ω ∂μ, Replies P truth Xs lo hi N (Y ω) .logLikelihood (.extended (some (v ω)))) →
      (∀ᵐ ω ∂μ, Replies P fk Xs lo hi N (Y ω) .logLikelihood (.extended (some (w ω)))) → AEStronglyMeasurable v μ → AEStronglyMeasurable w μ →
      ∫ ω, w ω ∂μ < ∫ ω, v ω ∂μ) := by
  have hlen : ∀ {Ω : Type} [MeasurableSpace Ω] (μ : Measure Ω) (Y : Ω → List (NDArr ℝ)) (w : Ω → ℝ) (N : ℕ), truth.Generates (padded P Xs) μ Y →
      (∀ᵐ ω ∂μ, Replies P fk Xs lo hi N (Y ω) .logLikelihood (.extended (some (w ω)))) → (padded P Xs).length = fk.D := by
    intro Ω _ μ Y w N hg hw
    have hμ : IsProbabilityMeasure μ := law_probability (hg.normal 0)
    obtain ⟨ω, h⟩ := hw.exists
    exact h.inputs hr
  refine ⟨fun ε hε => ?_, fun hne => ?_⟩
  · obtain ⟨N, hN, H⟩ := C108_proper P hP truth fk hT hr hD Xs lo hi ε hε
    refine ⟨N, hN, fun {Ω} _ μ Y v w hg hv hw mv mw => ?_⟩
    obtain ⟨-, -, h3⟩ := H μ Y v w hg hv hw mv mw
    have hX := hlen μ Y w N hg hw
    have := (C108_divergence P truth fk hT hr _ hX (hX.trans hD.symm)).1
    linarith [(abs_le.1 h3).1]
  · by_cases hX : (padded P Xs).length = fk.D
    · have hdv := C108_divergence P truth fk hT hr _ hX (hX.trans hD.symm)
      have hpos : 0 < truth.divergence fk (padded P Xs) := lt_of_le_of_ne hdv.1 fun h => by
        obtain ⟨r, hr', s, hs, hrs⟩ := hne
        exact hrs (hdv.2.1 h.symm r hr' s hs)
      obtain ⟨N, hN, H⟩ := C108_proper P hP truth fk hT hr hD Xs lo hi (truth.divergence fk (padded P Xs) / 2) (by positivity)
      refine ⟨N, hN, fun {Ω} _ μ Y v w hg hv hw mv mw => ?_⟩
      obtain ⟨-, -, h3⟩ := H μ Y v w hg hv hw mv mw
      linarith [(abs_le.1 h3).1]
    · exact ⟨1, one_pos, fun {Ω} _ μ Y v w hg hv hw mv mw => absurd (hlen μ Y w 1 hg hw) hX⟩

/-- C108: for every model with sound parameters and all inputs there are observations that are drawn from it. -/
theorem C108_draws (fk : FK) (P : ℕ) (h : fk.Ready P) (hs : fk.Sound) (Xs : List (Arr2 ℝ)) (hX : Xs.length = fk.D) :
    ∃ Y : (Fin ((Xs.map Arr2.rows).sum + 1) → ℝ) → List (NDArr ℝ), fk.Generates Xs (standardNormals ((Xs.map Arr2.rows).sum + 1)) Y ∧ (∀ z, ∀ y ∈ Y z, y.WF ∧ y.shape.length = 1) ∧
      ∀ r < (Xs.map Arr2.rows).sum, ∀ s < (Xs.map Arr2.rows).sum, r ≠ s →
        ∀ᵐ z ∂standardNormals ((Xs.map Arr2.rows).sum + 1), ((Y z).map NDArr.data).flatten.getD r 0 ≠ ((Y z).map NDArr.data).flatten.getD s 0 := by
  obtain ⟨Y, new, h1, h2⟩ := C107_draws fk P h hs Xs hX 0 h.wf.Dpos fun _ => 0
  refine ⟨Y, ⟨h1.lens, fun t => ?_⟩, h2, fun r hr s hs' hrs => h1.differ h.wf hs hX h.wf.Dpos hr hs' hrs⟩
  have := h1.normal fun r => if r < (Xs.map Arr2.rows).sum then t r else 0
  have e1 : (fun z => ∑ r ∈ Finset.range ((Xs.map Arr2.rows).sum + 1), (if r < (Xs.map Arr2.rows).sum then t r else 0) * (((Y z).map NDArr.data).flatten ++ [new z]).getD r 0) =
      fun z => ∑ r ∈ Finset.range (Xs.map Arr2.rows).sum, t r * ((Y z).map NDArr.data).flatten.getD r 0 := by
    funext z
    rw [Finset.sum_range_succ, if_neg (lt_irrefl _), zero_mul, add_zero]
    refine Finset.sum_congr rfl fun r hr => ?_
    rw [if_pos (Finset.mem_range.1 hr), List.getD_append _ _ _ _ (by rw [h1.length]; exact Finset.mem_range.1 hr)]
  have e2 : ∑ r ∈ Finset.range ((Xs.map Arr2.rows).sum + 1), ∑ s ∈ Finset.range ((Xs.map Arr2.rows).sum + 1),
      (if r < (Xs.map Arr2.rows).sum then t r else 0) * (if s < (Xs.map Arr2.rows).sum then t s else 0) * fk.covNew Xs 0 (fun _ => 0) r s =
      ∑ r ∈ Finset.range (Xs.map Arr2.rows).sum, ∑ s ∈ Finset.range (Xs.map Arr2.rows).sum, t r * t s * fk.fullCov Xs r s := by
    rw [Finset.sum_range_succ, if_neg (lt_irrefl _)]
    simp only [zero_mul, Finset.sum_const_zero, add_zero]
    refine Finset.sum_congr rfl fun r hr => ?_
    rw [Finset.sum_range_succ, if_neg (lt_irrefl _), mul_zero, zero_mul, add_zero]
    refine Finset.sum_congr rfl fun s hs => ?_
    rw [if_pos (Finset.mem_range.1 hr), if_pos (Finset.mem_range.1 hs)]
    congr 1
    exact covNew_old fk Xs 0 _ ⟨r, Finset.mem_range.1 hr⟩ ⟨s, Finset.mem_range.1 hs⟩
  rwa [e1, e2] at this

/-- what a model tells about the log likelihood, as a function of its grids and its data -/
theorem tells_likelihood {sv : Solvers} (hs : sv.Fit) (hx : sv.Exact) {ops : List Op} {i : ℕ} {a : LLGPArgs} {m : LLGP} (h : Held sv ops i a m)
    (hn : ∀ ad ∈ m.fk.activeDims.map Prod.fst, ad.Nodup) {e : Env} (he : e.Works) {axes : List ℕ → List (List ℝ)} (ha : m.axesOf = axes) {Xs : List (Arr2 ℝ)} (hX : m.gp.Xs = Xs)
    {Ys : List (List ℝ)} (hY : m.gp.Ys = Ys) :
    Tells sv ops i .logLikelihood e (.extended (some (-(1 / 2) * (toVec (Xs.map Arr2.rows).sum Ys.flatten ⬝ᵥ (m.fk.skiMat axes m.fk.extraOf Xs)⁻¹ *ᵥ toVec (Xs.map Arr2.rows).sum Ys.flatten +
      Real.log (m.fk.covMat Xs).det + (Xs.map Arr2.rows).sum * Real.log (2 * Real.pi))))) := by
  subst ha hX hY
  obtain ⟨-, l, l1, -, l2⟩ := (C104_answers sv hs ops i a m h e he).2.2 hx hn
  have : l = -(1 / 2) * (toVec m.n m.y ⬝ᵥ (m.fk.skiMat m.axesOf m.fk.extraOf m.gp.Xs)⁻¹.mulVec (toVec m.n m.y) + Real.log (m.fk.covMat m.gp.Xs).det + m.n * Real.log (2 * Real.pi)) := by
    have e : m.densityWith (m.fk.fullCov m.gp.Xs) = -(1 / 2) * (toVec m.n m.y ⬝ᵥ (m.fk.covMat m.gp.Xs)⁻¹.mulVec (toVec m.n m.y) + Real.log (m.fk.covMat m.gp.Xs).det + m.n * Real.log (2 * Real.pi)) := rfl
    rw [e] at l2
    linarith
  rw [this] at l1
  exact l1

/-- the arguments of the example -/
noncomputable def drawnArgs (fk0 : FK) (N : ℕ) (y₀ y₁ y₂ y₃ : ℝ) : LLGPArgs :=
  ⟨drawnXs, [⟨[2], [y₀, y₁]⟩, ⟨[2], [y₂, y₃]⟩], false, .none, .none, gridChoice (some N), false, PredMode.onTheFly.name, 15, 1e-4, some fk0⟩

/-- parameters of two outputs, and the same ones with more noise; for every grid size the log likelihood that a program gets for the first, and one that changes the parameters of
its model gets for the second, is a fixed quadratic function of the observations -/
theorem exists_telling : ∃ truth fk : FK, truth.Regular 2 ∧ fk.Regular 2 ∧ truth.D = 2 ∧ fk.D = 2 ∧ fk.fullCov (padded 2 drawnXs) 0 0 = truth.fullCov (padded 2 drawnXs) 0 0 + 1 ∧
    ∀ N, 0 < N → ∀ f ∈ [truth, fk], ∃ (A : Matrix (Fin ((padded 2 drawnXs).map Arr2.rows).sum) (Fin ((padded 2 drawnXs).map Arr2.rows).sum) ℝ) (c : ℝ), ∀ y₀ y₁ y₂ y₃ : ℝ, y₀ ≠ y₁ → y₂ ≠ y₃ →
      Replies 2 f drawnXs .none .none N [⟨[2], [y₀, y₁]⟩, ⟨[2], [y₂, y₃]⟩] .logLikelihood (.extended (some (-(1 / 2) *
        (toVec ((padded 2 drawnXs).map Arr2.rows).sum [y₀, y₁, y₂, y₃] ⬝ᵥ A *ᵥ toVec ((padded 2 drawnXs).map Arr2.rows).sum [y₀, y₁, y₂, y₃] + c)))) := by
  obtain ⟨fk0, ⟨hk, hκ, hn, hD, hL, -⟩, hdoc⟩ := exists_documented_grid
  obtain ⟨m1, -, o1, -, s1, d1, -, a1, l1, i1⟩ := model_of_documented (mode := .exact) (hdoc .exact false none (by simp)) rfl rfl hk hκ hn hD rfl
  have hr1 : m1.fk.Regular 2 := by
    refine ⟨o1.ready, o1.groups, s1, fun g hg => ?_, fun g hg => ?_⟩
    · rw [a1] at hg
      simp only [List.mem_cons, List.not_mem_nil, or_false] at hg
      subst hg
      simp
    · rw [a1] at hg
      simp only [List.mem_cons, List.not_mem_nil, or_false] at hg
      subst hg
      rintro ⟨-, h | h⟩
      · have := h 0 (by simp)
        unfold FK.IsIndep at this
        rw [l1, hL] at this
        omega
      · have := (h 0 (by simp)).1
        rw [l1, hL] at this
        omega
  have w := hr1.ready.wf
  have hnoise : ∀ a < m1.fk.D, (m1.fk.noise.map (· + 1)).getD a 0 = m1.fk.noise.getD a 0 + 1 := fun a ha => map_getD_lt (by rw [w.noise]; exact ha) _ _ _
  have hre : m1.fk.Retuned { m1.fk with noise := m1.fk.noise.map (· + 1) } :=
    ⟨⟨w.Dpos, w.vecs, w.diags, by rw [List.length_map]; exact w.noise, w.counts, w.vec, w.diag, w.slfm, w.slfmRank, w.indep⟩, rfl, rfl, rfl, rfl, rfl, rfl, rfl, rfl, rfl, fun _ _ => rfl,
      hr1.ready.valid⟩
  have hs2 : FK.Sound { m1.fk with noise := m1.fk.noise.map (· + 1) } := ⟨s1.kernels, s1.plain, s1.kappa, fun a ha => by
    show 0 < (m1.fk.noise.map (· + 1)).getD a 0
    rw [hnoise a ha]
    have := s1.noise a ha
    linarith⟩
  have hr2 : FK.Regular { m1.fk with noise := m1.fk.noise.map (· + 1) } 2 :=
    ⟨⟨hre.wf, hr1.ready.kernel, hr1.ready.input, hr1.ready.Ppos, hr1.ready.valid, hr1.ready.dims, hr1.ready.bound⟩, ⟨hr1.groups.P, hr1.groups.nodup, hr1.groups.group, hr1.groups.lmc,
      hr1.groups.indep, hr1.groups.members⟩, hs2, hr1.nodup, hr1.clean⟩
  have hd : ∀ N, 0 < N → ∀ y₀ y₁ y₂ y₃ : ℝ, y₀ ≠ y₁ → y₂ ≠ y₃ → (drawnArgs fk0 N y₀ y₁ y₂ y₃).Documented 2 fk0 := by
    intro N hN y₀ y₁ y₂ y₃ h1 h2
    have hd := documented_with_data (hdoc .onTheFly false (some N) (by simp; omega)) (Xs := drawnXs) (Ys := [⟨[2], [y₀, y₁]⟩, ⟨[2], [y₂, y₃]⟩])
      ⟨by simp [drawnXs], rfl, fun d hd => by
          have : d < 2 := hd
          interval_cases d
          · exact ⟨2, rfl, .inr rfl⟩
          · exact ⟨2, rfl, .inr rfl⟩, fun Y hY => .inr (by
          simp only [List.mem_cons, List.not_mem_nil, or_false] at hY
          rcases hY with rfl | rfl
          · exact sd_pair h1
          · exact sd_pair h2)⟩
      (fun X hX => by
        simp only [drawnXs, List.mem_cons, List.not_mem_nil, or_false] at hX
        rcases hX with rfl | rfl <;> rfl)
      (fun Y hY => by
        simp only [List.mem_cons, List.not_mem_nil, or_false] at hY
        rcases hY with rfl | rfl <;> exact ⟨rfl, by simp⟩) rfl
      (fun c hc => ⟨⟨2, 2, [0, 0, 1, 1]⟩, by simp [drawn_padded], 0, by norm_num, ⟨2, 2, [0, 0, 1, 1]⟩, by simp [drawn_padded], 1, by norm_num, by
        interval_cases c <;> norm_num [Arr2.get]⟩)
    exact ⟨hd.data, hd.arraysX, hd.arraysY, hd.filled, hd.kernel, hd.fresh, hd.wf, hd.some, hd.outputs, hd.valid, hd.dims, hd.mode, hd.lo, hd.hi, hd.m, hd.sizes, hd.spread⟩
  have hex : exactSolvers.Exact := fun K n A tol hK _ => exactSolvers_exact hK tol
  -- a program for each of the two
  have hprog : ∀ N, 0 < N → ∀ f ∈ [m1.fk, { m1.fk with noise := m1.fk.noise.map (· + 1) }], ∀ y₀ y₁ y₂ y₃ : ℝ, y₀ ≠ y₁ → y₂ ≠ y₃ →
      ∃ ops m, Held exactSolvers ops 0 (drawnArgs fk0 N y₀ y₁ y₂ y₃) m ∧ m.fk = f := by
    intro N hN f hf y₀ y₁ y₂ y₃ h1 h2
    simp only [List.mem_cons, List.not_mem_nil, or_false] at hf
    rcases hf with rfl | rfl
    · obtain ⟨m, hm, e⟩ := held_new exactSolvers_fit (by norm_num) (hd N hN y₀ y₁ y₂ y₃ h1 h2) (by norm_num [drawnArgs]) rfl i1 s1
      exact ⟨_, m, hm, e⟩
    · obtain ⟨v, s, m, hm, e⟩ := set_program exactSolvers_fit (by norm_num) (hd N hN y₀ y₁ y₂ y₃ h1 h2) (by norm_num [drawnArgs]) i1 s1 hre hs2
      exact ⟨_, m, ⟨v, hm, _, s⟩, e⟩
  refine ⟨m1.fk, _, hr1, hr2, d1, d1, ?_, fun N hN f hf => ?_⟩
  · unfold FK.fullCov
    simp only [if_true]
    have h0 : ownerOf ((padded 2 drawnXs).map Arr2.rows) 0 = 0 := by rw [drawn_padded]; rfl
    rw [h0, hnoise 0 (by rw [d1]; norm_num)]
    exact (add_assoc _ _ _).symm
  · have hreg : f.Regular 2 := by
      simp only [List.mem_cons, List.not_mem_nil, or_false] at hf
      rcases hf with rfl | rfl
      · exact hr1
      · exact hr2
    obtain ⟨ops0, m0, H0, f0⟩ := hprog N hN f hf 0 1 0 1 (by norm_num) (by norm_num)
    refine ⟨(f.skiMat m0.axesOf f.extraOf (padded 2 drawnXs))⁻¹, Real.log (f.covMat (padded 2 drawnXs)).det + ((padded 2 drawnXs).map Arr2.rows).sum * Real.log (2 * Real.pi), fun y₀ y₁ y₂ y₃ h1 h2 => ?_⟩
    obtain ⟨ops, m, H, rfl⟩ := hprog N hN f hf y₀ y₁ y₂ y₃ h1 h2
    obtain ⟨k, x1, x2, x3, x4, x5, x6, x7⟩ := H.facts exactSolvers_fit
    obtain ⟨k', z1, z2, z3, z4, z5, z6, z7⟩ := H0.facts exactSolvers_fit
    have hP : m.gp.inputDim = 2 := by
      have := x5.ready.input
      rw [hreg.ready.input] at this
      exact (Option.some.inj this).symm
    have hP0 : m0.gp.inputDim = 2 := by
      have := z5.ready.input
      rw [f0, hreg.ready.input] at this
      exact (Option.some.inj this).symm
    have hax : m.axesOf = m0.axesOf := C103_same_range exactSolvers exactSolvers_fit _ _ 0 0 _ _ m0 m H0 H (by rw [hP, hP0]) (by rw [f0]) fun c hc L U n r => ⟨r.low, r.high, r.given, r.default⟩
    rw [hP] at x1
    obtain ⟨u1, u2, u3⟩ := MadeFrom.scale x1
    have hY : m.gp.Ys = [[y₀, y₁], [y₂, y₃]] := by
      rw [u3]
      simp [drawnArgs, LLGPArgs.scaleOf, LLGPArgs.centreOf]
    have hc : (drawnArgs fk0 N y₀ y₁ y₂ y₃).Cells 2 N := by
      intro c hc n hn
      have hn : ([(N : ℝ), N] : List ℝ).getD c 0 = n := hn
      have : (N : ℝ) = n := by interval_cases c <;> exact hn
      exact le_of_eq (by exact_mod_cast this)
    have ht := tells_likelihood exactSolvers_fit hex H (fun ad had => by
      obtain ⟨g, hg, rfl⟩ := List.mem_map.1 had
      exact hreg.nodup g hg) quiet_calm.1 hax u1 hY
    rw [add_assoc] at ht
    exact ⟨exactSolvers, ops, 0, _, m, quiet, exactSolvers_fit, hex, H, quiet_calm.1, rfl, rfl, rfl, rfl, rfl, hc, rfl, fun h => absurd rfl h, ht⟩

/-- C108 applies: for some size of the grids, the mean log likelihood under parameters with too much noise is smaller than that under the parameters of the data -/
example : ∃ (truth fk : FK) (N n : ℕ) (Y : (Fin n → ℝ) → List (NDArr ℝ)) (v w : (Fin n → ℝ) → ℝ), truth.Generates (padded 2 drawnXs) (standardNormals n) Y ∧
    (∀ᵐ z ∂standardNormals n, Replies 2 truth drawnXs .none .none N (Y z) .logLikelihood (.extended (some (v z)))) ∧
    (∀ᵐ z ∂standardNormals n, Replies 2 fk drawnXs .none .none N (Y z) .logLikelihood (.extended (some (w z)))) ∧
    ∫ z, w z ∂standardNormals n < ∫ z, v z ∂standardNormals n := by
  obtain ⟨truth, fk, hT, hr, hD, hD', hne, H⟩ := exists_telling
  have hX : (padded 2 drawnXs).length = truth.D := by rw [hD, drawn_padded]; rfl
  obtain ⟨N, hN, HN⟩ := (C108_best 2 (by norm_num) truth fk hT hr (hD.trans hD'.symm) drawnXs .none .none).2
    ⟨0, by simp [drawn_padded], 0, by simp [drawn_padded], by rw [hne]; linarith⟩
  obtain ⟨Y, hg, hY, hdiff⟩ := C108_draws truth 2 hT.ready hT.sound (padded 2 drawnXs) hX
  have h01 := hdiff 0 (by simp [drawn_padded]) 1 (by simp [drawn_padded]) (by norm_num)
  have h23 := hdiff 2 (by simp [drawn_padded]) 3 (by simp [drawn_padded]) (by norm_num)
  have hall : ∀ z, ∃ y₀ y₁ y₂ y₃ : ℝ, Y z = [⟨[2], [y₀, y₁]⟩, ⟨[2], [y₂, y₃]⟩] := fun z => drawn_shape (hg.lens z) (hY z)
  have hmeas : ∀ t, AEMeasurable (fun z => toVec ((padded 2 drawnXs).map Arr2.rows).sum ((Y z).map NDArr.data).flatten t) (standardNormals (((padded 2 drawnXs).map Arr2.rows).sum + 1)) :=
    fun t => by
      have := law_aemeasurable (hg.normal fun r => if r = t then 1 else 0)
      simp only [ite_mul, one_mul, zero_mul] at this
      refine this.congr (ae_of_all _ fun z => ?_)
      simp only
      rw [Finset.sum_ite_eq' _ _ fun r => ((Y z).map NDArr.data).flatten.getD r 0, if_pos (Finset.mem_range.2 t.2)]
      rfl
  have key : ∀ f ∈ [truth, fk], ∃ v : (Fin (((padded 2 drawnXs).map Arr2.rows).sum + 1) → ℝ) → ℝ, AEStronglyMeasurable v (standardNormals (((padded 2 drawnXs).map Arr2.rows).sum + 1)) ∧
      ∀ᵐ z ∂standardNormals (((padded 2 drawnXs).map Arr2.rows).sum + 1), Replies 2 f drawnXs .none .none N (Y z) .logLikelihood (.extended (some (v z))) := by
    intro f hf
    obtain ⟨A, c, hA⟩ := H N hN f hf
    refine ⟨fun z => -(1 / 2) * (toVec ((padded 2 drawnXs).map Arr2.rows).sum ((Y z).map NDArr.data).flatten ⬝ᵥ A *ᵥ toVec ((padded 2 drawnXs).map Arr2.rows).sum ((Y z).map NDArr.data).flatten + c), ?_, ?_⟩
    · refine AEMeasurable.aestronglyMeasurable ?_
      unfold dotProduct mulVec dotProduct
      refine AEMeasurable.const_mul (AEMeasurable.add_const (Finset.aemeasurable_fun_sum _ fun r _ => ?_) _) _
      exact (hmeas r).mul (Finset.aemeasurable_fun_sum _ fun s _ => (hmeas s).const_mul _)
    · filter_upwards [h01, h23] with z z1 z2
      obtain ⟨y₀, y₁, y₂, y₃, e⟩ := hall z
      rw [e] at z1 z2 ⊢
      exact hA y₀ y₁ y₂ y₃ (by simpa using z1) (by simpa using z2)
  obtain ⟨v, v1, v2⟩ := key truth (by simp)
  obtain ⟨w, w1, w2⟩ := key fk (by simp)
  exact ⟨truth, fk, N, _, Y, v, w, hg, v2, w2, HN _ Y v w hg v2 w2 v1 w1⟩

end Verif
