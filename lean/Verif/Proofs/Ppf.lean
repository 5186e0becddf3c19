import Verif.Model.MultiGP

/-! The quantile function of the normal distribution. -/

namespace Verif

open ProbabilityTheory MeasureTheory Filter Topology Set
open scoped NNReal

theorem ppf_set_nonempty {p : ℝ} (h1 : p < 1) : {x | p ≤ cdf (gaussianReal 0 1) x}.Nonempty := by
  have := (tendsto_cdf_atTop (gaussianReal 0 1)).eventually (lt_mem_nhds h1)
  obtain ⟨x, hx⟩ := this.exists
  exact ⟨x, hx.le⟩

theorem ppf_set_bdd {p : ℝ} (h0 : 0 < p) : BddBelow {x | p ≤ cdf (gaussianReal 0 1) x} := by
  have := (tendsto_cdf_atBot (gaussianReal 0 1)).eventually (gt_mem_nhds h0)
  obtain ⟨x, hx⟩ := this.exists
  refine ⟨x, fun y hy => ?_⟩
  by_contra hlt
  exact absurd (hy.trans (monotone_cdf _ (not_le.1 hlt).le)) (not_le.2 hx)

/-- the quantile function inverts the distribution function -/
theorem cdf_ppf {p : ℝ} (h0 : 0 < p) (h1 : p < 1) : cdf (gaussianReal 0 1) (normPpf p) = p := by
  set F := cdf (gaussianReal 0 1) with hF
  set S := {x | p ≤ F x} with hS
  have hne : S.Nonempty := ppf_set_nonempty h1
  have hbd : BddBelow S := ppf_set_bdd h0
  have ha : normPpf p = sInf S := rfl
  apply le_antisymm
  · have hlim : F (normPpf p) = Function.leftLim F (normPpf p) := by
      have h2 := F.measure_singleton (normPpf p)
      haveI : NullSingletonClass (gaussianReal 0 1) := nullSingletonClass_gaussianReal one_ne_zero
      rw [hF, measure_cdf, measure_singleton] at h2
      have h3 := ENNReal.ofReal_eq_zero.1 h2.symm
      exact le_antisymm (by linarith) (F.mono.leftLim_le le_rfl)
    rw [hlim]
    have ht : Tendsto F (𝓝[<] normPpf p) (𝓝 (Function.leftLim F (normPpf p))) := F.mono.tendsto_leftLim _
    refine le_of_tendsto ht ?_
    filter_upwards [self_mem_nhdsWithin] with x hx
    by_contra hlt
    exact absurd (csInf_le hbd (show x ∈ S from (not_le.1 hlt).le)) (not_le.2 (ha ▸ hx))
  · have hr : Tendsto F (𝓝[>] normPpf p) (𝓝 (F (normPpf p))) :=
      (F.right_continuous (normPpf p)).tendsto.mono_left (nhdsWithin_mono _ Ioi_subset_Ici_self)
    refine ge_of_tendsto hr ?_
    filter_upwards [self_mem_nhdsWithin] with x hx
    obtain ⟨y, hy, hyx⟩ := exists_lt_of_csInf_lt hne (ha ▸ hx : sInf S < x)
    exact le_trans hy (F.mono hyx.le)

theorem ppf_strictMono {p q : ℝ} (h0 : 0 < p) (hpq : p < q) (h1 : q < 1) : normPpf p < normPpf q := by
  by_contra h
  have := monotone_cdf (gaussianReal 0 1) (not_lt.1 h)
  rw [cdf_ppf h0 (by linarith), cdf_ppf (by linarith) h1] at this
  linarith

/-- the quantile of a general normal distribution -/
theorem cdf_affine (m : ℝ) {v : ℝ} (hv : 0 < v) (z : ℝ) :
    cdf (gaussianReal m v.toNNReal) (m + Real.sqrt v * z) = cdf (gaussianReal 0 1) z := by
  have hs : 0 < Real.sqrt v := Real.sqrt_pos.2 hv
  have hmap : gaussianReal m v.toNNReal = (gaussianReal 0 1).map fun x => m + Real.sqrt v * x := by
    have : (fun x => m + Real.sqrt v * x) = (m + ·) ∘ (Real.sqrt v * ·) := rfl
    rw [this, ← Measure.map_map (by fun_prop) (by fun_prop), gaussianReal_map_const_mul, gaussianReal_map_const_add]
    congr 1
    · ring
    · ext
      simp [Real.sq_sqrt hv.le, hv.le]
  rw [cdf_eq_real, cdf_eq_real, hmap, map_measureReal_apply (by fun_prop) measurableSet_Iic]
  congr 1
  ext x
  simp only [mem_preimage, mem_Iic]
  constructor
  · intro h
    exact le_of_mul_le_mul_left (by linarith) hs
  · intro h
    have := mul_le_mul_of_nonneg_left h hs.le
    linarith

end Verif
