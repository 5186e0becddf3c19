import Verif.Spec.Kern
import Verif.Proofs.Interp
import Mathlib.Analysis.SpecialFunctions.Log.Deriv
import Mathlib.Analysis.SpecialFunctions.ExpDeriv
import Mathlib.Analysis.SpecialFunctions.Trigonometric.Deriv
import Mathlib.Tactic.LinearCombination
import Mathlib.Data.List.GetD

/-! C24, C26–C28: the kernels' values, gradients and hyperparameters. -/

namespace Verif

/-- the array shape a kernel result has -/
def outShape (a : NDArr ℝ) : List ℕ := if a.shape = [] then [1] else a.shape

theorem liftDist_congr {f g : ℝ → ℝ} (h : ∀ r, f r = g r) (d : DistArg) : liftDist f d = liftDist g d := by
  rw [show f = g from funext h]

theorem Kern.Valid.log {g T : ℝ} {a} (h : (Kern.stdPeriodic g T a).Valid) : ¬ Real.log T < -200 := by
  have hT : 0 < T := (Real.exp_pos _).trans h.2
  have := Real.log_lt_log (Real.exp_pos _) h.2
  rw [Real.log_exp] at this
  exact not_lt.2 this.le

theorem fromDist_arr : ∀ (k : Kern), k.Valid → ∀ (a : NDArr ℝ), a.shape ≠ [] →
    k.fromDist (.arr a) = .ok (.arr ⟨a.shape, a.data.map k.doc⟩)
  | .rbf g ad, h, a, ha => by
    simp only [Kern.fromDist, liftDist, if_neg ha, Kern.doc]
    congr 4; funext r; congr 1; norm_num; ring
  | .matern32 g ad, h, a, ha => by
    simp only [Kern.fromDist, liftDist, if_neg ha, Kern.doc]
    congr 4; funext r
    rw [show r * g * Real.sqrt 3 = r * Real.sqrt 3 * g by ring, show g * r * Real.sqrt 3 = r * Real.sqrt 3 * g by ring]
  | .stdPeriodic g T ad, h, a, ha => by
    simp only [Kern.fromDist, liftDist, if_neg ha, Kern.doc, if_neg h.log]
    congr 4; funext r
    rw [show Real.pi / T * r = Real.pi * r / T by ring]
    congr 1; norm_num; ring
  | .identity ad, h, a, ha => by
    simp only [Kern.fromDist, Kern.doc]
  | .scaled k s ad, h, a, ha => by
    simp only [Kern.fromDist, fromDist_arr k h.1 a ha, ok_bind, KVal.scale, liftDist, if_neg ha]
    simp [Kern.doc, pure, Except.pure, Function.comp_def]

theorem doc_hasDerivAt_rbf (g r : ℝ) :
    HasDerivAt (fun t => Real.exp (-t * r ^ 2 / 2)) (Real.exp (-g * r ^ 2 / 2) * -0.5 * r ^ 2) g := by
  have h : HasDerivAt (fun t : ℝ => -t * r ^ 2 / 2) (-1 * r ^ 2 / 2) g :=
    (((hasDerivAt_id g).neg).mul_const (r ^ 2)).div_const 2
  refine h.exp.congr_deriv ?_
  norm_num; ring

theorem doc_hasDerivAt_matern (g r : ℝ) :
    HasDerivAt (fun t => (1 + r * t * Real.sqrt 3) * Real.exp (-(t * r * Real.sqrt 3)))
      ((1 + r * Real.sqrt 3 * g) * (Real.exp (-(r * Real.sqrt 3 * g)) * -(r * Real.sqrt 3))
        + r * Real.sqrt 3 * Real.exp (-(r * Real.sqrt 3 * g))) g := by
  have h1 : HasDerivAt (fun t : ℝ => 1 + r * t * Real.sqrt 3) (r * 1 * Real.sqrt 3) g :=
    (((hasDerivAt_id g).const_mul r).mul_const _).const_add 1
  have h2 : HasDerivAt (fun t : ℝ => -(t * r * Real.sqrt 3)) (-(1 * r * Real.sqrt 3)) g :=
    (((hasDerivAt_id g).mul_const r).mul_const _).neg
  refine (h1.mul h2.exp).congr_deriv ?_
  rw [show g * r * Real.sqrt 3 = r * Real.sqrt 3 * g by ring]
  ring

theorem doc_hasDerivAt_periodic_g (g T r : ℝ) :
    HasDerivAt (fun t => Real.exp (-t / 2 * Real.sin (Real.pi * r / T) ^ 2))
      (Real.exp (-g / 2 * Real.sin (Real.pi * r / T) ^ 2) * -0.5 * Real.sin (Real.pi * r / T) ^ 2) g := by
  have h : HasDerivAt (fun t : ℝ => -t / 2 * Real.sin (Real.pi * r / T) ^ 2)
      (-1 / 2 * Real.sin (Real.pi * r / T) ^ 2) g :=
    (((hasDerivAt_id g).neg).div_const 2).mul_const _
  refine h.exp.congr_deriv ?_
  norm_num; ring

theorem doc_hasDerivAt_periodic_T (g T r : ℝ) (hT : T ≠ 0) :
    HasDerivAt (fun t => Real.exp (-g / 2 * Real.sin (Real.pi * r / t) ^ 2))
      (Real.exp (-g / 2 * Real.sin (Real.pi * r / T) ^ 2) * -1 * Real.sin (Real.pi * r / T) *
        (Real.cos (Real.pi * r / T) * (Real.pi * r / T) * (-1 / T * g))) T := by
  have h1 : HasDerivAt (fun t : ℝ => Real.pi * r / t) (-(Real.pi * r) / T ^ 2) T := by
    have := (hasDerivAt_const T (Real.pi * r)).div (hasDerivAt_id T) hT
    refine this.congr_deriv ?_
    simp
  have h2 := ((h1.sin.pow 2).const_mul (-g / 2)).exp
  refine h2.congr_deriv ?_
  simp only [Pi.pow_apply]
  field_simp
  rw [show (2 - 1 : ℕ) = 1 from rfl, pow_one, Nat.cast_ofNat]
  ring

/-- every kernel gradient array, and the derivative it holds -/
theorem gradient_arr : ∀ (k : Kern), k.Valid → ∀ (a : NDArr ℝ), a.shape ≠ [] →
    ∃ fs : List (ℝ → ℝ), k.kernelGradient (.arr a) = .ok (fs.map fun f => .arr ⟨a.shape, a.data.map f⟩) ∧
      fs.length = k.params.length ∧
      ∀ j < k.params.length, ∀ r, HasDerivAt (fun t => (k.setParam j t).doc r) (fs.getD j (fun _ => 0) r) (k.params.getD j 0)
  | .rbf g ad, h, a, ha => by
    refine ⟨[fun r => Real.exp (-g * r ^ 2 / 2) * -0.5 * r ^ 2], ?_, rfl, ?_⟩
    · simp only [Kern.kernelGradient, liftDist, if_neg ha, List.map_cons, List.map_nil]
      congr 5; funext r
      rw [show (-0.5 : ℝ) * r ^ 2 * g = -g * r ^ 2 / 2 by norm_num; ring]
    · intro j hj r
      obtain rfl : j = 0 := by simpa [Kern.params] using hj
      simpa [Kern.setParam, Kern.doc, Kern.params] using doc_hasDerivAt_rbf g r
  | .matern32 g ad, h, a, ha => by
    refine ⟨[fun r => (1 + r * Real.sqrt 3 * g) * (Real.exp (-(r * Real.sqrt 3 * g)) * -(r * Real.sqrt 3))
        + r * Real.sqrt 3 * Real.exp (-(r * Real.sqrt 3 * g))], ?_, rfl, ?_⟩
    · simp only [Kern.kernelGradient, liftDist, if_neg ha, List.map_cons, List.map_nil]
    · intro j hj r
      obtain rfl : j = 0 := by simpa [Kern.params] using hj
      simpa [Kern.setParam, Kern.doc, Kern.params] using doc_hasDerivAt_matern g r
  | .stdPeriodic g T ad, h, a, ha => by
    have hT : T ≠ 0 := ((Real.exp_pos _).trans h.2).ne'
    refine ⟨[fun r => Real.exp (-g / 2 * Real.sin (Real.pi * r / T) ^ 2) * -0.5 * Real.sin (Real.pi * r / T) ^ 2,
      fun r => Real.exp (-g / 2 * Real.sin (Real.pi * r / T) ^ 2) * -1 * Real.sin (Real.pi * r / T) *
        (Real.cos (Real.pi * r / T) * (Real.pi * r / T) * (-1 / T * g))], ?_, rfl, ?_⟩
    · simp only [Kern.kernelGradient, liftDist, if_neg ha, List.map_cons, List.map_nil]
      have e1 : ∀ r : ℝ, Real.pi / T * r = Real.pi * r / T := fun r => by ring
      have e2 : ∀ x : ℝ, -0.5 * x * g = -g / 2 * x := fun x => by norm_num; ring
      simp only [e1, e2]
    · intro j hj r
      have hj : j < 2 := by simpa [Kern.params] using hj
      interval_cases j
      · simpa [Kern.setParam, Kern.doc, Kern.params] using doc_hasDerivAt_periodic_g g T r
      · simpa [Kern.setParam, Kern.doc, Kern.params] using doc_hasDerivAt_periodic_T g T r hT
  | .identity ad, h, a, ha => by
    exact ⟨[], rfl, rfl, fun j hj => by simp [Kern.params] at hj⟩
  | .scaled k s ad, h, a, ha => by
    obtain ⟨fs, h1, h2, h3⟩ := gradient_arr k h.1 a ha
    refine ⟨fs.map (fun f r => s * f r) ++ [k.doc], ?_, by simp [Kern.params, h2], ?_⟩
    · simp only [Kern.kernelGradient, h1, ok_bind, fromDist_arr k h.1 a ha]
      simp [pure, Except.pure, KVal.scale, liftDist, ha, Function.comp_def]
    · intro j hj r
      have hj : j < k.params.length + 1 := by simpa [Kern.params] using hj
      by_cases hjk : j < k.params.length
      · have := h3 j hjk r
        have e : (fs.map (fun f r => s * f r) ++ [k.doc]).getD j (fun _ => 0) r = s * fs.getD j (fun _ => 0) r := by
          have hj' : j < fs.length := h2 ▸ hjk
          rw [List.getD_append _ _ _ _ (by simpa using hj')]
          simp [hj']
        rw [e]
        have e2 : (Kern.scaled k s ad).params.getD j 0 = k.params.getD j 0 := by
          simp only [Kern.params]
          rw [List.getD_append _ _ _ _ hjk]
        rw [e2]
        simpa [Kern.setParam, Kern.doc, hjk.ne] using this.const_mul s
      · obtain rfl : j = k.params.length := by omega
        have e : (fs.map (fun f r => s * f r) ++ [k.doc]).getD k.params.length (fun _ => 0) r = k.doc r := by
          rw [List.getD_append_right _ _ _ _ (by simp [h2])]
          simp [h2]
        have e2 : (Kern.scaled k s ad).params.getD k.params.length 0 = s := by
          simp only [Kern.params]
          rw [List.getD_append_right _ _ _ _ le_rfl]
          simp
        have e3 : ∀ (k : Kern) t, k.setParam k.params.length t = k := by
          intro k
          induction k with
          | scaled k s a ih =>
            intro t
            simp only [Kern.setParam, Kern.params, List.length_append, List.length_singleton]
            have : ∀ (k : Kern) (j : ℕ) t, k.params.length < j → k.setParam j t = k := by
              intro k
              induction k with
              | scaled k s a ih =>
                intro j t hj
                simp only [Kern.params, List.length_append, List.length_singleton] at hj
                simp only [Kern.setParam]
                rw [ih _ _ (by omega), if_neg (by omega)]
              | _ => intro j t hj; simp only [Kern.params, List.length_cons, List.length_nil] at hj; simp [Kern.setParam]; try omega
            rw [this _ _ _ (by omega), if_neg (by omega)]
          | _ => intro t; simp [Kern.setParam, Kern.params]
        rw [e, e2]
        simp only [Kern.setParam, Kern.doc, if_pos, e3]
        simpa using (hasDerivAt_id s).mul_const (k.doc r)

/-- `from_dist` of an array holds the documented `k(r)` of every entry, for every kernel and every nesting of `Scaled`. -/
theorem C24_from_dist_documented (k : Kern) (hk : k.Valid) (a : NDArr ℝ) (ha : a.shape ≠ []) :
    k.fromDist (.arr a) = .ok (.arr ⟨a.shape, a.data.map k.doc⟩) := fromDist_arr k hk a ha

theorem setParam_valid_nhds : ∀ (k : Kern), k.Valid → ∀ j, ∀ᶠ t in nhds (k.params.getD j 0), j < k.params.length → (k.setParam j t).Valid
  | .rbf g ad, h, j => by
    by_cases hj : j = 0
    · subst hj
      filter_upwards [lt_mem_nhds (show (0:ℝ) < (Kern.rbf g ad).params.getD 0 0 from h)] with t ht _
      simpa [Kern.setParam, Kern.Valid] using ht
    · exact Filter.Eventually.of_forall fun t hl => by simp [Kern.params] at hl; omega
  | .matern32 g ad, h, j => by
    by_cases hj : j = 0
    · subst hj
      filter_upwards [lt_mem_nhds (show (0:ℝ) < (Kern.matern32 g ad).params.getD 0 0 from h)] with t ht _
      simpa [Kern.setParam, Kern.Valid] using ht
    · exact Filter.Eventually.of_forall fun t hl => by simp [Kern.params] at hl; omega
  | .stdPeriodic g T ad, h, j => by
    by_cases hj : j = 0
    · subst hj
      filter_upwards [lt_mem_nhds (show (0:ℝ) < (Kern.stdPeriodic g T ad).params.getD 0 0 from h.1)] with t ht _
      simpa [Kern.setParam, Kern.Valid] using ⟨ht, h.2⟩
    · by_cases hj1 : j = 1
      · subst hj1
        filter_upwards [lt_mem_nhds (show Real.exp (-200) < (Kern.stdPeriodic g T ad).params.getD 1 0 from h.2)] with t ht _
        simpa [Kern.setParam, Kern.Valid] using ⟨h.1, ht⟩
      · exact Filter.Eventually.of_forall fun t hl => by simp [Kern.params] at hl; omega
  | .identity ad, h, j => Filter.Eventually.of_forall fun t hl => by simp [Kern.params] at hl
  | .scaled k s ad, h, j => by
    by_cases hj : j < k.params.length
    · have e2 : (Kern.scaled k s ad).params.getD j 0 = k.params.getD j 0 := by
        simp only [Kern.params]
        rw [List.getD_append _ _ _ _ hj]
      rw [e2]
      filter_upwards [setParam_valid_nhds k h.1 j] with t ht _
      simp only [Kern.setParam, Kern.Valid, if_neg hj.ne]
      exact ⟨ht hj, h.2⟩
    · by_cases hj1 : j = k.params.length
      · subst hj1
        have e2 : (Kern.scaled k s ad).params.getD k.params.length 0 = s := by
          simp only [Kern.params]
          rw [List.getD_append_right _ _ _ _ le_rfl]
          simp
        rw [e2]
        filter_upwards [lt_mem_nhds h.2] with t ht _
        simp only [Kern.setParam, Kern.Valid, if_pos]
        refine ⟨?_, ht⟩
        have : ∀ (k : Kern) (j : ℕ) t, k.params.length ≤ j → k.Valid → (k.setParam j t).Valid := by
          intro k
          induction k with
          | scaled k s a ih =>
            intro j t hj hv
            simp only [Kern.params, List.length_append, List.length_singleton] at hj
            simp only [Kern.setParam, Kern.Valid, if_neg (show j ≠ k.params.length by omega)]
            exact ⟨ih j t (by omega) hv.1, hv.2⟩
          | identity a => intros; trivial
          | rbf g a =>
            intro j t hj hv
            have : j ≠ 0 := by simp [Kern.params] at hj; omega
            simpa [Kern.setParam, this] using hv
          | matern32 g a =>
            intro j t hj hv
            have : j ≠ 0 := by simp [Kern.params] at hj; omega
            simpa [Kern.setParam, this] using hv
          | stdPeriodic g T a =>
            intro j t hj hv
            have h0 : j ≠ 0 := by simp [Kern.params] at hj; omega
            have h1 : j ≠ 1 := by simp [Kern.params] at hj; omega
            simpa [Kern.setParam, h0, h1] using hv
        exact this k _ t le_rfl h.1
      · exact Filter.Eventually.of_forall fun t hl => by simp [Kern.params] at hl; omega

/-- C24: `kernel_gradient(dists)` succeeds with one array per hyperparameter, each of the shape of `dists`, and entry `i` of
the `j`-th array is the derivative, with respect to the `j`-th hyperparameter, of entry `i` of `from_dist(dists)`. -/
theorem C24_gradient (k : Kern) (hk : k.Valid) (a : NDArr ℝ) (ha : a.shape ≠ []) :
    ∃ gs : List (NDArr ℝ), k.kernelGradient (.arr a) = .ok (gs.map .arr) ∧ gs.length = k.params.length ∧
      ∀ j < k.params.length, (gs.getD j ⟨[], []⟩).shape = a.shape ∧
        (gs.getD j ⟨[], []⟩).data.length = a.data.length ∧
        ∀ i < a.data.length,
          HasDerivAt (fun t => entryOf ((k.setParam j t).fromDist (.arr a)) i)
            ((gs.getD j ⟨[], []⟩).data.getD i 0) (k.params.getD j 0) := by
  obtain ⟨fs, h1, h2, h3⟩ := gradient_arr k hk a ha
  refine ⟨fs.map fun f => ⟨a.shape, a.data.map f⟩, by simpa [Function.comp_def] using h1, by simpa using h2, ?_⟩
  intro j hj
  have hj' : j < fs.length := h2 ▸ hj
  have e : (fs.map fun f => (⟨a.shape, a.data.map f⟩ : NDArr ℝ)).getD j ⟨[], []⟩ = ⟨a.shape, a.data.map (fs.getD j fun _ => 0)⟩ := by
    simp [hj']
  rw [e]
  refine ⟨rfl, by simp, fun i hi => ?_⟩
  have e2 : (a.data.map (fs.getD j fun _ => 0)).getD i 0 = fs.getD j (fun _ => 0) (a.data.getD i 0) := by
    simp [hi]
  simp only [e2]
  refine (h3 j hj (a.data.getD i 0)).congr_of_eventuallyEq ?_
  filter_upwards [setParam_valid_nhds k hk j] with t ht
  rw [fromDist_arr _ (ht hj) a ha]
  simp [entryOf, hi]

/-- the hypotheses are met: a twice scaled periodic kernel on three distances -/
example : ∃ gs : List (NDArr ℝ),
    (Kern.scaled (.scaled (.stdPeriodic 2 3 none) 5 none) 7 none).kernelGradient (.arr ⟨[3], [0, 1, 2]⟩) = .ok (gs.map .arr) ∧
      gs.length = 4 := by
  obtain ⟨gs, h1, h2, -⟩ := C24_gradient (.scaled (.scaled (.stdPeriodic 2 3 none) 5 none) 7 none)
    (by simp only [Kern.Valid]
        have : Real.exp (-200) < 1 := by rw [Real.exp_lt_one_iff]; norm_num
        norm_num
        linarith) ⟨[3], [0, 1, 2]⟩ (by simp)
  exact ⟨gs, h1, h2⟩

/-- Outside C24's range the code returns NaN instead of a value: a period below `exp(-200)`. -/
theorem C24_tiny_period_nan (g T : ℝ) (ad) (d : DistArg) (h0 : 0 < T) (hT : T < Real.exp (-200)) :
    (Kern.stdPeriodic g T ad).fromDist d = .ok .nan := by
  have : Real.log T < -200 := by
    rw [← Real.log_exp (-200)]
    exact Real.log_lt_log h0 hT
  simp [Kern.fromDist, this]

/-! ### C26 -/

/-- C26: `RBF`, `Matern32`, `StdPeriodic` and `Identity` have `k(0) = 1` and `0 ≤ k(d) ≤ 1` at every distance: entry `i` of
`from_dist(dists)` lies in `[0, 1]` and is 1 where the distance is 0. -/
theorem C26_normalised_bounded (k : Kern) (hp : k.plain) (hk : k.Valid) (a : NDArr ℝ) (ha : a.shape ≠ [])
    (hd : ∀ r ∈ a.data, 0 ≤ r) :
    ∃ v, k.fromDist (.arr a) = .ok (.arr ⟨a.shape, v⟩) ∧ v.length = a.data.length ∧
      ∀ i < a.data.length, 0 ≤ v.getD i 0 ∧ v.getD i 0 ≤ 1 ∧ (a.data.getD i 0 = 0 → v.getD i 0 = 1) := by
  refine ⟨_, fromDist_arr k hk a ha, by simp, fun i hi => ?_⟩
  have hr : 0 ≤ a.data.getD i 0 := by
    rw [List.getD_eq_getElem _ _ hi]
    exact hd _ (List.getElem_mem hi)
  have e : (a.data.map k.doc).getD i 0 = k.doc (a.data.getD i 0) := by simp [hi]
  rw [e]
  generalize a.data.getD i 0 = r at hr
  cases k with
  | scaled k s ad => exact hp.elim
  | rbf g ad =>
    have hg : 0 < g := hk
    refine ⟨(Real.exp_pos _).le, ?_, fun h => by simp [Kern.doc, h]⟩
    simp only [Kern.doc]
    rw [Real.exp_le_one_iff]
    have : 0 ≤ g * r ^ 2 := by positivity
    linarith
  | matern32 g ad =>
    have hg : 0 < g := hk
    have hx : 0 ≤ r * g * Real.sqrt 3 := by positivity
    simp only [Kern.doc]
    rw [show g * r * Real.sqrt 3 = r * g * Real.sqrt 3 by ring]
    refine ⟨by positivity, ?_, fun h => by simp [h]⟩
    generalize r * g * Real.sqrt 3 = x at hx
    rw [Real.exp_neg, ← div_eq_mul_inv, div_le_one (Real.exp_pos _)]
    linarith [Real.add_one_le_exp x]
  | stdPeriodic g T ad =>
    have hg : 0 < g := hk.1
    refine ⟨(Real.exp_pos _).le, ?_, fun h => by simp [Kern.doc, h]⟩
    simp only [Kern.doc]
    rw [Real.exp_le_one_iff]
    have : 0 ≤ g * Real.sin (Real.pi * r / T) ^ 2 := by positivity
    linarith
  | identity ad =>
    simp only [Kern.doc]
    split_ifs <;> simp_all

/-- C26: `RBF` and `Matern32` do not increase with the distance. -/
theorem C26_monotone (k : Kern) (hk : k.Valid)
    (hc : (∃ g ad, k = .rbf g ad) ∨ ∃ g ad, k = .matern32 g ad) (r r' : ℝ) (h0 : 0 ≤ r) (hr : r ≤ r') :
    ∃ v v', k.fromDist (.arr (.vec [r, r'])) = .ok (.arr ⟨[2], [v, v']⟩) ∧ v' ≤ v := by
  refine ⟨k.doc r, k.doc r', fromDist_arr k hk _ (by simp [NDArr.vec]), ?_⟩
  rcases hc with ⟨g, ad, rfl⟩ | ⟨g, ad, rfl⟩
  · have hg : 0 < g := hk
    simp only [Kern.doc]
    rw [Real.exp_le_exp]
    have : r ^ 2 ≤ r' ^ 2 := by nlinarith
    nlinarith
  · have hg : 0 < g := hk
    simp only [Kern.doc]
    rw [show g * r * Real.sqrt 3 = r * g * Real.sqrt 3 by ring, show g * r' * Real.sqrt 3 = r' * g * Real.sqrt 3 by ring]
    have hx : 0 ≤ r * g * Real.sqrt 3 := by positivity
    have hxy : r * g * Real.sqrt 3 ≤ r' * g * Real.sqrt 3 := by gcongr
    generalize r * g * Real.sqrt 3 = x at hx hxy
    generalize r' * g * Real.sqrt 3 = y at hxy
    -- (1 + y) e^{-y} ≤ (1 + x) e^{-x} because 1 + y ≤ (1 + x) e^{y - x}
    have h1 : 1 + y ≤ (1 + x) * Real.exp (y - x) := by
      have := Real.add_one_le_exp (y - x)
      nlinarith [mul_le_mul_of_nonneg_left this (show (0 : ℝ) ≤ 1 + x by linarith), mul_nonneg hx (sub_nonneg.2 hxy)]
    calc (1 + y) * Real.exp (-y) ≤ ((1 + x) * Real.exp (y - x)) * Real.exp (-y) := by gcongr
      _ = (1 + x) * Real.exp (-x) := by rw [mul_assoc, ← Real.exp_add]; congr 2; ring

/-- C26: `StdPeriodic` takes the same value at `r` and `r + n T`. -/
theorem C26_periodic (g T : ℝ) (ad) (hk : (Kern.stdPeriodic g T ad).Valid) (r : ℝ) (n : ℕ) :
    ∃ v, (Kern.stdPeriodic g T ad).fromDist (.arr (.vec [r, r + n * T])) = .ok (.arr ⟨[2], [v, v]⟩) := by
  refine ⟨(Kern.stdPeriodic g T ad).doc r, ?_⟩
  rw [fromDist_arr _ hk _ (by simp [NDArr.vec])]
  have hT : T ≠ 0 := ((Real.exp_pos _).trans hk.2).ne'
  have : Real.pi * (r + n * T) / T = Real.pi * r / T + n * Real.pi := by field_simp
  simp only [NDArr.vec, List.map_cons, List.map_nil, Kern.doc, this, List.length_cons, List.length_nil]
  rw [Real.sin_add_nat_mul_pi, mul_pow, ← pow_mul, mul_comm n 2, pow_mul]
  simp

/-- the hypotheses are met, with a non-trivial value in between -/
example : ∃ v, (Kern.matern32 2 none).fromDist (.arr (.vec [0, 1])) = .ok (.arr ⟨[2], v⟩) ∧ v.getD 0 0 = 1 := by
  obtain ⟨v, h1, -, h2⟩ := C26_normalised_bounded (.matern32 2 none) trivial (by norm_num [Kern.Valid]) (.vec [0, 1])
    (by simp [NDArr.vec]) (by simp [NDArr.vec])
  exact ⟨v, h1, (h2 0 (by simp [NDArr.vec])).2.2 (by simp [NDArr.vec])⟩

example : (Kern.stdPeriodic 1 2 none).Valid := by
  refine ⟨one_pos, ?_⟩
  have : Real.exp (-200) < 1 := by rw [Real.exp_lt_one_iff]; norm_num
  linarith

/-! ### C27 -/

/-- the kernel contains no `Identity` -/
def Kern.noIdentity : Kern → Prop
  | .identity _ => False
  | .scaled k _ _ => k.noIdentity
  | _ => True

/-- C27, the part that holds: `from_dist(r)` of a python number `r` returns the one-element array `[k(r)]`, for every kernel
without `Identity`, under any nesting of `Scaled`. Missing: `Identity`, for which the claim is false
(`C27_identity_scalar_raises`). -/
theorem C27_scalar_partial (k : Kern) (hk : k.Valid) (hi : k.noIdentity) (r : ℝ) :
    k.fromDist (.py r) = .ok (.arr (.vec [k.doc r])) := by
  induction k with
  | identity ad => exact hi.elim
  | rbf g ad =>
    simp only [Kern.fromDist, liftDist, Kern.doc, NDArr.vec, List.length_singleton]
    congr 5; norm_num; ring
  | matern32 g ad =>
    simp only [Kern.fromDist, liftDist, Kern.doc, NDArr.vec, List.length_singleton]
    rw [show r * g * Real.sqrt 3 = r * Real.sqrt 3 * g by ring, show g * r * Real.sqrt 3 = r * Real.sqrt 3 * g by ring]
  | stdPeriodic g T ad =>
    simp only [Kern.fromDist, liftDist, Kern.doc, NDArr.vec, List.length_singleton, if_neg hk.log]
    rw [show Real.pi / T * r = Real.pi * r / T by ring]
    congr 5; norm_num; ring
  | scaled k s ad ih =>
    simp only [Kern.fromDist, ih hk.1 hi, ok_bind]
    simp [pure, Except.pure, KVal.scale, liftDist, NDArr.vec, Kern.doc]

/-- C27 is false of `Identity`: the python number 0, which prediction passes, raises AttributeError; so does every
`Scaled` nesting of it. A one-element array works. -/
theorem C27_identity_scalar_raises (ad : Option (List ℕ)) (r s : ℝ) :
    (Kern.identity ad).fromDist (.py r) = .error .attributeError ∧
      (Kern.scaled (.identity ad) s ad).fromDist (.py r) = .error .attributeError ∧
      (Kern.identity ad).fromDist (.arr (.vec [0])) = .ok (.arr (.vec [1])) := by
  refine ⟨rfl, rfl, ?_⟩
  simp [Kern.fromDist, NDArr.vec]

/-- the hypotheses are met by the call prediction makes -/
example : (Kern.scaled (.rbf 2 none) 3 none).fromDist (.py 0) = .ok (.arr (.vec [3])) := by
  rw [C27_scalar_partial _ (by norm_num [Kern.Valid]) (by trivial)]
  simp [Kern.doc]

/-! ### C28 -/

/-- C28, the part that holds: for `RBF`, `Matern32`, `StdPeriodic` and `Identity`, the number of gradients equals the number
of scalars registered with the optimiser, those scalars are the hyperparameters, and `update_gradient` stores the
`j`-th gradient in the `j`-th hyperparameter. Missing: `Scaled` (`C28_scaled_not_linked`). -/
theorem C28_linked_partial (k : Kern) (hp : k.plain) (hk : k.Valid) (a : NDArr ℝ) (ha : a.shape ≠ []) :
    ∃ gs, k.kernelGradient (.arr a) = .ok gs ∧ gs.length = k.linked.length ∧ k.linked = k.params := by
  obtain ⟨fs, h1, h2, -⟩ := gradient_arr k hk a ha
  refine ⟨_, h1, ?_, ?_⟩
  · simp only [List.length_map, h2]
    cases k <;> first | rfl | exact hp.elim
  · cases k <;> first | rfl | exact hp.elim

/-- `update_gradient` stores the `j`-th entry of its argument in the `j`-th hyperparameter, whatever the nesting. -/
theorem C28_update_gradient (k : Kern) (grad : List ℝ) (h : grad.length = k.params.length) :
    k.updateGradient grad = .ok grad := by
  induction k generalizing grad with
  | rbf g ad => match grad, h with | [a], _ => rfl
  | matern32 g ad => match grad, h with | [a], _ => rfl
  | stdPeriodic g T ad => match grad, h with | [a, b], _ => rfl
  | identity ad => match grad, h with | [], _ => rfl
  | scaled k s ad ih =>
    have hl : grad.length = k.params.length + 1 := by simpa [Kern.params] using h
    have hne : grad ≠ [] := by rintro rfl; simp at hl
    simp only [Kern.updateGradient, ih grad.dropLast (by simp [hl]), ok_bind, List.getLast?_eq_getLast_of_ne_nil hne, Option.elim]
    rw [List.dropLast_append_getLast hne]

/-- C28 is false of `Scaled`: it returns one gradient more than it registers, its `scale` is not registered, and nested
`Scaled`s lose one each. -/
theorem C28_scaled_not_linked (k : Kern) (hk : k.Valid) (a : NDArr ℝ) (ha : a.shape ≠ []) :
    ∃ gs, k.scaledNew.kernelGradient (.arr a) = .ok gs ∧ k.linked.length + 1 ≤ gs.length ∧
      k.scaledNew.linked = k.linked ∧ gs.length = k.params.length + 1 := by
  obtain ⟨fs, h1, h2, -⟩ := gradient_arr k.scaledNew ⟨hk, one_pos⟩ a ha
  refine ⟨_, h1, ?_, rfl, ?_⟩
  · have : ∀ k : Kern, k.linked.length ≤ k.params.length := by
      intro k
      induction k with
      | scaled k s ad ih => simp only [Kern.linked, Kern.params, List.length_append]; omega
      | _ => exact le_rfl
    have := this k
    simp [h2, Kern.scaledNew, Kern.params]
    omega
  · simp [h2, Kern.scaledNew, Kern.params]

example : ∃ gs, (Kern.rbf 1 none).scaledNew.kernelGradient (.arr (.vec [0, 1])) = .ok gs ∧ gs.length = 2 ∧
    (Kern.rbf 1 none).scaledNew.linked = [1] := by
  obtain ⟨gs, h, -, h2, h3⟩ := C28_scaled_not_linked (.rbf 1 none) (by norm_num [Kern.Valid]) (.vec [0, 1]) (by simp [NDArr.vec])
  exact ⟨gs, h, h3, h2⟩

example : ∃ gs, (Kern.stdPeriodic 1 2 none).kernelGradient (.arr (.vec [0, 1])) = .ok gs ∧ gs.length = 2 := by
  obtain ⟨gs, h, h2, -⟩ := C28_linked_partial (.stdPeriodic 1 2 none) trivial
    (by refine ⟨one_pos, ?_⟩
        have : Real.exp (-200) < 1 := by rw [Real.exp_lt_one_iff]; norm_num
        linarith) (.vec [0, 1]) (by simp [NDArr.vec])
  exact ⟨gs, h, h2⟩

end Verif
