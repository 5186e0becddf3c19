import Verif.Proofs.SkiAccuracy
import Verif.Proofs.SkiPsd
import Mathlib.Algebra.Order.Chebyshev
import Mathlib.Analysis.Matrix.PosDef

/-! How the accuracy of the interpolated covariance carries over to solves, likelihood, means and variances. -/

namespace Verif

open Matrix

/-! ### bounded kernels -/

theorem Kern.bounded (k : Kern) (hv : k.Valid) (hi : k.noIdentity) : ∃ A, 0 ≤ A ∧ ∀ r, 0 ≤ r → |k.doc r| ≤ A := by
  induction k with
  | identity ad => exact hi.elim
  | rbf g ad =>
    refine ⟨1, by norm_num, fun r _ => ?_⟩
    have hg : 0 < g := hv
    simp only [Kern.doc]
    rw [abs_of_pos (Real.exp_pos _), Real.exp_le_one_iff]
    have : 0 ≤ g * r ^ 2 := by positivity
    linarith
  | matern32 g ad =>
    refine ⟨1, by norm_num, fun r hr => ?_⟩
    have hg : 0 < g := hv
    simp only [Kern.doc]
    set u := g * r * Real.sqrt 3 with hu
    have u0 : 0 ≤ u := by positivity
    rw [show 1 + r * g * Real.sqrt 3 = 1 + u by rw [hu]; ring, abs_of_nonneg (by positivity), Real.exp_neg, ← div_eq_mul_inv,
      div_le_one (Real.exp_pos _)]
    linarith [Real.add_one_le_exp u]
  | stdPeriodic g T ad =>
    refine ⟨1, by norm_num, fun r _ => ?_⟩
    have hg : 0 < g := hv.1
    simp only [Kern.doc]
    rw [abs_of_pos (Real.exp_pos _), Real.exp_le_one_iff]
    have : 0 ≤ g * Real.sin (Real.pi * r / T) ^ 2 := by positivity
    linarith
  | scaled k s ad ih =>
    obtain ⟨A, hA, h⟩ := ih hv.1 hi
    refine ⟨s * A, mul_nonneg hv.2.le hA, fun r hr => ?_⟩
    simp only [Kern.doc]
    rw [abs_mul, abs_of_pos hv.2]
    exact mul_le_mul_of_nonneg_left (h r hr) hv.2.le

/-- one bound for all kernels -/
theorem FK.kernels_smooth {fk : FK} {P : ℕ} (h : fk.Ready P) (hp : ∀ k ∈ fk.kernels, k.noIdentity) :
    ∃ A M : ℝ, 0 ≤ A ∧ 0 ≤ M ∧ ∀ q < fk.Q, (∀ r, 0 ≤ r → |(fk.kernels.getD q (.identity none)).doc r| ≤ A) ∧
      Radial (fk.kernels.getD q (.identity none)).doc M := by
  have : ∀ l : List Kern, (∀ k ∈ l, k.Valid ∧ k.noIdentity) → ∃ A M : ℝ, 0 ≤ A ∧ 0 ≤ M ∧ ∀ k ∈ l, (∀ r, 0 ≤ r → |k.doc r| ≤ A) ∧ Radial k.doc M := by
    intro l hl
    induction l with
    | nil => exact ⟨0, 0, le_rfl, le_rfl, by simp⟩
    | cons k l ih =>
      obtain ⟨A, M, hA, hM, H⟩ := ih fun k hk => hl k (by simp [hk])
      obtain ⟨h1, h2⟩ := hl k (by simp)
      obtain ⟨A', hA', b⟩ := k.bounded h1 h2
      obtain ⟨M', r⟩ := k.radial h1 h2
      have mono : ∀ {f : ℝ → ℝ} {m m' : ℝ}, Radial f m → m ≤ m' → Radial f m' := by
        rintro f m m' ⟨G, G1, G2, G3, a, b, c, d, e, f⟩ hm
        exact ⟨G, G1, G2, G3, a, b, c, d, e, fun r hr => (f r hr).trans hm⟩
      refine ⟨max A A', max M M', hA.trans (le_max_left _ _), hM.trans (le_max_left _ _), fun k' hk' => ?_⟩
      rcases List.mem_cons.1 hk' with rfl | hk'
      · exact ⟨fun r hr => (b r hr).trans (le_max_right _ _), mono r (le_max_right _ _)⟩
      · exact ⟨fun r hr => ((H k' hk').1 r hr).trans (le_max_left _ _), mono (H k' hk').2 (le_max_left _ _)⟩
  obtain ⟨A, M, hA, hM, H⟩ := this fk.kernels fun k hk => ⟨h.valid k hk, hp k hk⟩
  exact ⟨A, M, hA, hM, fun q hq => H _ (getD_mem_of_lt hq _)⟩

/-- a bound on the coregionalization weights -/
theorem FK.coreg_bounded (fk : FK) : ∃ β : ℝ, 0 ≤ β ∧ ∀ q < fk.Q, ∀ a < fk.D, ∀ b < fk.D, |fk.B q a b| ≤ β := by
  refine ⟨∑ q ∈ Finset.range fk.Q, ∑ a ∈ Finset.range fk.D, ∑ b ∈ Finset.range fk.D, |fk.B q a b|,
    Finset.sum_nonneg fun q _ => Finset.sum_nonneg fun a _ => Finset.sum_nonneg fun b _ => abs_nonneg _, fun q hq a ha b hb => ?_⟩
  have h1 := Finset.single_le_sum (f := fun b => |fk.B q a b|) (s := Finset.range fk.D) (fun _ _ => abs_nonneg _) (Finset.mem_range.2 hb)
  have h2 := Finset.single_le_sum (f := fun a => ∑ b ∈ Finset.range fk.D, |fk.B q a b|) (s := Finset.range fk.D)
    (fun _ _ => Finset.sum_nonneg fun _ _ => abs_nonneg _) (Finset.mem_range.2 ha)
  have h3 := Finset.single_le_sum (f := fun q => ∑ a ∈ Finset.range fk.D, ∑ b ∈ Finset.range fk.D, |fk.B q a b|) (s := Finset.range fk.Q)
    (fun _ _ => Finset.sum_nonneg fun _ _ => Finset.sum_nonneg fun _ _ => abs_nonneg _) (Finset.mem_range.2 hq)
  exact h1.trans (h2.trans h3)

theorem FK.cov_bounded {fk : FK} {P : ℕ} (h : fk.Ready P) (hp : ∀ k ∈ fk.kernels, k.noIdentity) :
    ∃ A : ℝ, 0 ≤ A ∧ ∀ a < fk.D, ∀ b < fk.D, ∀ x z, |fk.cov a b x z| ≤ A := by
  obtain ⟨A, M, hA, -, H⟩ := FK.kernels_smooth h hp
  obtain ⟨β, hβ, Hβ⟩ := fk.coreg_bounded
  refine ⟨fk.Q * (β * A), by positivity, fun a ha b hb x z => ?_⟩
  unfold FK.cov
  refine (Finset.abs_sum_le_sum_abs _ _).trans ?_
  refine (Finset.sum_le_card_nsmul _ _ (β * A) fun q hq => ?_).trans (by simp)
  have hq := Finset.mem_range.1 hq
  rw [abs_mul]
  exact mul_le_mul (Hβ q hq a ha b hb) ((H q hq).1 _ (Real.sqrt_nonneg _)) (abs_nonneg _) hβ

theorem extraPart_none (fk : FK) (axes : List ℕ → List (List ℝ)) (a b : ℕ) (x z : ℕ → ℝ) : fk.extraPart axes noExtra a b x z = 0 := by
  unfold FK.extraPart noExtra
  simp

theorem kdims_mem {fk : FK} {P : ℕ} (h : fk.Ready P) {q : ℕ} (hq : q < fk.Q) : ∃ g ∈ fk.activeDims, g.1 = fk.kdims q := by
  obtain ⟨ad, had, hmem⟩ := h.dims _ (getD_mem_of_lt hq (.identity none))
  have hkd : fk.kdims q = ad := by unfold FK.kdims; rw [had]; rfl
  obtain ⟨g, hg, e⟩ := List.mem_map.1 hmem
  exact ⟨g, hg, by rw [e, hkd]⟩

/-- the interpolated covariance is within a constant times the cube of the spacing of the exact one -/
theorem FK.skiCov_error {fk : FK} {P : ℕ} (h : fk.Ready P) (hg : fk.GroupsOK) (hp : ∀ k ∈ fk.kernels, k.noIdentity) :
    ∃ C, 0 ≤ C ∧ ∀ s, 0 ≤ s → ∀ axes, fk.FineGrids s axes → ∀ x z, fk.Inside axes x → fk.Inside axes z → ∀ a < fk.D, ∀ b < fk.D,
      |fk.skiCov axes noExtra a b x z - fk.cov a b x z| ≤ C * s ^ 3 := by
  obtain ⟨A, M, hA, hM, H⟩ := FK.kernels_smooth h hp
  obtain ⟨β, hβ, Hβ⟩ := fk.coreg_bounded
  refine ⟨∑ q ∈ Finset.range fk.Q, β * ((1 + (5 / 4) ^ (fk.kdims q).length) * gridConst (fk.kdims q).length * (5 / 2 * M)),
    Finset.sum_nonneg fun q _ => ?_, fun s hs axes hax x z hx hz a ha b hb => ?_⟩
  · have := gridConst_nonneg (fk.kdims q).length
    positivity
  rw [skiCov_kernels h hg, extraPart_none, add_zero]
  unfold FK.cov
  rw [← Finset.sum_sub_distrib, Finset.sum_mul]
  refine (Finset.abs_sum_le_sum_abs _ _).trans (Finset.sum_le_sum fun q hq => ?_)
  have hq := Finset.mem_range.1 hq
  obtain ⟨g, hgm, hgd⟩ := kdims_mem h hq
  obtain ⟨f1, f2⟩ := hax g hgm
  have hx' := hx g hgm
  have hz' := hz g hgm
  rw [hgd] at f1 f2 hx' hz'
  have := skiKernel_error f1 f2 (H q hq).2 x z hx' hz' hs
  rw [← mul_sub, abs_mul, mul_assoc]
  exact mul_le_mul (Hβ q hq a ha b hb) this (abs_nonneg _) hβ

/-! ### perturbed linear systems -/

variable {n : ℕ}

theorem dot_sq_le (v w : Fin n → ℝ) : (v ⬝ᵥ w) ^ 2 ≤ (v ⬝ᵥ v) * (w ⬝ᵥ w) := by
  have := Finset.sum_mul_sq_le_sq_mul_sq Finset.univ v w
  simp only [dotProduct]
  simpa [sq] using this

theorem dot_self_le {v : Fin n → ℝ} {a : ℝ} (h : ∀ i, |v i| ≤ a) : v ⬝ᵥ v ≤ n * a ^ 2 := by
  unfold dotProduct
  refine (Finset.sum_le_card_nsmul _ _ (a ^ 2) fun i _ => ?_).trans (by simp)
  rw [← sq, ← sq_abs]
  exact pow_le_pow_left₀ (abs_nonneg _) (h i) 2

/-- a quadratic form that is at least `s` bounds solves -/
theorem solve_bound {A : Matrix (Fin n) (Fin n) ℝ} (hA : IsUnit A.det) {s : ℝ} (hs : 0 < s) (hc : ∀ v, s * (v ⬝ᵥ v) ≤ v ⬝ᵥ A *ᵥ v) {c y : Fin n → ℝ}
    {a b : ℝ} (ha : 0 ≤ a) (hb : 0 ≤ b) (h1 : ∀ i, |c i| ≤ a) (h2 : ∀ i, |y i| ≤ b) : |c ⬝ᵥ A⁻¹ *ᵥ y| ≤ n * a * b / s := by
  set w := A⁻¹ *ᵥ y with hw
  have hy : A *ᵥ w = y := by rw [hw, mulVec_mulVec, mul_nonsing_inv _ hA, one_mulVec]
  have ww : 0 ≤ w ⬝ᵥ w := by
    unfold dotProduct
    exact Finset.sum_nonneg fun i _ => mul_self_nonneg _
  have e1 : s * (w ⬝ᵥ w) ≤ w ⬝ᵥ y := by have := hc w; rwa [hy] at this
  have e2 : s ^ 2 * (w ⬝ᵥ w) ≤ n * b ^ 2 := by
    rcases ww.eq_or_lt with h0 | h0
    · rw [← h0, mul_zero]; positivity
    · have h3 : (s * (w ⬝ᵥ w)) ^ 2 ≤ (w ⬝ᵥ w) * (y ⬝ᵥ y) := (pow_le_pow_left₀ (by positivity) e1 2).trans (dot_sq_le w y)
      have h4 := dot_self_le h2
      have h5 : (w ⬝ᵥ w) * (s ^ 2 * (w ⬝ᵥ w)) ≤ (w ⬝ᵥ w) * (n * b ^ 2) := by nlinarith
      exact le_of_mul_le_mul_left h5 h0
  have e3 : (c ⬝ᵥ w) ^ 2 ≤ (n * a * b / s) ^ 2 := by
    refine (dot_sq_le c w).trans ?_
    rw [div_pow, le_div_iff₀ (by positivity)]
    have h4 := dot_self_le h1
    calc (c ⬝ᵥ c) * (w ⬝ᵥ w) * s ^ 2 = (c ⬝ᵥ c) * (s ^ 2 * (w ⬝ᵥ w)) := by ring
      _ ≤ (n * a ^ 2) * (n * b ^ 2) := mul_le_mul h4 e2 (by positivity) (by positivity)
      _ = (n * a * b) ^ 2 := by ring
  exact abs_le_of_sq_le_sq e3 (by positivity)

theorem inv_bound (B : Matrix (Fin n) (Fin n) ℝ) {y : Fin n → ℝ} {a : ℝ} (h : ∀ i, |y i| ≤ a) (i : Fin n) : |(B *ᵥ y) i| ≤ (∑ i, ∑ j, |B i j|) * a := by
  have ha : 0 ≤ a := (abs_nonneg _).trans (h i)
  have h1 : |(B *ᵥ y) i| ≤ (∑ j, |B i j|) * a := by
    unfold mulVec dotProduct
    rw [Finset.sum_mul]
    refine (Finset.abs_sum_le_sum_abs _ _).trans (Finset.sum_le_sum fun j _ => ?_)
    rw [abs_mul]
    exact mul_le_mul_of_nonneg_left (h j) (abs_nonneg _)
  exact h1.trans (mul_le_mul_of_nonneg_right
    (Finset.single_le_sum (f := fun i => ∑ j, |B i j|) (fun i _ => Finset.sum_nonneg fun j _ => abs_nonneg _) (Finset.mem_univ i)) ha)

/-- what a small change of all parts of `cᵀ A⁻¹ y` does to it -/
theorem solve_perturb {A A' : Matrix (Fin n) (Fin n) ℝ} (hA : IsUnit A.det) (hA' : IsUnit A'.det) {s : ℝ} (hs : 0 < s)
    (hc' : ∀ v, s * (v ⬝ᵥ v) ≤ v ⬝ᵥ A' *ᵥ v) {c c' y y' : Fin n → ℝ} {a e : ℝ} (ha : 0 ≤ a) (he : 0 ≤ e)
    (h1 : ∀ i, |c i| ≤ a) (h2 : ∀ i, |y i| ≤ a) (h3 : ∀ i, |y' i| ≤ a) (d1 : ∀ i, |c' i - c i| ≤ e) (d2 : ∀ i, |y' i - y i| ≤ e)
    (d3 : ∀ i j, |A' i j - A i j| ≤ e) :
    |c' ⬝ᵥ A'⁻¹ *ᵥ y' - c ⬝ᵥ A⁻¹ *ᵥ y| ≤ (2 * n * a / s + n ^ 2 * a ^ 2 * (∑ i, ∑ j, |A⁻¹ i j|) / s) * e := by
  set Γ := ∑ i, ∑ j, |A⁻¹ i j| with hΓ
  have hΓ0 : 0 ≤ Γ := Finset.sum_nonneg fun i _ => Finset.sum_nonneg fun j _ => abs_nonneg _
  set u := A⁻¹ *ᵥ y with hu
  have hy : A *ᵥ u = y := by rw [hu, mulVec_mulVec, mul_nonsing_inv _ hA, one_mulVec]
  have key : A'⁻¹ *ᵥ y - u = A'⁻¹ *ᵥ ((A - A') *ᵥ u) := by
    rw [sub_mulVec, mulVec_sub, hy, mulVec_mulVec _ A'⁻¹ A', nonsing_inv_mul _ hA', one_mulVec]
  have split : c' ⬝ᵥ A'⁻¹ *ᵥ y' - c ⬝ᵥ u = (c' - c) ⬝ᵥ A'⁻¹ *ᵥ y' + c ⬝ᵥ A'⁻¹ *ᵥ (y' - y) + c ⬝ᵥ A'⁻¹ *ᵥ ((A - A') *ᵥ u) := by
    rw [← key, mulVec_sub, dotProduct_sub, sub_dotProduct, dotProduct_sub]
    ring
  have hui : ∀ i, |u i| ≤ Γ * a := fun i => inv_bound _ h2 i
  have hE : ∀ i, |((A - A') *ᵥ u) i| ≤ n * (e * (Γ * a)) := by
    intro i
    unfold mulVec dotProduct
    refine (Finset.abs_sum_le_sum_abs _ _).trans ((Finset.sum_le_card_nsmul _ _ (e * (Γ * a)) fun j _ => ?_).trans (by simp))
    rw [abs_mul]
    refine mul_le_mul ?_ (hui j) (abs_nonneg _) he
    show |A i j - A' i j| ≤ e
    rw [abs_sub_comm]
    exact d3 i j
  have b1 := solve_bound hA' hs hc' (c := c' - c) (y := y') he ha d1 h3
  have b2 := solve_bound hA' hs hc' (c := c) (y := y' - y) ha he h1 d2
  have b3 := solve_bound hA' hs hc' (c := c) (y := (A - A') *ᵥ u) (b := n * (e * (Γ * a))) ha (by positivity) h1 hE
  rw [split]
  refine (abs_add_le _ _).trans ((add_le_add ((abs_add_le _ _).trans (add_le_add b1 b2)) b3).trans (le_of_eq ?_))
  field_simp
  ring

/-! ### the interpolated covariance of the observations -/

theorem owner_lt {fk : FK} {Xs : List (Arr2 ℝ)} (hX : Xs.length = fk.D) (r : Fin (Xs.map Arr2.rows).sum) : ownerOf (Xs.map Arr2.rows) r < fk.D := by
  rw [← hX, ← List.length_map Arr2.rows]
  exact ownerOf_lt _ r r.2

/-- the interpolated covariance is at least the noise -/
theorem skiMat_coercive {fk : FK} {P : ℕ} (h : fk.Ready P) (hg : fk.GroupsOK) (hs : fk.Sound) {Xs : List (Arr2 ℝ)} (hX : Xs.length = fk.D)
    {axes : List ℕ → List (List ℝ)} (ha : ∀ ad ∈ fk.activeDims.map Prod.fst, (axes ad).length = ad.length ∧ ad.Nodup)
    {extra : List ℕ × List ℕ → ℝ} (he : ∀ g, 0 ≤ extra g) {s : ℝ} (hn : ∀ a < fk.D, s ≤ fk.noise.getD a 0) (v : Fin (Xs.map Arr2.rows).sum → ℝ) :
    s * (v ⬝ᵥ v) ≤ v ⬝ᵥ fk.skiMat axes extra Xs *ᵥ v := by
  obtain ⟨S, hS, e⟩ := skiMat_split h hg hs hX ha he
  rw [e, add_mulVec, dotProduct_add]
  have h1 : 0 ≤ v ⬝ᵥ S *ᵥ v := by
    have := hS.dotProduct_mulVec_nonneg v
    simpa using this
  have h2 : s * (v ⬝ᵥ v) ≤ v ⬝ᵥ Matrix.diagonal (fun r : Fin (Xs.map Arr2.rows).sum => fk.noise.getD (ownerOf (Xs.map Arr2.rows) r) 0) *ᵥ v := by
    unfold dotProduct
    rw [Finset.mul_sum]
    refine Finset.sum_le_sum fun r _ => ?_
    rw [mulVec_diagonal]
    have := mul_le_mul_of_nonneg_right (hn _ (owner_lt hX r)) (mul_self_nonneg (v r))
    linarith
  linarith

/-- the least noise -/
theorem FK.Sound.least {fk : FK} (hs : fk.Sound) : ∃ s, 0 < s ∧ ∀ a < fk.D, s ≤ fk.noise.getD a 0 := by
  have : ∀ D, (∀ a < D, 0 < fk.noise.getD a 0) → ∃ s, 0 < s ∧ ∀ a < D, s ≤ fk.noise.getD a 0 := by
    intro D
    induction D with
    | zero => exact fun _ => ⟨1, one_pos, fun a ha => absurd ha (by omega)⟩
    | succ D ih =>
      intro h
      obtain ⟨s, s0, hs⟩ := ih fun a ha => h a (by omega)
      refine ⟨min s (fk.noise.getD D 0), lt_min s0 (h D (by omega)), fun a ha => ?_⟩
      rcases Nat.lt_succ_iff_lt_or_eq.1 ha with ha | rfl
      · exact (min_le_left _ _).trans (hs a ha)
      · exact min_le_right _ _
  exact this _ hs.noise

theorem skiMat_error {fk : FK} {Xs : List (Arr2 ℝ)} (hX : Xs.length = fk.D) {axes : List ℕ → List (List ℝ)} {e : ℝ} (hin : ∀ r < (Xs.map Arr2.rows).sum, fk.Inside axes (rowPoint Xs r))
    (he : ∀ x z, fk.Inside axes x → fk.Inside axes z → ∀ a < fk.D, ∀ b < fk.D, |fk.skiCov axes noExtra a b x z - fk.cov a b x z| ≤ e)
    (i j : Fin (Xs.map Arr2.rows).sum) : |fk.skiMat axes noExtra Xs i j - fk.covMat Xs i j| ≤ e := by
  have := he _ _ (hin i i.2) (hin j j.2) _ (owner_lt hX i) _ (owner_lt hX j)
  unfold FK.skiMat FK.covMat fnMatrix FK.skiFull FK.fullCov
  simp only
  rw [add_sub_add_right_eq_sub]
  exact this

/-- solves with the interpolated and with the exact covariance -/
theorem FK.solve_error {fk : FK} {P : ℕ} (h : fk.Ready P) (hg : fk.GroupsOK) (hs : fk.Sound) (hn : ∀ g ∈ fk.activeDims, g.1.Nodup) {Xs : List (Arr2 ℝ)}
    (hX : Xs.length = fk.D) {a : ℝ} (ha : 0 ≤ a) :
    ∃ K, 0 ≤ K ∧ ∀ s, 0 ≤ s → ∀ axes, fk.FineGrids s axes → (∀ r < (Xs.map Arr2.rows).sum, fk.Inside axes (rowPoint Xs r)) →
      ∀ c c' y y' : Fin (Xs.map Arr2.rows).sum → ℝ, (∀ i, |c i| ≤ a) → (∀ i, |y i| ≤ a) → (∀ i, |y' i| ≤ a) → ∀ e, 0 ≤ e → (∀ i, |c' i - c i| ≤ e * s ^ 3) →
      (∀ i, |y' i - y i| ≤ e * s ^ 3) →
      |c' ⬝ᵥ (fk.skiMat axes noExtra Xs)⁻¹ *ᵥ y' - c ⬝ᵥ (fk.covMat Xs)⁻¹ *ᵥ y| ≤ K * (1 + e) * s ^ 3 := by
  obtain ⟨C, hC, H⟩ := FK.skiCov_error h hg hs.plain
  obtain ⟨σ, σ0, hσ⟩ := hs.least
  set Γ := ∑ i, ∑ j, |(fk.covMat Xs)⁻¹ i j| with hΓ
  have hΓ0 : 0 ≤ Γ := Finset.sum_nonneg fun i _ => Finset.sum_nonneg fun j _ => abs_nonneg _
  set n := (Xs.map Arr2.rows).sum with hnn
  refine ⟨(2 * n * a / σ + n ^ 2 * a ^ 2 * Γ / σ) * (C + 1), by positivity, fun s hs0 axes hf hin c c' y y' h1 h2 h3 e he d1 d2 => ?_⟩
  have hax : ∀ ad ∈ fk.activeDims.map Prod.fst, (axes ad).length = ad.length ∧ ad.Nodup := by
    intro ad had
    obtain ⟨g, hgm, rfl⟩ := List.mem_map.1 had
    exact ⟨(hf g hgm).1, hn g hgm⟩
  have hpd := skiMat_posDef h hg hs hX hax (extra := noExtra) (fun _ => le_rfl)
  have hpd' := covMat_posDef h.wf hX hs.kernels hs.kappa hs.noise
  have hle : ∀ {t E : ℝ}, t ≤ E → E ≤ C + e → t * s ^ 3 ≤ (C + e) * s ^ 3 := fun h1 h2 => mul_le_mul_of_nonneg_right (h1.trans h2) (by positivity)
  have := solve_perturb (A := fk.covMat Xs) (A' := fk.skiMat axes noExtra Xs) hpd'.det_pos.ne'.isUnit hpd.det_pos.ne'.isUnit σ0
    (skiMat_coercive h hg hs hX hax (fun _ => le_rfl) hσ) ha (by positivity : 0 ≤ (C + e) * s ^ 3) h1 h2 h3
    (fun i => (d1 i).trans (hle le_rfl (by linarith))) (fun i => (d2 i).trans (hle le_rfl (by linarith)))
    (fun i j => (skiMat_error hX hin (fun x z hx hz a ha b hb => H s hs0 axes hf x z hx hz a ha b hb) i j).trans (hle le_rfl (by linarith)))
  refine this.trans ?_
  have e1 : (C + e) * s ^ 3 ≤ (C + 1) * (1 + e) * s ^ 3 := mul_le_mul_of_nonneg_right (by nlinarith) (by positivity)
  calc _ ≤ (2 * n * a / σ + n ^ 2 * a ^ 2 * Γ / σ) * ((C + 1) * (1 + e) * s ^ 3) := mul_le_mul_of_nonneg_left e1 (by positivity)
    _ = _ := by ring

end Verif
