import Verif.Proofs.SkiLimit

/-! Interpolating the explained variance from its values on the grid. -/

namespace Verif

open Matrix

theorem Taylor3.mono {M M' : ℝ} {ψ : ℝ → ℝ} (h : Taylor3 M ψ) (hm : M ≤ M') : Taylor3 M' ψ := by
  intro s
  obtain ⟨b, c, H⟩ := h s
  exact ⟨b, c, fun δ => (H δ).trans (mul_le_mul_of_nonneg_right (by linarith) (by positivity))⟩

theorem Taylor3.smul {M : ℝ} {ψ : ℝ → ℝ} (h : Taylor3 M ψ) (k : ℝ) : Taylor3 (|k| * M) fun t => k * ψ t := by
  intro s
  obtain ⟨b, c, H⟩ := h s
  refine ⟨k * b, k * c, fun δ => ?_⟩
  rw [show k * ψ (s + δ) - (k * ψ s + k * b * δ + k * c / 2 * δ ^ 2) = k * (ψ (s + δ) - (ψ s + b * δ + c / 2 * δ ^ 2)) by ring, abs_mul,
    show |k| * M / 6 * |δ| ^ 3 = |k| * (M / 6 * |δ| ^ 3) by ring]
  exact mul_le_mul_of_nonneg_left (H δ) (abs_nonneg _)

theorem Taylor3.add {M M' : ℝ} {ψ φ : ℝ → ℝ} (h : Taylor3 M ψ) (h' : Taylor3 M' φ) : Taylor3 (M + M') fun t => ψ t + φ t := by
  intro s
  obtain ⟨b, c, H⟩ := h s
  obtain ⟨b', c', H'⟩ := h' s
  refine ⟨b + b', c + c', fun δ => ?_⟩
  rw [show ψ (s + δ) + φ (s + δ) - (ψ s + φ s + (b + b') * δ + (c + c') / 2 * δ ^ 2) =
    (ψ (s + δ) - (ψ s + b * δ + c / 2 * δ ^ 2)) + (φ (s + δ) - (φ s + b' * δ + c' / 2 * δ ^ 2)) by ring,
    show (M + M') / 6 * |δ| ^ 3 = M / 6 * |δ| ^ 3 + M' / 6 * |δ| ^ 3 by ring]
  exact (abs_add_le _ _).trans (add_le_add (H δ) (H' δ))

theorem Taylor3.sum {ι : Type} (S : Finset ι) {M : ι → ℝ} {ψ : ι → ℝ → ℝ} (h : ∀ i ∈ S, Taylor3 (M i) (ψ i)) : Taylor3 (∑ i ∈ S, M i) fun t => ∑ i ∈ S, ψ i t := by
  classical
  induction S using Finset.induction_on with
  | empty => exact fun s => ⟨0, 0, fun δ => by simp⟩
  | insert i S hi ih =>
    simp only [Finset.sum_insert hi]
    exact (h i (by simp)).add (ih fun j hj => h j (by simp [hj]))

/-- the remainder of a product of bounded functions with cubic remainders -/
theorem Taylor3.mul {M A : ℝ} {ψ φ : ℝ → ℝ} (h : Taylor3 M ψ) (h' : Taylor3 M φ) (hb : ∀ t, |ψ t| ≤ A) (hb' : ∀ t, |φ t| ≤ A) :
    Taylor3 (200 * (A + M) ^ 2) fun t => ψ t * φ t := by
  have hM := taylor3_nonneg h
  have hA : 0 ≤ A := (abs_nonneg _).trans (hb 0)
  have coef : ∀ {f : ℝ → ℝ}, (∀ t, |f t| ≤ A) → ∀ {s b c : ℝ}, (∀ δ, |f (s + δ) - (f s + b * δ + c / 2 * δ ^ 2)| ≤ M / 6 * |δ| ^ 3) →
      |b| ≤ A + M ∧ |c| ≤ 4 * (A + M) := by
    intro f hf s b c H
    have h1 := H 1
    have h2 := H (-1)
    norm_num at h1 h2
    have a0 := abs_le.1 (hf s)
    have a1 := abs_le.1 (hf (s + 1))
    have a2 := abs_le.1 (hf (s + -1))
    rw [abs_le] at h1 h2
    constructor <;> rw [abs_le] <;> constructor <;> linarith
  intro s
  obtain ⟨b, c, H⟩ := h s
  obtain ⟨b', c', H'⟩ := h' s
  obtain ⟨hb1, hc1⟩ := coef hb H
  obtain ⟨hb2, hc2⟩ := coef hb' H'
  refine ⟨b * φ s + ψ s * b', c * φ s + 2 * b * b' + ψ s * c', fun δ => ?_⟩
  set N := A + M with hN
  have hN0 : 0 ≤ N := by linarith
  have p1 : |ψ s| ≤ N := (hb s).trans (by linarith)
  have p2 : |φ s| ≤ N := (hb' s).trans (by linarith)
  have p3 : |ψ (s + δ)| ≤ N := (hb _).trans (by linarith)
  have p4 : |φ (s + δ)| ≤ N := (hb' _).trans (by linarith)
  have mul2 : ∀ {x y X Y : ℝ}, |x| ≤ X → |y| ≤ Y → |x * y| ≤ X * Y := fun hx hy => by
    rw [abs_mul]; exact mul_le_mul hx hy (abs_nonneg _) ((abs_nonneg _).trans hx)
  have d0 : 0 ≤ |δ| := abs_nonneg δ
  have q1 : |b * φ s + ψ s * b'| ≤ 2 * N ^ 2 := by
    refine (abs_add_le _ _).trans ((add_le_add (mul2 hb1 p2) (mul2 p1 hb2)).trans (le_of_eq (by ring)))
  have q2 : |c * φ s + 2 * b * b' + ψ s * c'| ≤ 10 * N ^ 2 := by
    have := mul2 hb1 hb2
    have e : |2 * b * b'| ≤ 2 * (N * N) := by rw [mul_assoc, abs_mul, abs_two]; linarith
    refine (abs_add_le _ _).trans ((add_le_add ((abs_add_le _ _).trans (add_le_add (mul2 hc1 p2) e)) (mul2 p1 hc2)).trans (le_of_eq (by ring)))
  rcases le_or_gt |δ| 1 with hd | hd
  · set r := ψ (s + δ) - (ψ s + b * δ + c / 2 * δ ^ 2) with hr
    set r' := φ (s + δ) - (φ s + b' * δ + c' / 2 * δ ^ 2) with hr'
    have e : ψ (s + δ) * φ (s + δ) - (ψ s * φ s + (b * φ s + ψ s * b') * δ + (c * φ s + 2 * b * b' + ψ s * c') / 2 * δ ^ 2) =
        (b * c' + c * b') / 2 * δ ^ 3 + c * c' / 4 * δ ^ 4 + ψ (s + δ) * r' + r * (φ s + b' * δ + c' / 2 * δ ^ 2) := by
      rw [hr, hr']; ring
    have hd3 : |δ| ^ 4 ≤ |δ| ^ 3 := pow_le_pow_of_le_one d0 hd (by norm_num)
    have hd2 : |δ| ^ 2 ≤ 1 := pow_le_one₀ d0 hd
    have t1 : |(b * c' + c * b') / 2 * δ ^ 3| ≤ 4 * N ^ 2 * |δ| ^ 3 := by
      rw [abs_mul, abs_pow]
      refine mul_le_mul_of_nonneg_right ?_ (by positivity)
      rw [abs_div, abs_two]
      have := (abs_add_le (b * c') (c * b')).trans (add_le_add (mul2 hb1 hc2) (mul2 hc1 hb2))
      linarith
    have t2 : |c * c' / 4 * δ ^ 4| ≤ 4 * N ^ 2 * |δ| ^ 3 := by
      rw [abs_mul, abs_pow]
      refine mul_le_mul ?_ hd3 (by positivity) (by positivity)
      rw [abs_div, abs_of_pos (show (0 : ℝ) < 4 by norm_num)]
      have := mul2 hc1 hc2
      linarith
    have hMN : M ≤ N := by linarith
    have t3 : |ψ (s + δ) * r'| ≤ N ^ 2 * |δ| ^ 3 := by
      have := mul2 p3 (H' δ)
      refine this.trans ?_
      have : N * (M / 6 * |δ| ^ 3) ≤ N * (N * |δ| ^ 3) := by
        refine mul_le_mul_of_nonneg_left (mul_le_mul_of_nonneg_right (by linarith) (by positivity)) hN0
      linarith
    have t4 : |r * (φ s + b' * δ + c' / 2 * δ ^ 2)| ≤ 4 * N ^ 2 * |δ| ^ 3 := by
      have hq : |φ s + b' * δ + c' / 2 * δ ^ 2| ≤ 4 * N := by
        have u1 : |b' * δ| ≤ N * 1 := mul2 hb2 hd
        have u2 : |c' / 2 * δ ^ 2| ≤ 2 * N * 1 := by
          refine mul2 ?_ (by rw [abs_pow]; exact hd2)
          rw [abs_div, abs_two]; linarith
        refine (abs_add_le _ _).trans ((add_le_add ((abs_add_le _ _).trans (add_le_add p2 u1)) u2).trans (le_of_eq (by ring)))
      have := mul2 (H δ) hq
      refine this.trans ?_
      have : M / 6 * |δ| ^ 3 * (4 * N) ≤ N * |δ| ^ 3 * (4 * N) :=
        mul_le_mul_of_nonneg_right (mul_le_mul_of_nonneg_right (by linarith) (by positivity)) (by positivity)
      linarith
    rw [e]
    refine (abs_add_le _ _).trans ((add_le_add ((abs_add_le _ _).trans (add_le_add ((abs_add_le _ _).trans (add_le_add t1 t2)) t3)) t4).trans ?_)
    have : 0 ≤ N ^ 2 * |δ| ^ 3 := by positivity
    linarith
  · have h1 : |δ| ^ 0 ≤ |δ| ^ 3 := pow_le_pow_right₀ hd.le (by norm_num)
    have h2 : |δ| ^ 1 ≤ |δ| ^ 3 := pow_le_pow_right₀ hd.le (by norm_num)
    have h3 : |δ| ^ 2 ≤ |δ| ^ 3 := pow_le_pow_right₀ hd.le (by norm_num)
    rw [pow_zero] at h1
    rw [pow_one] at h2
    have t0 : |ψ (s + δ) * φ (s + δ)| ≤ N ^ 2 * |δ| ^ 3 := by
      have := mul2 p3 p4
      have : N ^ 2 * 1 ≤ N ^ 2 * |δ| ^ 3 := mul_le_mul_of_nonneg_left h1 (by positivity)
      linarith
    have t1 : |ψ s * φ s| ≤ N ^ 2 * |δ| ^ 3 := by
      have := mul2 p1 p2
      have : N ^ 2 * 1 ≤ N ^ 2 * |δ| ^ 3 := mul_le_mul_of_nonneg_left h1 (by positivity)
      linarith
    have t2 : |(b * φ s + ψ s * b') * δ| ≤ 2 * N ^ 2 * |δ| ^ 3 := by
      rw [abs_mul]
      exact mul_le_mul q1 h2 d0 (by positivity)
    have t3 : |(c * φ s + 2 * b * b' + ψ s * c') / 2 * δ ^ 2| ≤ 5 * N ^ 2 * |δ| ^ 3 := by
      rw [abs_mul, abs_pow]
      refine mul_le_mul ?_ h3 (by positivity) (by positivity)
      rw [abs_div, abs_two]; linarith
    have := (abs_sub _ _).trans (add_le_add t0 ((abs_add_le _ _).trans (add_le_add ((abs_add_le _ _).trans (add_le_add t1 t2)) t3)))
    refine this.trans ?_
    have : 0 ≤ N ^ 2 * |δ| ^ 3 := by positivity
    linarith

/-! ### covariances of grid points with the observations -/

/-- the covariance of output `d` at `u` with observation `s` -/
noncomputable def FK.crossAt (fk : FK) (P : ℕ) (Xs : List (Arr2 ℝ)) (d : ℕ) (u : List ℝ) (s : Fin (Xs.map Arr2.rows).sum) : ℝ :=
  ∑ q ∈ Finset.range fk.Q, fk.B q d (ownerOf (Xs.map Arr2.rows) s) *
    (fk.kernels.getD q (.identity none)).doc (euclid P (vmk P (coords (List.range P) (rowPoint Xs s))) u)

section single

variable {fk : FK} {P : ℕ} {g : List ℕ × List ℕ} (h : fk.Ready P) (hgo : fk.GroupsOK) (hg : fk.activeDims = [g]) (hg1 : g.1 = List.range P)

include h hg hg1 in
theorem single_kdims {q : ℕ} (hq : q < fk.Q) : fk.kdims q = List.range P := by
  obtain ⟨g', hgm, e⟩ := kdims_mem h hq
  rw [hg, List.mem_singleton] at hgm
  rw [← e, hgm, hg1]

include h hg hg1 in
theorem crossAt_point (Xs : List (Arr2 ℝ)) (d : ℕ) (x : ℕ → ℝ) : fk.crossAt P Xs d (vmk P (coords (List.range P) x)) = fk.crossCov Xs d x := by
  funext s
  unfold FK.crossAt FK.crossCov FK.cov
  refine Finset.sum_congr rfl fun q hq => ?_
  rw [single_kdims h hg hg1 (Finset.mem_range.1 hq), distOn_euclid, List.length_range, euclid_symm]

include h hgo hg hg1 in
theorem gridToData_kernels (axes : List (List ℝ)) (hax : axes.length = P) (Xs : List (Arr2 ℝ)) (d p : ℕ) (s : Fin (Xs.map Arr2.rows).sum) :
    fk.gridToData axes noExtra g Xs d p s = ∑ q ∈ Finset.range fk.Q, fk.B q d (ownerOf (Xs.map Arr2.rows) s) *
      ∑ j ∈ Finset.range (gridSize axes), gridWeight axes (coords g.1 (rowPoint Xs s)) j * (fk.kernels.getD q (.identity none)).doc (euclid P (gridPoint axes p) (gridPoint axes j)) := by
  have := sum_groups h hgo fun _ q => fk.B q d (ownerOf (Xs.map Arr2.rows) s) *
      ∑ j ∈ Finset.range (gridSize axes), gridWeight axes (coords g.1 (rowPoint Xs s)) j * (fk.kernels.getD q (.identity none)).doc (euclid P (gridPoint axes p) (gridPoint axes j))
  rw [← this, hg]
  simp only [List.map_cons, List.map_nil, List.sum_cons, List.sum_nil, add_zero]
  unfold FK.gridToData noExtra FK.gridCov gridDistance
  simp only [ite_self, add_zero, Finset.mul_sum]
  rw [← finset_list_sum, hax]
  refine Finset.sum_congr rfl fun j _ => ?_
  rw [← List.sum_map_mul_right]
  exact congrArg List.sum (List.map_congr_left fun q _ => by ring)

include h hgo hg hg1 in
theorem single_errors (hp : ∀ k ∈ fk.kernels, k.noIdentity) {Xs : List (Arr2 ℝ)} (hX : Xs.length = fk.D) :
    ∃ A M E : ℝ, 0 ≤ A ∧ 0 ≤ M ∧ 0 ≤ E ∧
      (∀ d < fk.D, ∀ u s, |fk.crossAt P Xs d u s| ≤ A) ∧
      (∀ d < fk.D, ∀ u : List ℝ, u.length = P → ∀ k < P, ∀ s, Taylor3 M fun t => fk.crossAt P Xs d (u.set k t) s) ∧
      ∀ sp, 0 ≤ sp → ∀ axes, fk.FineGrids sp axes → (∀ r < (Xs.map Arr2.rows).sum, fk.Inside axes (rowPoint Xs r)) → ∀ d < fk.D, ∀ p s,
        |fk.gridToData (axes g.1) noExtra g Xs d p s| ≤ A ∧ |fk.gridToData (axes g.1) noExtra g Xs d p s - fk.crossAt P Xs d (gridPoint (axes g.1) p) s| ≤ E * sp ^ 3 := by
  obtain ⟨A, M, hA, hM, H⟩ := FK.kernels_smooth h hp
  obtain ⟨β, hβ, Hβ⟩ := fk.coreg_bounded
  have one : (1 : ℝ) ≤ (5 / 4) ^ P := one_le_pow₀ (by norm_num)
  have hgc := gridConst_nonneg P
  refine ⟨fk.Q * (β * (A * (5 / 4) ^ P)), ∑ q ∈ Finset.range fk.Q, β * (5 / 2 * M), ∑ q ∈ Finset.range fk.Q, β * (gridConst P * (5 / 2 * M)),
    by positivity, by positivity, by positivity, fun d hd u s => ?_, fun d hd u hu k hk s => ?_, fun sp hsp axes hf hin d hd p s => ?_⟩
  · unfold FK.crossAt
    refine (Finset.abs_sum_le_sum_abs _ _).trans ((Finset.sum_le_card_nsmul _ _ (β * (A * (5 / 4) ^ P)) fun q hq => ?_).trans (by simp))
    have hq := Finset.mem_range.1 hq
    rw [abs_mul]
    refine mul_le_mul (Hβ q hq d hd _ (owner_lt hX s)) (((H q hq).1 _ (Real.sqrt_nonneg _)).trans ?_) (abs_nonneg _) hβ
    nlinarith
  · unfold FK.crossAt
    refine Taylor3.sum _ fun q hq => ?_
    have hq := Finset.mem_range.1 hq
    refine (((H q hq).2.section (vmk P (coords (List.range P) (rowPoint Xs s))) u hu k hk).smul _).mono ?_
    exact mul_le_mul_of_nonneg_right (Hβ q hq d hd _ (owner_lt hX s)) (by positivity)
  · have hgm : g ∈ fk.activeDims := by rw [hg]; simp
    obtain ⟨f1, f2⟩ := hf g hgm
    have hl : (axes g.1).length = P := by rw [f1, hg1, List.length_range]
    have hx : ∀ k < (axes g.1).length, InsideAxis ((axes g.1).getD k []) (coords g.1 (rowPoint Xs s) k) := by
      intro k hk
      exact hin s s.2 g hgm k (by rw [← f1]; exact hk)
    rw [gridToData_kernels h hgo hg hg1 _ hl]
    constructor
    · refine (Finset.abs_sum_le_sum_abs _ _).trans ((Finset.sum_le_card_nsmul _ _ (β * (A * (5 / 4) ^ P)) fun q hq => ?_).trans (by simp))
      have hq := Finset.mem_range.1 hq
      rw [abs_mul]
      refine mul_le_mul (Hβ q hq d hd _ (owner_lt hX s)) ?_ (abs_nonneg _) hβ
      refine (Finset.abs_sum_le_sum_abs _ _).trans ?_
      have hw := gridWeight_abs (axes g.1) (fun a ha => by have := (f2 a ha).1; omega) (coords g.1 (rowPoint Xs s))
      rw [hl] at hw
      rw [mul_comm A]
      refine le_trans ?_ (mul_le_mul_of_nonneg_right hw hA)
      rw [Finset.sum_mul]
      refine Finset.sum_le_sum fun j _ => ?_
      rw [abs_mul]
      exact mul_le_mul_of_nonneg_left ((H q hq).1 _ (Real.sqrt_nonneg _)) (abs_nonneg _)
    · unfold FK.crossAt
      rw [← Finset.sum_sub_distrib, Finset.sum_mul]
      refine (Finset.abs_sum_le_sum_abs _ _).trans (Finset.sum_le_sum fun q hq => ?_)
      have hq := Finset.mem_range.1 hq
      have := grid_error (axes g.1) f2 (coords g.1 (rowPoint Xs s)) hx (fun u => (fk.kernels.getD q (.identity none)).doc (euclid P (gridPoint (axes g.1) p) u))
        (M := 5 / 2 * M) (by positivity) (fun u hu k hk => by
          rw [hl] at hu hk
          exact (H q hq).2.section _ u hu k hk)
      rw [hl] at this
      rw [← mul_sub, abs_mul, euclid_symm P (vmk P _), ← hg1, mul_assoc]
      exact mul_le_mul (Hβ q hq d hd _ (owner_lt hX s)) this (abs_nonneg _) hβ

include h hgo hg hg1 in
/-- the explained variance interpolated from its values on the grid -/
theorem explained_error (hs : fk.Sound) {Xs : List (Arr2 ℝ)} (hX : Xs.length = fk.D) :
    ∃ C, 0 ≤ C ∧ ∀ sp, 0 ≤ sp → ∀ axes, fk.FineGrids sp axes → (∀ r < (Xs.map Arr2.rows).sum, fk.Inside axes (rowPoint Xs r)) → ∀ d < fk.D, ∀ x, fk.Inside axes x →
      |∑ p ∈ Finset.range (gridSize (axes g.1)), gridWeight (axes g.1) (coords g.1 x) p * fk.gridExplained axes noExtra g Xs d p -
        fk.crossCov Xs d x ⬝ᵥ (fk.covMat Xs)⁻¹ *ᵥ fk.crossCov Xs d x| ≤ C * sp ^ 3 := by
  obtain ⟨A, M, E, hA, hM, hE, hb, ht, he⟩ := single_errors h hgo hg hg1 hs.plain hX
  have hnd : ∀ g' ∈ fk.activeDims, g'.1.Nodup := by
    intro g' hg'
    rw [hg, List.mem_singleton] at hg'
    rw [hg', hg1]
    exact List.nodup_range
  obtain ⟨K, hK, HK⟩ := FK.solve_error h hgo hs hnd hX hA
  set Γ := ∑ i, ∑ j, |(fk.covMat Xs)⁻¹ i j| with hΓ
  have hΓ0 : 0 ≤ Γ := Finset.sum_nonneg fun i _ => Finset.sum_nonneg fun j _ => abs_nonneg _
  have hgc := gridConst_nonneg P
  refine ⟨(5 / 4) ^ P * (K * (1 + E)) + gridConst P * (Γ * (200 * (A + M) ^ 2)), by positivity, fun sp hsp axes hf hin d hd x hx => ?_⟩
  have hgm : g ∈ fk.activeDims := by rw [hg]; simp
  obtain ⟨f1, f2⟩ := hf g hgm
  have hl : (axes g.1).length = P := by rw [f1, hg1, List.length_range]
  set F : List ℝ → ℝ := fun u => fk.crossAt P Xs d u ⬝ᵥ (fk.covMat Xs)⁻¹ *ᵥ fk.crossAt P Xs d u with hF
  have hsec : ∀ u : List ℝ, u.length = (axes g.1).length → ∀ k < (axes g.1).length, Taylor3 (Γ * (200 * (A + M) ^ 2)) fun t => F (u.set k t) := by
    intro u hu k hk
    rw [hl] at hu hk
    have e : (fun t => F (u.set k t)) = fun t => ∑ i, ∑ j, (fk.covMat Xs)⁻¹ i j * (fk.crossAt P Xs d (u.set k t) i * fk.crossAt P Xs d (u.set k t) j) := by
      funext t
      simp only [hF, dotProduct, mulVec, Finset.mul_sum]
      exact Finset.sum_congr rfl fun i _ => Finset.sum_congr rfl fun j _ => by ring
    rw [e, hΓ, Finset.sum_mul]
    refine Taylor3.sum _ fun i _ => ?_
    rw [Finset.sum_mul]
    refine Taylor3.sum _ fun j _ => ?_
    exact ((ht d hd u hu k hk i).mul (ht d hd u hu k hk j) (fun t => hb d hd _ i) fun t => hb d hd _ j).smul _
  have g1 := grid_error (axes g.1) f2 (coords g.1 x) (fun k hk => hx g hgm k (by rw [← f1]; exact hk)) F (by positivity) hsec
  have hFx : F (vmk (axes g.1).length (coords g.1 x)) = fk.crossCov Xs d x ⬝ᵥ (fk.covMat Xs)⁻¹ *ᵥ fk.crossCov Xs d x := by
    simp only [hF]
    rw [hl, hg1, crossAt_point h hg hg1]
  rw [hFx, hl] at g1
  have g2 : |∑ p ∈ Finset.range (gridSize (axes g.1)), gridWeight (axes g.1) (coords g.1 x) p * fk.gridExplained axes noExtra g Xs d p -
      ∑ p ∈ Finset.range (gridSize (axes g.1)), gridWeight (axes g.1) (coords g.1 x) p * F (gridPoint (axes g.1) p)| ≤ (5 / 4) ^ P * (K * (1 + E) * sp ^ 3) := by
    rw [← Finset.sum_sub_distrib]
    refine (Finset.abs_sum_le_sum_abs _ _).trans ?_
    have hw := gridWeight_abs (axes g.1) (fun a ha => by have := (f2 a ha).1; omega) (coords g.1 x)
    rw [hl] at hw
    refine le_trans ?_ (mul_le_mul_of_nonneg_right hw (by positivity))
    rw [Finset.sum_mul]
    refine Finset.sum_le_sum fun p _ => ?_
    rw [← mul_sub, abs_mul]
    refine mul_le_mul_of_nonneg_left ?_ (abs_nonneg _)
    have e := he sp hsp axes hf hin d hd p
    exact HK sp hsp axes hf hin _ _ _ _ (hb d hd _) (hb d hd _) (fun s => (e s).1) E hE (fun s => (e s).2) fun s => (e s).2
  have := abs_sub_le (∑ p ∈ Finset.range (gridSize (axes g.1)), gridWeight (axes g.1) (coords g.1 x) p * fk.gridExplained axes noExtra g Xs d p)
    (∑ p ∈ Finset.range (gridSize (axes g.1)), gridWeight (axes g.1) (coords g.1 x) p * F (gridPoint (axes g.1) p))
    (fk.crossCov Xs d x ⬝ᵥ (fk.covMat Xs)⁻¹ *ᵥ fk.crossCov Xs d x)
  refine this.trans ((add_le_add g2 g1).trans (le_of_eq (by ring)))

end single

end Verif
