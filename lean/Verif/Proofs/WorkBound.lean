import Verif.Proofs.WorkPrice
import Verif.Proofs.LLGP
import Verif.Spec.Work

/-! Bounds for what a product costs. -/

namespace Verif

theorem filter_vmk_length {α : Type*} (P : α → Bool) (n : ℕ) (f : ℕ → α) : ((vmk n f).filter P).length = ((Finset.range n).filter fun i => P (f i)).card := by
  unfold vmk
  rw [← List.countP_eq_length_filter, List.countP_map]
  induction n with
  | zero => simp
  | succ n ih =>
    rw [List.range_succ, List.countP_append, ih, Finset.range_add_one, Finset.filter_insert]
    by_cases h : P (f n)
    · rw [if_pos h, Finset.card_insert_of_notMem (by simp)]
      simp [h]
    · rw [if_neg h]
      simp [h]

/-- four indices of a grid have weights -/
theorem keysWeight_support (grid : List ℝ) (s : ℝ) : ∃ T : Finset ℕ, T.card ≤ 4 ∧ ∀ j, keysWeight grid s j ≠ 0 → j ∈ T := by
  classical
  set t := (s - grid.getD 0 0) / (grid.getD 1 0 - grid.getD 0 0) with ht
  refine ⟨([-1, 0, 1, 2] : List ℤ).toFinset.image fun c => clampTo grid.length (⌊t⌋ + c), ?_, fun j hj => ?_⟩
  · refine Finset.card_image_le.trans ?_
    exact (List.toFinset_card_le _).trans (by simp)
  · by_contra hn
    refine hj ?_
    unfold keysWeight
    rw [← ht]
    refine List.sum_eq_zero fun x hx => ?_
    obtain ⟨c, hc, rfl⟩ := List.mem_map.1 hx
    refine if_neg fun e => hn ?_
    rw [Finset.mem_image]
    exact ⟨c, List.mem_toFinset.2 hc, e⟩

/-- `4 ^ P` points of a grid have weights -/
theorem gridWeight_support : ∀ (axes : List (List ℝ)) (x : ℕ → ℝ), ∃ T : Finset ℕ, T.card ≤ 4 ^ axes.length ∧
    ∀ j < (axes.map List.length).prod, gridWeight axes x j ≠ 0 → j ∈ T
  | [], x => ⟨{0}, by simp, fun j hj _ => by simp at hj; simp [hj]⟩
  | a :: axes, x => by
    classical
    obtain ⟨S, s1, s2⟩ := keysWeight_support a (x 0)
    obtain ⟨T, t1, t2⟩ := gridWeight_support axes fun k => x (k + 1)
    refine ⟨(S ×ˢ T).image fun q => q.1 * (axes.map List.length).prod + q.2, ?_, fun j hj hw => ?_⟩
    · refine Finset.card_image_le.trans ?_
      rw [Finset.card_product, List.length_cons, pow_succ, mul_comm]
      exact Nat.mul_le_mul t1 s1
    · rw [gridWeight] at hw
      have hpos : 0 < (axes.map List.length).prod := by
        rw [List.map_cons, List.prod_cons] at hj
        rcases Nat.eq_zero_or_pos (axes.map List.length).prod with e | e
        · rw [e] at hj; simp at hj
        · exact e
      rw [Finset.mem_image]
      refine ⟨(j / (axes.map List.length).prod, j % (axes.map List.length).prod), Finset.mem_product.2 ⟨s2 _ (left_ne_zero_of_mul hw), t2 _ (Nat.mod_lt _ hpos)
        (right_ne_zero_of_mul hw)⟩, ?_⟩
      show j / _ * _ + j % _ = j
      rw [mul_comm]
      exact Nat.div_add_mod _ _

theorem interpEntry_support (axes : List (List ℝ)) (hax : 0 < gridSize axes) (out : ℕ → ℕ) (pt : ℕ → ℕ → ℝ) (r : ℕ) :
    ∃ T : Finset ℕ, T.card ≤ 4 ^ axes.length ∧ ∀ j, interpEntry axes out pt r j ≠ 0 → j ∈ T := by
  classical
  obtain ⟨T, t1, t2⟩ := gridWeight_support axes (pt r)
  refine ⟨T.image fun q => out r * gridSize axes + q, Finset.card_image_le.trans t1, fun j hj => ?_⟩
  unfold interpEntry at hj
  split_ifs at hj with e
  · rw [Finset.mem_image]
    refine ⟨_, t2 _ (Nat.mod_lt _ hax) hj, ?_⟩
    rw [← e, mul_comm]
    exact Nat.div_add_mod _ _
  · exact absurd rfl hj

theorem nonzeros_of (n c : ℕ) (f : ℕ → ℕ → ℝ) (b : ℕ) (h : ∀ i < n, ∃ T : Finset ℕ, T.card ≤ b ∧ ∀ j, f i j ≠ 0 → j ∈ T) : (Arr2.of n c f).nonzeros ≤ b * n := by
  classical
  unfold Arr2.nonzeros Arr2.of
  simp only
  rw [filter_vmk_length]
  choose! T t1 t2 using h
  have hsub : ((Finset.range (n * c)).filter fun i => decide (f (i / c) (i % c) ≠ 0) = true) ⊆ (Finset.range n).biUnion fun i => (T i).image fun j => i * c + j := by
    intro i hi
    simp only [Finset.mem_filter, Finset.mem_range, decide_eq_true_eq] at hi
    have hlt : i / c < n := Nat.div_lt_of_lt_mul (by rw [mul_comm]; exact hi.1)
    refine Finset.mem_biUnion.2 ⟨i / c, Finset.mem_range.2 hlt, Finset.mem_image.2 ⟨i % c, t2 _ hlt _ hi.2, ?_⟩⟩
    rw [mul_comm]
    exact Nat.div_add_mod _ _
  refine (Finset.card_le_card hsub).trans ?_
  refine (Finset.card_biUnion_le_card_mul _ _ b fun i hi => Finset.card_image_le.trans (t1 i (Finset.mem_range.1 hi))).trans ?_
  rw [Finset.card_range, mul_comm]

theorem pow2_lt {n : ℕ} (hn : 0 < n) : 2 ^ (n * 2 - 1).size ≤ 4 * n := by
  have h1 : 0 < (n * 2 - 1).size := Nat.size_pos.2 (by omega)
  have h2 := Nat.lt_size.1 (show (n * 2 - 1).size - 1 < (n * 2 - 1).size by omega)
  have h3 : 2 ^ (n * 2 - 1).size = 2 * 2 ^ ((n * 2 - 1).size - 1) := by
    rw [← pow_succ']
    congr 1
    omega
  omega

theorem fftPoints_le : ∀ (sizes : List ℕ), (∀ n ∈ sizes, 0 < n) → fftPoints sizes ≤ 4 ^ sizes.length * sizes.prod
  | [], _ => by simp [fftPoints, pow2]
  | n :: l, h => by
    have ih := fftPoints_le l fun m hm => h m (List.mem_cons_of_mem _ hm)
    have e : fftPoints (n :: l) = 2 ^ (n * 2 - 1).size * fftPoints l := by simp [fftPoints, pow2]
    rw [e, List.length_cons, List.prod_cons, pow_succ]
    calc _ ≤ (4 * n) * (4 ^ l.length * l.prod) := Nat.mul_le_mul (pow2_lt (h n (by simp))) ih
      _ = _ := by ring

theorem fftCoeffs_le : ∀ (l : List ℕ), (∀ n ∈ l, 2 ≤ n) → fftCoeffs l ≤ l.prod
  | [], _ => by simp [fftCoeffs]
  | [n], h => by
    have := h n (by simp)
    simp only [fftCoeffs, List.prod_cons, List.prod_nil, mul_one]
    omega
  | n :: m :: l, h => by
    rw [fftCoeffs, List.prod_cons]
    exact Nat.mul_le_mul_left _ (fftCoeffs_le (m :: l) fun k hk => h k (List.mem_cons_of_mem _ hk))

theorem log2_four_pow_mul (k : ℕ) {m : ℕ} (hm : 0 < m) : Nat.log 2 (4 ^ k * m) = 2 * k + Nat.log 2 m := by
  have : 4 ^ k = 2 ^ (2 * k) := by rw [pow_mul]; norm_num
  rw [this, mul_comm]
  clear this
  induction 2 * k with
  | zero => simp
  | succ j ih =>
    rw [pow_succ, ← mul_assoc, Nat.log_mul_base (by norm_num) (by positivity), ih]
    omega

/-- what a product with a Toeplitz matrix costs -/
theorem bttbWork_le (p : Prices) {κ : ℕ} (hκ : ∀ N, p.fft N ≤ κ * (N * (1 + Nat.log 2 N))) {sizes : List ℕ} (hs : ∀ n ∈ sizes, 0 < n) (hd : sizes.length ≤ 2) :
    p.bttbWork sizes ≤ 160 * (κ + p.op) * (sizes.prod * (1 + Nat.log 2 sizes.prod)) := by
  have hpos : 0 < sizes.prod := List.prod_pos hs
  have h1 : fftPoints sizes ≤ 16 * sizes.prod := (fftPoints_le sizes hs).trans (Nat.mul_le_mul_right _ (Nat.pow_le_pow_right (by norm_num) hd))
  have h2 : fftCoeffs (pow2 (sizes.map (· * 2))) ≤ fftPoints sizes := by
    refine fftCoeffs_le _ fun n hn => ?_
    simp only [pow2, List.map_map, List.mem_map, Function.comp] at hn
    obtain ⟨k, hk, rfl⟩ := hn
    have := (pow2_facts (hs k hk)).1
    have := hs k hk
    omega
  have h3 : Nat.log 2 (fftPoints sizes) ≤ 4 + Nat.log 2 sizes.prod := by
    have := log2_four_pow_mul 2 hpos
    norm_num at this
    rw [← this]
    exact Nat.log_mono_right h1
  have h4 : p.fft (fftPoints sizes) ≤ κ * (16 * sizes.prod * (1 + (4 + Nat.log 2 sizes.prod))) :=
    (hκ _).trans (Nat.mul_le_mul_left _ (Nat.mul_le_mul h1 (by omega)))
  unfold Prices.bttbWork
  have h5 : p.op * (6 * fftCoeffs (pow2 (sizes.map (· * 2)))) ≤ p.op * (6 * (16 * sizes.prod)) := Nat.mul_le_mul_left _ (Nat.mul_le_mul_left _ (h2.trans h1))
  generalize sizes.prod = M at *
  generalize Nat.log 2 M = L at *
  calc _ ≤ 2 * (κ * (16 * M * (1 + (4 + L)))) + p.op * (6 * (16 * M)) := by omega
    _ ≤ _ := by
      have a1 : 160 * (κ + p.op) * (M * (1 + L)) = 2 * (κ * (16 * M * (1 + (4 + L)))) + p.op * (6 * (16 * M)) + (128 * κ * M * L + 64 * p.op * M + 160 * p.op * M * L) := by ring
      omega

theorem toeplitzProducts_le {fk : FK} (hD : 0 < fk.D) (g : List ℕ × List ℕ) : fk.toeplitzProducts g ≤ fk.D ^ 2 := by
  unfold FK.toeplitzProducts
  split_ifs
  · nlinarith
  · exact min_le_right _ _

theorem mixing_le {fk : FK} (hD : 0 < fk.D) (g : List ℕ × List ℕ) (m : ℕ) : fk.mixing g m ≤ 6 * fk.D ^ 3 * m := by
  have h1 : fk.D ≤ fk.D ^ 3 := Nat.le_self_pow (by norm_num) _
  have h2 : fk.D ^ 2 ≤ fk.D ^ 3 := Nat.pow_le_pow_right hD (by norm_num)
  unfold FK.mixing
  split_ifs with a b
  · have e1 := Nat.mul_le_mul_right m h1
    have e2 := Nat.mul_le_mul_right m h2
    nlinarith
  · have hr : fk.rankOf g ≤ fk.D ^ 2 := by
      have : fk.rankOf g ≤ fk.apart g := by unfold FK.apart; omega
      omega
    have e1 := Nat.mul_le_mul_right m h1
    have e2 : 4 * fk.D * fk.rankOf g * m ≤ 4 * fk.D ^ 3 * m := by
      refine Nat.mul_le_mul_right _ ?_
      calc 4 * fk.D * fk.rankOf g ≤ 4 * fk.D * fk.D ^ 2 := Nat.mul_le_mul_left _ hr
        _ = _ := by ring
    nlinarith
  · have e2 := Nat.mul_le_mul_right m h2
    nlinarith

end Verif
