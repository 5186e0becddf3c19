import Verif.Proofs.Work
import Verif.Proofs.WorkBound
import Verif.Props.SameCovariance

/-! What a product with the covariance of the observations costs (C97). -/

namespace Verif

/-- the points of the grid of a group of kernels, one number per axis -/
def LLGP.gridShape (m : LLGP) (g : List ℕ × List ℕ) : List ℕ := (m.axesOf g.1).map List.length

theorem gridShape_eq {m : LLGP} {P : ℕ} (h : m.OK P) {g : List ℕ × List ℕ} (hg : g ∈ m.fk.activeDims) :
    (((dictGet m.grids g.1).map GroupGrid.dists).getD ⟨[], []⟩).shape = m.gridShape g ∧ (∀ n ∈ m.gridShape g, 0 < n) ∧ (m.gridShape g).length ≤ 2 ∧
      m.stored g.1 ≤ 16 * m.n := by
  obtain ⟨gg, g1, g2, g3, g4⟩ := h.mem_grids hg
  obtain ⟨d1, -, -⟩ := dists_ravelDiff g3.ne g3.good g3.dists
  have hl : gg.axes.length ≤ 2 := by rw [g3.axes]; rcases g3.dim with e | e <;> omega
  have hp : 0 < gridSize gg.axes := prod_pos_of_axes g3.good
  refine ⟨?_, ?_, ?_, ?_⟩
  · rw [g1]
    unfold LLGP.gridShape
    rw [g4]
    exact d1
  · unfold LLGP.gridShape
    rw [g4]
    intro n hn
    obtain ⟨a, ha, rfl⟩ := List.mem_map.1 hn
    have := g3.size a ha
    omega
  · unfold LLGP.gridShape
    rw [g4, List.length_map]
    exact hl
  · have e := ((gridSetup_of_ok h).interp g hg).1
    unfold LLGP.stored
    rw [e]
    simp only [Option.map_some, Option.getD_some]
    refine (nonzeros_of _ _ _ (4 ^ (m.axesOf g.1).length) fun i _ => ?_).trans (Nat.mul_le_mul_right _ ?_)
    · unfold interpOf
      exact interpEntry_support _ (by rw [g4]; exact hp) _ _ i
    · rw [g4]
      calc 4 ^ gg.axes.length ≤ 4 ^ 2 := Nat.pow_le_pow_right (by norm_num) hl
        _ = 16 := by norm_num

/-- C97: The prices are nothing but an annotation: without them, `Prices.genGridKernel` is `genGridKernel`. -/
theorem C97_annotation (p : Prices) (fk : FK) (dists : List (List ℕ × NDArr ℝ)) (interp : List (List ℕ × (Arr2 ℝ × Arr2 ℝ))) (stored : List ℕ → ℕ) (lens : List ℕ) :
    (p.genGridKernel fk dists interp stored lens).map Priced.obj = (genGridKernel fk dists interp lens).map Prod.fst :=
  erase_genGridKernel p fk dists interp stored lens

/-- C97: In any program, the operator that a model holds for the covariance of its observations has a `matvec` with this cost, whatever Fourier transforms and arithmetic cost:
for each group of kernels, the products with Toeplitz matrices of `FK.toeplitzProducts`, the mixing of outputs, and four operations for each stored entry of the
interpolation matrix. -/
theorem C97_cost (sv : Solvers) (hs : sv.Fit) (ops : List Op) (i : ℕ) (a : LLGPArgs) (m : LLGP) (h : Held sv ops i a m) (p : Prices) :
    ∃ k K, m.kernel = some k ∧ p.genGridKernel m.fk m.dists m.interp m.stored m.lens = .ok K ∧ K.obj = k.approx.K ∧
      K.mv = (m.fk.activeDims.map fun g => m.fk.toeplitzProducts g * p.bttbWork (m.gridShape g) +
        p.op * (m.fk.mixing g (m.gridShape g).prod + 4 * m.stored g.1 + m.n)).sum + p.op * (2 * m.n) := by
  obtain ⟨k, -, -, -, -, hok, hcur, -⟩ := h.facts hs
  have he := C97_annotation p m.fk m.dists m.interp m.stored m.lens
  rw [hcur.built] at he
  cases hK : p.genGridKernel m.fk m.dists m.interp m.stored m.lens with
  | error e => rw [hK] at he; cases he
  | ok K =>
    rw [hK] at he
    refine ⟨k, K, hcur.kernel, rfl, Except.ok.inj he, ?_⟩
    rw [genGridKernel_price (gridSetup_of_ok hok) hK]
    congr 2
    refine List.map_congr_left fun g hg => ?_
    rw [(gridShape_eq hok hg).1]

/-- C97: The number of Fourier transforms in a product is twice the number of products with Toeplitz matrices. With several kernels each group is multiplied
in the form that needs the fewest: as vectors and diagonals, or as a block for each pair of outputs. -/
theorem C97_transforms (sv : Solvers) (hs : sv.Fit) (ops : List Op) (i : ℕ) (a : LLGPArgs) (m : LLGP) (h : Held sv ops i a m) :
    ∃ k K, m.kernel = some k ∧ Prices.genGridKernel ⟨fun _ => 1, 0⟩ m.fk m.dists m.interp m.stored m.lens = .ok K ∧ K.obj = k.approx.K ∧
      K.mv = 2 * (m.fk.activeDims.map fun g => if m.fk.Q = 1 then m.fk.D else min (m.fk.apart g) (m.fk.D ^ 2)).sum := by
  obtain ⟨k, K, h1, h2, h3, h4⟩ := C97_cost sv hs ops i a m h ⟨fun _ => 1, 0⟩
  refine ⟨k, K, h1, h2, h3, ?_⟩
  rw [h4, ← List.sum_map_mul_left]
  simp only [Prices.bttbWork, zero_mul, add_zero, mul_one]
  congr 1
  refine List.map_congr_left fun g _ => ?_
  rw [FK.toeplitzProducts, mul_comm]

/-- C97: The interpolation matrices of a model store at most sixteen numbers for each observation. -/
theorem C97_sparse (sv : Solvers) (hs : sv.Fit) (ops : List Op) (i : ℕ) (a : LLGPArgs) (m : LLGP) (h : Held sv ops i a m) (g : List ℕ × List ℕ) (hg : g ∈ m.fk.activeDims) :
    m.stored g.1 ≤ 16 * m.n := by
  obtain ⟨k, -, -, -, -, hok, -, -⟩ := h.facts hs
  exact (gridShape_eq hok hg).2.2.2

/-- C97: If a Fourier transform of `N` points costs at most `κ N (1 + log₂ N)`, a product with the covariance of `n` observations costs at most a constant times
the observations and the grid points with their logarithm, for each group of kernels. The constant depends on the number of outputs alone: neither on the number of
kernels nor on their ranks. -/
theorem C97_near_linear (sv : Solvers) (hs : sv.Fit) (ops : List Op) (i : ℕ) (a : LLGPArgs) (m : LLGP) (h : Held sv ops i a m) (p : Prices) (κ : ℕ)
    (hκ : ∀ N, p.fft N ≤ κ * (N * (1 + Nat.log 2 N))) :
    ∃ k K, m.kernel = some k ∧ p.genGridKernel m.fk m.dists m.interp m.stored m.lens = .ok K ∧ K.obj = k.approx.K ∧
      K.mv ≤ 166 * (κ + p.op) * m.fk.D ^ 3 * (m.n + (m.fk.activeDims.map fun g => m.n + (m.gridShape g).prod * (1 + Nat.log 2 (m.gridShape g).prod)).sum) := by
  obtain ⟨-, -, -, -, -, hok, -, -⟩ := h.facts hs
  obtain ⟨k, K, h1, h2, h3, h4⟩ := C97_cost sv hs ops i a m h p
  refine ⟨k, K, h1, h2, h3, ?_⟩
  have hD : 0 < m.fk.D := hok.ready.wf.Dpos
  have hD2 : m.fk.D ^ 2 ≤ m.fk.D ^ 3 := Nat.pow_le_pow_right hD (by norm_num)
  have hD3 : 1 ≤ m.fk.D ^ 3 := Nat.pos_of_ne_zero (by positivity)
  rw [h4, mul_add, ← List.sum_map_mul_left, add_comm]
  refine Nat.add_le_add ?_ (List.sum_le_sum fun g hg => ?_)
  · calc p.op * (2 * m.n) ≤ 166 * (κ + p.op) * 1 * m.n := by nlinarith
      _ ≤ _ := Nat.mul_le_mul_right _ (Nat.mul_le_mul_left _ hD3)
  · obtain ⟨-, s1, s2, s3⟩ := gridShape_eq hok hg
    have b1 := bttbWork_le p hκ s1 s2
    have b2 := toeplitzProducts_le hD g
    have b3 := mixing_le hD g (m.gridShape g).prod
    generalize (m.gridShape g).prod = M at *
    have b4 : m.fk.toeplitzProducts g * p.bttbWork (m.gridShape g) ≤ m.fk.D ^ 3 * (160 * (κ + p.op) * (M * (1 + Nat.log 2 M))) := Nat.mul_le_mul (b2.trans hD2) b1
    have b5 : p.op * (m.fk.mixing g M + 4 * m.stored g.1 + m.n) ≤ p.op * (6 * m.fk.D ^ 3 * M + 65 * m.n) := Nat.mul_le_mul_left _ (by omega)
    have b6 : 65 * m.n ≤ m.fk.D ^ 3 * (65 * m.n) := Nat.le_mul_of_pos_left _ hD3
    have b7 : p.op * (6 * m.fk.D ^ 3 * M + 65 * m.n) ≤ p.op * (6 * m.fk.D ^ 3 * M + m.fk.D ^ 3 * (65 * m.n)) := Nat.mul_le_mul_left _ (by omega)
    generalize m.fk.D ^ 3 = E at *
    generalize Nat.log 2 M = L at *
    generalize m.n = n at *
    have e : 166 * (κ + p.op) * E * (n + M * (1 + L)) = E * (160 * (κ + p.op) * (M * (1 + L))) + p.op * (6 * E * M + E * (65 * n)) +
      (166 * κ * E * n + 101 * p.op * E * n + 6 * κ * E * M * (1 + L) + 6 * p.op * E * M * L) := by ring
    omega

/-- Two outputs that share two latent RBF kernels: a product takes four Fourier transforms, two for each latent kernel. As blocks it would take eight. -/
example (A : ℕ → ℕ → ℕ → ℝ) : ∃ (a : LLGPArgs) (fk : FK), a.functionalKernel = some fk ∧
    fkNew A ⟨some 2, some [], some [], some [.rbf 1 none, .rbf 1 none], none, none⟩ = .ok fk ∧
    ∃ m k K, Held exactSolvers [.new a quiet] 0 a m ∧ m.kernel = some k ∧ Prices.genGridKernel ⟨fun _ => 1, 0⟩ m.fk m.dists m.interp m.stored m.lens = .ok K ∧
      K.obj = k.approx.K ∧ K.mv = 4 := by
  obtain ⟨D, hD, h⟩ := (fkNew_given A ⟨some 2, some [], some [], some [.rbf 1 none, .rbf 1 none], none, none⟩ (by simp) (by simp)).1
    ⟨⟨2, rfl, by norm_num⟩, by simp [given], rfl, by simp [given], .inl rfl⟩ (fun D hD => by cases hD; simp [given])
  have hD2 : D = 2 := by simp at hD; omega
  subst hD2
  obtain ⟨-, -, -, hw, hf⟩ := C29_contents _ _ _ (by simp) (by simp) h
  obtain ⟨d1, k1, s1, so1, Q1, D1, n1, B1, l1, t1, c1, g1⟩ := rbf_documented hw hf (by simp [given]) (by simp [FK.Q, given]) (fun q hq a ha => by
    have hq' : q < 2 := hq
    have ha' : a < 2 := ha
    interval_cases q <;> interval_cases a <;> simp [given, FKArgs.idx, indexOrRange, vmk, List.range_succ])
    (fun a ha => by
      show 0 < (vmk 2 fun _ => (0.1 : ℝ)).getD a 0
      rw [vmk_getD_lt (by exact ha)]
      norm_num) rfl .onTheFly
  obtain ⟨m, hm, e⟩ := held_new exactSolvers_fit (by norm_num) d1 (by norm_num) rfl s1 so1
  obtain ⟨k, K, h1, h2, h3, h4⟩ := C97_transforms exactSolvers exactSolvers_fit _ 0 _ m hm
  refine ⟨_, _, rfl, h, m, k, K, hm, h1, h2, h3, ?_⟩
  obtain ⟨-, -, -, -, -, hok, -, -⟩ := hm.facts exactSolvers_fit
  obtain ⟨k2, s2, gr⟩ := setInputDim_fresh _ 2 hf
  rw [s1] at s2
  cases s2
  have Q1' : m.fk.Q = 2 := by rw [e]; exact Q1
  have D1' : m.fk.D = 2 := by rw [e]; exact D1
  have hgs : m.fk.activeDims = [([0, 1], [0, 1])] := by
    have hnd : m.fk.activeDims.Nodup := hok.groups.nodup.of_map
    have hall : ∀ g ∈ m.fk.activeDims, g = ([0, 1], [0, 1]) := fun g hg => g1 g (e ▸ hg)
    have hne : m.fk.activeDims ≠ [] := by
      intro h0
      have := (key_iff hok.ready hok.groups (m.fk.kdims 0)).2 ⟨0, by rw [Q1']; norm_num, rfl⟩
      rw [h0] at this
      simp at this
    match hl : m.fk.activeDims, hne with
    | [x], _ => rw [hall x (by rw [hl]; simp)]
    | x :: y :: l, _ =>
      rw [hl] at hnd
      have e1 := hall x (by rw [hl]; simp)
      have e2 := hall y (by rw [hl]; simp)
      rw [e1, e2] at hnd
      simp at hnd
  rw [h4, hgs, Q1', D1']
  simp only [List.map_cons, List.map_nil, List.sum_cons, List.sum_nil]
  have hr : m.fk.rankOf ([0, 1], [0, 1]) = 2 := by
    rw [e]
    unfold FK.rankOf
    rw [gr.same]
    simp [given, initAq, Arr2.of]
  have hap : m.fk.apart ([0, 1], [0, 1]) = 2 := by
    unfold FK.apart
    rw [hr, if_pos]
    intro q hq
    have a1 : k1.numLmcTotal = 0 := l1
    have a2 : k1.numSlfmTotal = 2 := t1
    rw [e]
    unfold FK.IsSlfm
    rw [a1, a2]
    simp at hq
    omega
  rw [hap]
  norm_num

end Verif
