import Verif.Proofs.Interp

namespace Verif

theorem bicubicX_eq (gridx : List ℝ) (my : ℕ) (sx : List ℝ) (yc : List ℕ) (hyc : yc.length = sx.length) (cs : List ℤ)
    (hcs : ∀ c ∈ cs, c ∈ convWindow) (F : ℕ → ℕ → ℝ) :
    bicubicX gridx my sx yc cs (Csr.ofFn sx.length (gridx.length * my) F) =
      .ok (Csr.ofFn sx.length (gridx.length * my) fun i j =>
        F i j + (cs.map fun c =>
          if clampIdx gridx.length (⌊interpFactor gridx (sx.getD i 0)⌋ - c) * my + yc.getD i 0 = j then
            cubicEntry (interpFactor gridx (sx.getD i 0) - ⌊interpFactor gridx (sx.getD i 0)⌋ + c) else 0).sum) := by
  induction cs generalizing F with
  | nil => simp [bicubicX]
  | cons c cs ih =>
    have hk : cubicKernel ((sx.map (interpFactor gridx)).map fun f => f - (⌊f⌋ : ℝ) + (c : ℝ)) =
        .ok (((sx.map (interpFactor gridx)).map fun f => f - (⌊f⌋ : ℝ) + (c : ℝ)).map cubicEntry) := by
      refine cubicKernel_ok fun a ha => ?_
      simp only [List.mem_map] at ha
      obtain ⟨f, -, rfl⟩ := ha
      exact frac_le (hcs c (by simp))
    simp only [bicubicX, hk, ok_bind]
    rw [Csr.add, Csr.ofFn_rows, Csr.ofFn_cols]
    rw [Csr.ofFn_congr (g := fun i j => F i j +
          if clampIdx gridx.length (⌊interpFactor gridx (sx.getD i 0)⌋ - c) * my + yc.getD i 0 = j then
            cubicEntry (interpFactor gridx (sx.getD i 0) - ⌊interpFactor gridx (sx.getD i 0)⌋ + c) else 0),
      ih fun c hc => hcs c (by simp [hc])]
    · congr 1
      refine Csr.ofFn_congr fun i _ j _ => ?_
      simp [add_assoc]
    · intro i hi j hj
      have hi' : i < yc.length := hyc ▸ hi
      rw [Csr.ofFn_get hi hj, Csr.single_get (by simp [hyc]) (by simpa using hi)]
      simp [hi, hi']

/-- entry of the x matrix for the y offset `c'` -/
noncomputable def bicX (gridx gridy sx sy : List ℝ) (c' : ℤ) (i j : ℕ) : ℝ :=
  (convWindow.map fun c =>
    if clampIdx gridx.length (⌊interpFactor gridx (sx.getD i 0)⌋ - c) * gridy.length +
        clampIdx gridy.length (⌊interpFactor gridy (sy.getD i 0)⌋ - c') = j then
      cubicEntry (interpFactor gridx (sx.getD i 0) - ⌊interpFactor gridx (sx.getD i 0)⌋ + c) else 0).sum

noncomputable def bicY (gridy sy : List ℝ) (n : ℕ) (c' : ℤ) (k i j : ℕ) : ℝ :=
  if i + n * k = j then cubicEntry (interpFactor gridy (sy.getD i 0) - ⌊interpFactor gridy (sy.getD i 0)⌋ + c') else 0

theorem bicubicY_step (gridx gridy sx sy : List ℝ) (n : ℕ) (hx : sx.length = n) (hy : sy.length = n) (k : ℕ) (c : ℤ)
    (hc : c ∈ convWindow) (rest : List ℤ) (xs : List Csr) (G : ℕ → ℕ → ℝ) :
    bicubicY gridx gridy sx sy n k (c :: rest) xs (Csr.ofFn n (n * 4) G) =
      bicubicY gridx gridy sx sy n (k + 1) rest
        (xs ++ [Csr.ofFn n (gridx.length * gridy.length) (bicX gridx gridy sx sy c)])
        (Csr.ofFn n (n * 4) fun i j => G i j + bicY gridy sy n c k i j) := by
  subst hx
  have hk : cubicKernel ((sy.map (interpFactor gridy)).map fun f => f - (⌊f⌋ : ℝ) + (c : ℝ)) =
      .ok (((sy.map (interpFactor gridy)).map fun f => f - (⌊f⌋ : ℝ) + (c : ℝ)).map cubicEntry) := by
    refine cubicKernel_ok fun a ha => ?_
    simp only [List.mem_map] at ha
    obtain ⟨f, -, rfl⟩ := ha
    exact frac_le hc
  simp only [bicubicY]
  rw [empty_eq_ofFn, bicubicX_eq _ _ _ _ (by simp [hy]) _ (fun c hc => hc)]
  simp only [hk, ok_bind]
  rw [Csr.add, Csr.ofFn_rows, Csr.ofFn_cols]
  congr 1
  · congr 2
    refine Csr.ofFn_congr fun i hi j _ => ?_
    have hi' : i < sy.length := hy ▸ hi
    rw [zero_add, bicX]
    simp [hi']
  · refine Csr.ofFn_congr fun i hi j hj => ?_
    have hi' : i < sy.length := hy ▸ hi
    rw [Csr.ofFn_get hi hj, Csr.single_get (by simp [hy]) (by simpa using hi')]
    simp [hi', hi, bicY]

theorem vstack_get (n c : ℕ) (Fs : List (ℕ → ℕ → ℝ)) {k i j : ℕ} (hk : k < Fs.length) (hi : i < n) (hj : j < c) :
    (Csr.vstack c (Fs.map (Csr.ofFn n c))).get (k * n + i) j = (Fs.getD k fun _ _ => 0) i j := by
  have hlen : ∀ Fs : List (ℕ → ℕ → ℝ), ((Fs.map (Csr.ofFn n c)).flatMap fun A => vmk A.rows fun i =>
      (List.range c).map fun j => (j, A.get i j)).length = Fs.length * n := by
    intro Fs
    induction Fs with
    | nil => simp
    | cons F Fs ih => simp only [List.map_cons, List.flatMap_cons, List.length_append, ih]; simp; ring
  rw [Csr.vstack, Csr.ofRows_get _ _ (by rw [hlen]; exact idx_lt hk hi)]
  induction Fs generalizing k with
  | nil => simp at hk
  | cons F Fs ih =>
    simp only [List.map_cons, List.flatMap_cons]
    cases k with
    | zero =>
      rw [getD_append_left' (by simpa using hi)]
      simp only [Csr.ofFn_rows, zero_mul, zero_add]
      rw [vmk_getD_lt hi, Csr.rowVal, List.map_map, list_sum_range]
      rw [Finset.sum_eq_single j]
      · simp [Csr.ofFn_get hi hj]
      · intro b _ hb; simp [hb]
      · intro h; exact absurd (Finset.mem_range.2 hj) h
    | succ k =>
      simp only [List.length_cons, Nat.add_lt_add_iff_right] at hk
      rw [getD_append_right' (by simp; nlinarith)]
      have := ih hk
      rw [List.getD_cons_succ, ← this]
      congr 2
      simp
      rw [Nat.succ_mul]; omega

theorem bicX_eq (gridx gridy sx sy : List ℝ) (c' : ℤ) (i : ℕ) {ix iy : ℕ}
    (hy : iy < gridy.length) :
    bicX gridx gridy sx sy c' i (ix * gridy.length + iy) =
      if clampIdx gridy.length (⌊interpFactor gridy (sy.getD i 0)⌋ - c') = iy then
        interpRow gridx.length (interpFactor gridx (sx.getD i 0)) ix else 0 := by
  have hyc : clampIdx gridy.length (⌊interpFactor gridy (sy.getD i 0)⌋ - c') < gridy.length := clampIdx_lt (by omega) _
  have inj : ∀ a : ℕ, a * gridy.length + clampIdx gridy.length (⌊interpFactor gridy (sy.getD i 0)⌋ - c') =
      ix * gridy.length + iy ↔ a = ix ∧ clampIdx gridy.length (⌊interpFactor gridy (sy.getD i 0)⌋ - c') = iy := by
    intro a
    constructor
    · intro h
      have h1 := congrArg (· / gridy.length) h
      have h2 := congrArg (· % gridy.length) h
      simp only [idx_div hyc, idx_div hy, idx_mod hyc, idx_mod hy] at h1 h2
      exact ⟨h1, h2⟩
    · rintro ⟨rfl, h⟩; rw [h]
  unfold bicX interpRow interpW
  simp only [inj]
  by_cases h : clampIdx gridy.length (⌊interpFactor gridy (sy.getD i 0)⌋ - c') = iy
  · simp only [h, and_true, if_true]
  · simp only [h, and_false, if_false, List.map_const', List.sum_replicate, smul_zero]

theorem interpBicubic_eq {gridx gridy : List ℝ} (hx : 4 ≤ gridx.length) (hy : 4 ≤ gridy.length) (n : ℕ) (d : List ℝ) :
    interpBicubic (NDArr.vec gridx) (NDArr.vec gridy) ⟨[n, 2], d⟩ =
      .ok (Csr.ofFn n (gridx.length * gridy.length) fun i j =>
        interpRow gridx.length (interpFactor gridx (d.getD (i * 2) 0)) (j / gridy.length) *
        interpRow gridy.length (interpFactor gridy (d.getD (i * 2 + 1) 0)) (j % gridy.length)) := by
  unfold interpBicubic
  by_cases hn : n = 0
  · subst hn
    simp only [NDArr.vec, if_true]
    rw [empty_eq_ofFn]
    exact congrArg Except.ok (Csr.ofFn_congr fun i hi => by omega)
  · have nx : ¬ gridx.length < 4 := by omega
    have ny : ¬ gridy.length < 4 := by omega
    simp only [NDArr.vec, NDArr.ndim, List.length_cons, List.length_nil, ne_eq, hn, if_false, zero_add, not_true, nx, ny]
    rw [empty_eq_ofFn]
    have hsx : (vmk n fun i => d.getD (i * 2) 0).length = n := by simp
    have hsy : (vmk n fun i => d.getD (i * 2 + 1) 0).length = n := by simp
    rw [show convWindow = [-2, -1, 0, 1] from rfl, bicubicY_step _ _ _ _ n hsx hsy _ _ (by simp [convWindow]),
      bicubicY_step _ _ _ _ n hsx hsy _ _ (by simp [convWindow]), bicubicY_step _ _ _ _ n hsx hsy _ _ (by simp [convWindow]),
      bicubicY_step _ _ _ _ n hsx hsy _ _ (by simp [convWindow])]
    simp only [bicubicY, ok_bind, List.nil_append, List.cons_append]
    refine congrArg Except.ok ?_
    rw [Csr.dot, Csr.ofFn_rows, Csr.ofFn_cols]
    refine Csr.ofFn_congr fun i hi j hj => ?_
    change j < gridx.length * gridy.length at hj
    obtain ⟨j1, j2, j3⟩ := idx_split hj
    set sx := vmk n fun i => d.getD (i * 2) 0 with hsxd
    set sy := vmk n fun i => d.getD (i * 2 + 1) 0 with hsyd
    have ex : sx.getD i 0 = d.getD (i * 2) 0 := vmk_getD_lt hi
    have ey : sy.getD i 0 = d.getD (i * 2 + 1) 0 := vmk_getD_lt hi
    have hv := fun k (hk : k < 4) (i' : ℕ) (hi' : i' < n) => vstack_get n (gridx.length * gridy.length)
      [bicX gridx gridy sx sy (-2), bicX gridx gridy sx sy (-1), bicX gridx gridy sx sy 0, bicX gridx gridy sx sy 1]
      (k := k) (by simpa using hk) hi' hj
    simp only [List.map_cons, List.map_nil] at hv
    rw [show n * 4 = 4 * n by ring, sum_range_mul]
    have inner : ∀ k < 4, ∑ i' ∈ Finset.range n,
        (Csr.ofFn n (4 * n) fun i j => 0 + bicY gridy sy n (-2) 0 i j + bicY gridy sy n (-1) (0 + 1) i j +
          bicY gridy sy n 0 (0 + 1 + 1) i j + bicY gridy sy n 1 (0 + 1 + 1 + 1) i j).get i (k * n + i') *
        (Csr.vstack (gridx.length * gridy.length)
          [Csr.ofFn n (gridx.length * gridy.length) (bicX gridx gridy sx sy (-2)),
            Csr.ofFn n (gridx.length * gridy.length) (bicX gridx gridy sx sy (-1)),
            Csr.ofFn n (gridx.length * gridy.length) (bicX gridx gridy sx sy 0),
            Csr.ofFn n (gridx.length * gridy.length) (bicX gridx gridy sx sy 1)]).get (k * n + i') j =
        cubicEntry (interpFactor gridy (sy.getD i 0) - ⌊interpFactor gridy (sy.getD i 0)⌋ + ((k : ℤ) - 2 : ℤ)) *
          bicX gridx gridy sx sy ((k : ℤ) - 2) i j := by
      intro k hk
      have hg : ∀ i' < n, (Csr.ofFn n (4 * n) fun i j => 0 + bicY gridy sy n (-2) 0 i j + bicY gridy sy n (-1) (0 + 1) i j +
          bicY gridy sy n 0 (0 + 1 + 1) i j + bicY gridy sy n 1 (0 + 1 + 1 + 1) i j).get i (k * n + i') =
          if i' = i then
            cubicEntry (interpFactor gridy (sy.getD i 0) - ⌊interpFactor gridy (sy.getD i 0)⌋ + ((k : ℤ) - 2 : ℤ)) else 0 := by
        intro i' hi'
        rw [Csr.ofFn_get hi (idx_lt hk hi')]
        have hb : ∀ (c : ℤ) (l : ℕ), bicY gridy sy n c l i (k * n + i') =
            if l = k ∧ i' = i then
              cubicEntry (interpFactor gridy (sy.getD i 0) - ⌊interpFactor gridy (sy.getD i 0)⌋ + c) else 0 := by
          intro c l
          unfold bicY
          have : i + n * l = k * n + i' ↔ l = k ∧ i' = i := by
            constructor
            · intro h
              have h' : l * n + i = k * n + i' := by rw [← h]; ring
              have h1 := congrArg (· / n) h'
              have h2 := congrArg (· % n) h'
              simp only [idx_div hi, idx_div hi', idx_mod hi, idx_mod hi'] at h1 h2
              exact ⟨h1, h2.symm⟩
            · rintro ⟨rfl, rfl⟩; ring
          simp only [this]
        simp only [hb]
        interval_cases k <;> simp
      rw [Finset.sum_eq_single i]
      · rw [hg i hi, if_pos rfl, hv k hk i hi]
        congr 1
        interval_cases k <;> simp
      · intro b hb hne
        rw [hg b (Finset.mem_range.1 hb), if_neg hne, zero_mul]
      · intro h; exact absurd (Finset.mem_range.2 hi) h
    rw [Finset.sum_congr rfl fun k hk => inner k (Finset.mem_range.1 hk)]
    have hbx := fun c' => bicX_eq gridx gridy sx sy c' i (ix := j / gridy.length) j2
    rw [j3] at hbx
    simp only [hbx]
    rw [ex, ey, interpRow_eq gridy.length]
    simp only [Finset.sum_range_succ, Finset.sum_range_zero, interpW]
    push_cast
    norm_num
    split_ifs <;> ring

end Verif
