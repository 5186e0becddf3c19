import Verif.Proofs.MultiInterp
import Verif.Props.Interp

/-! C19-C20: bicubic interpolation and the multi-output interpolant (`runlmc/approx/interpolation.py`). -/

namespace Verif

/-! ### C19 -/

/-- the row of interpolation weights of one sample on one grid, as `interp_cubic` returns it -/
def CubicRow (grid : List ℝ) (s : ℝ) (w : ℕ → ℝ) : Prop :=
  ∃ R, interpCubic (NDArr.vec grid) (NDArr.vec [s]) = .ok R ∧ ∀ j < grid.length, w j = R.get 0 j

theorem cubicRow_interpRow {grid : List ℝ} (h : 4 ≤ grid.length) (s : ℝ) :
    CubicRow grid s (interpRow grid.length (interpFactor grid s)) :=
  ⟨_, interpCubic_eq h, fun j hj => by rw [Csr.ofFn_get (by simp) hj]; simp⟩

theorem cubicRow_unique {grid : List ℝ} {s : ℝ} {w w' : ℕ → ℝ} (h : CubicRow grid s w) (h' : CubicRow grid s w')
    {j : ℕ} (hj : j < grid.length) : w j = w' j := by
  obtain ⟨R, e, hR⟩ := h
  obtain ⟨R', e', hR'⟩ := h'
  rw [e] at e'
  obtain rfl := Except.ok.inj e'
  rw [hR j hj, hR' j hj]

/-- C19: `interp_bicubic` on `n` samples with coordinates `(d[2i], d[2i+1])` succeeds, its result is well formed with
`mx * my` columns, and the weight of grid point `(ix, iy)` — column `ix * my + iy` — is the product of the two
one-dimensional `interp_cubic` weights of the coordinates. -/
theorem C19_bicubic_tensor (gridx gridy : List ℝ) (n : ℕ) (d : List ℝ) (hx : 4 ≤ gridx.length) (hy : 4 ≤ gridy.length) :
    ∃ R, interpBicubic (NDArr.vec gridx) (NDArr.vec gridy) ⟨[n, 2], d⟩ = .ok R ∧ R.WF ∧ R.rows = n ∧
      R.cols = gridx.length * gridy.length ∧
      ∀ i < n, ∀ wx wy, CubicRow gridx (d.getD (2 * i) 0) wx → CubicRow gridy (d.getD (2 * i + 1) 0) wy →
        ∀ ix < gridx.length, ∀ iy < gridy.length, R.get i (ix * gridy.length + iy) = wx ix * wy iy := by
  refine ⟨_, interpBicubic_eq hx hy n d, Csr.ofFn_wf _ _ _, Csr.ofFn_rows _ _ _, rfl, ?_⟩
  intro i hi wx wy hwx hwy ix hix iy hiy
  rw [Csr.ofFn_get hi (idx_lt hix hiy), idx_div hiy, idx_mod hiy, mul_comm i 2,
    cubicRow_unique hwx (cubicRow_interpRow hx _) hix, cubicRow_unique hwy (cubicRow_interpRow hy _) hiy]

/-- C19: hence every row of the bicubic interpolant sums to one. -/
theorem C19_bicubic_sum_one (gridx gridy : List ℝ) (n : ℕ) (d : List ℝ) (hx : 4 ≤ gridx.length) (hy : 4 ≤ gridy.length) :
    ∃ R, interpBicubic (NDArr.vec gridx) (NDArr.vec gridy) ⟨[n, 2], d⟩ = .ok R ∧
      ∀ i < n, ∑ j ∈ Finset.range (gridx.length * gridy.length), R.get i j = 1 := by
  refine ⟨_, interpBicubic_eq hx hy n d, fun i hi => ?_⟩
  rw [Finset.sum_congr rfl fun j hj => Csr.ofFn_get hi (Finset.mem_range.1 hj), sum_range_mul]
  have : ∀ a ∈ Finset.range gridx.length, ∑ j ∈ Finset.range gridy.length,
      interpRow gridx.length (interpFactor gridx (d.getD (i * 2) 0)) ((a * gridy.length + j) / gridy.length) *
      interpRow gridy.length (interpFactor gridy (d.getD (i * 2 + 1) 0)) ((a * gridy.length + j) % gridy.length) =
      interpRow gridx.length (interpFactor gridx (d.getD (i * 2) 0)) a := by
    intro a _
    rw [Finset.sum_congr rfl fun j hj => by rw [idx_div (Finset.mem_range.1 hj), idx_mod (Finset.mem_range.1 hj)],
      ← Finset.mul_sum, interpRow_sum (by omega), mul_one]
  rw [Finset.sum_congr rfl this, interpRow_sum (by omega)]

/-- C19: and products of quadratics are reproduced exactly at samples with two grid points on each side in both
directions. -/
theorem C19_bicubic_exact_quadratics (gridx gridy : List ℝ) (n : ℕ) (d : List ℝ) (hx : 4 ≤ gridx.length)
    (hy : 4 ≤ gridy.length) (x0 hX y0 hY : ℝ) (hX0 : 0 < hX) (hY0 : 0 < hY) (ex : Equispaced gridx x0 hX)
    (ey : Equispaced gridy y0 hY) (a b c a' b' c' : ℝ) :
    ∃ R, interpBicubic (NDArr.vec gridx) (NDArr.vec gridy) ⟨[n, 2], d⟩ = .ok R ∧
      ∀ i < n, ∀ sx sy, sx = d.getD (2 * i) 0 → sy = d.getD (2 * i + 1) 0 →
        gridx.getD 1 0 ≤ sx → sx ≤ gridx.getD (gridx.length - 2) 0 →
        gridy.getD 1 0 ≤ sy → sy ≤ gridy.getD (gridy.length - 2) 0 →
        ∑ ix ∈ Finset.range gridx.length, ∑ iy ∈ Finset.range gridy.length, R.get i (ix * gridy.length + iy) *
          ((a + b * gridx.getD ix 0 + c * gridx.getD ix 0 ^ 2) * (a' + b' * gridy.getD iy 0 + c' * gridy.getD iy 0 ^ 2)) =
          (a + b * sx + c * sx ^ 2) * (a' + b' * sy + c' * sy ^ 2) := by
  obtain ⟨R, hR, -, -, -, h⟩ := C19_bicubic_tensor gridx gridy n d hx hy
  refine ⟨R, hR, fun i hi sx sy esx esy h1 h2 h3 h4 => ?_⟩
  subst esx; subst esy
  obtain ⟨Rx, hRx, qx⟩ := C16_exact_on_quadratics gridx [d.getD (2 * i) 0] x0 hX hx hX0 ex a b c
  obtain ⟨Ry, hRy, qy⟩ := C16_exact_on_quadratics gridy [d.getD (2 * i + 1) 0] y0 hY hy hY0 ey a' b' c'
  have q1 := qx 0 (by simp) h1 h2
  have q2 := qy 0 (by simp) h3 h4
  rw [List.getD_cons_zero] at q1 q2
  rw [← q1, ← q2, Finset.sum_mul_sum]
  refine Finset.sum_congr rfl fun ix hix => Finset.sum_congr rfl fun iy hiy => ?_
  rw [h i hi (Rx.get 0) (Ry.get 0) ⟨Rx, hRx, fun _ _ => rfl⟩ ⟨Ry, hRy, fun _ _ => rfl⟩ ix (Finset.mem_range.1 hix) iy
    (Finset.mem_range.1 hiy)]
  ring

example : ∃ R, interpBicubic (NDArr.vec [0, 1, 2, 3]) (NDArr.vec [0, 2, 4, 6, 8]) ⟨[2, 2], [1.5, 3, 0, 0]⟩ = .ok R ∧
    ∑ j ∈ Finset.range (4 * 5), R.get 1 j = 1 := by
  obtain ⟨R, h, h'⟩ := C19_bicubic_sum_one [0, 1, 2, 3] [0, 2, 4, 6, 8] 2 [1.5, 3, 0, 0] (by simp) (by simp)
  exact ⟨R, h, h' 1 (by norm_num)⟩

/-! ### C20 -/

theorem flatten_getD {α : Type*} (l : List (List α)) (d : α) {b i : ℕ} (hb : b < l.length) (hi : i < (l.getD b []).length) :
    l.flatten.getD (((l.map List.length).take b).sum + i) d = (l.getD b []).getD i d := by
  induction l generalizing b with
  | nil => simp at hb
  | cons x l ih =>
    cases b with
    | zero =>
      simp only [List.getD_cons_zero] at hi ⊢
      simp only [List.flatten_cons, List.take_zero, List.sum_nil, zero_add]
      rw [getD_append_left' hi]
    | succ b =>
      simp only [List.getD_cons_succ] at hi ⊢
      simp only [List.flatten_cons, List.map_cons, List.take_succ_cons, List.sum_cons]
      rw [getD_append_right' (by omega), ← ih (by simpa using hb) hi]
      congr 1; omega

theorem rowVal_shift {r : List (ℕ × ℝ)} {m b j : ℕ} (hr : ∀ p ∈ r, p.1 < m) :
    Csr.rowVal (r.map fun p => (b * m + p.1, p.2)) j = if j / m = b then Csr.rowVal r (j % m) else 0 := by
  induction r with
  | nil => simp [Csr.rowVal]
  | cons p r ih =>
    have ih := ih fun q hq => hr q (by simp [hq])
    have hp := hr p (by simp)
    simp only [Csr.rowVal, List.map_cons, List.sum_cons] at ih ⊢
    rw [ih]
    have : b * m + p.1 = j ↔ j / m = b ∧ p.1 = j % m := by
      constructor
      · rintro rfl; exact ⟨idx_div hp, (idx_mod hp).symm⟩
      · rintro ⟨h1, h2⟩; rw [← h1, h2]; exact Nat.div_add_mod' j m
    by_cases h : j / m = b
    · simp [h, this]
    · simp [h, this]

/-- `R` is the block diagonal matrix of the blocks `Ws`, all with `m` columns: block `b` sits below the rows of the
earlier blocks and to the right of `b * m` columns, everything else is zero. -/
def IsBlockDiag (m : ℕ) (Ws : List Csr) (R : Csr) : Prop :=
  R.rows = (Ws.map Csr.rows).sum ∧ R.cols = Ws.length * m ∧
  ∀ b (hb : b < Ws.length), ∀ i < Ws[b].rows, ∀ j < Ws.length * m,
    R.get (((Ws.map Csr.rows).take b).sum + i) j = if j / m = b then Ws[b].get i (j % m) else 0

/-- C20, assembly: for every non-empty family of well-formed CSR matrices with `m` columns (any numbers of rows and
stored entries, including none) the assembled CSR matrix is well formed and is their block diagonal. -/
theorem C20_assembly_block_diagonal (m : ℕ) (Ws : List Csr) (hne : Ws ≠ []) (hW : ∀ W ∈ Ws, W.WF ∧ W.cols = m) :
    ∃ R, assembleCsr m (Ws.map Csr.rows) Ws = .ok R ∧ R.WF ∧ IsBlockDiag m Ws R := by
  have h1 : Ws.map Csr.rows = (Ws.map Csr.toRows).map List.length := by simp [Function.comp_def]
  have h2 : Ws = (Ws.map Csr.toRows).map (Csr.ofRows m) := by
    rw [List.map_map]
    conv_lhs => rw [← List.map_id Ws]
    refine List.map_congr_left fun W hW' => ?_
    obtain ⟨hw, hc⟩ := hW W hW'
    simp only [id, Function.comp]
    rw [← hc]; exact hw.ofRows_toRows
  have e := assembleCsr_eq m (Ws.map Csr.toRows) (by simpa using hne)
  rw [← h1, ← h2, List.length_map] at e
  have hlen : (shiftRows (vmk Ws.length fun i => i * m) (Ws.map Csr.toRows)).length = (Ws.map Csr.rows).sum := by
    rw [← List.length_map (f := List.length), shiftRows_lens _ _ (by simp), List.length_flatten, List.map_map, List.map_map]
    congr 1
    refine List.map_congr_left fun W _ => by simp
  refine ⟨_, e, ?_, hlen, rfl, ?_⟩
  · refine Csr.ofRows_wf fun r hr p hp => ?_
    simp only [shiftRows, List.mem_flatten] at hr
    obtain ⟨L, hL, hr⟩ := hr
    obtain ⟨b, hb, rfl⟩ := List.getElem_of_mem hL
    simp only [List.length_zipWith, vmk_length, List.length_map, min_self] at hb
    simp only [List.getElem_zipWith, List.getElem_map, vmk_getElem, List.mem_map] at hr
    obtain ⟨r', hr', rfl⟩ := hr
    simp only [List.mem_map] at hp
    obtain ⟨q, hq, rfl⟩ := hp
    obtain ⟨hw, hc⟩ := hW Ws[b] (List.getElem_mem hb)
    have := hw.toRows_cols r' hr' q hq
    rw [hc] at this
    exact idx_lt hb this
  · intro b hb i hi j hj
    have hlens : (List.zipWith (fun a rs => rs.map fun r => r.map fun p : ℕ × ℝ => (a + p.1, p.2))
        (vmk Ws.length fun i => i * m) (Ws.map Csr.toRows)).map List.length = Ws.map Csr.rows := by
      refine List.ext_getElem (by simp) fun k h1 h2 => ?_
      simp
    have hget : (List.zipWith (fun a rs => rs.map fun r => r.map fun p : ℕ × ℝ => (a + p.1, p.2))
        (vmk Ws.length fun i => i * m) (Ws.map Csr.toRows)).getD b [] =
        (Ws[b].toRows).map fun r => r.map fun p : ℕ × ℝ => (b * m + p.1, p.2) := by
      rw [getD_getElem [] (by simpa using hb)]
      simp
    have hsum : ((Ws.map Csr.rows).take b).sum + i < (Ws.map Csr.rows).sum := by
      have hd : (Ws.map Csr.rows).sum = ((Ws.map Csr.rows).take (b + 1)).sum + ((Ws.map Csr.rows).drop (b + 1)).sum := by
        rw [← List.sum_append, List.take_append_drop]
      rw [hd, List.take_add_one, List.getElem?_eq_getElem (by simpa using hb)]
      simp only [Option.toList_some, List.sum_append, List.sum_cons, List.sum_nil, List.getElem_map]
      omega
    rw [Csr.ofRows_get _ _ (by rw [hlen]; exact hsum)]
    unfold shiftRows
    have := flatten_getD (List.zipWith (fun a rs => rs.map fun r => r.map fun p : ℕ × ℝ => (a + p.1, p.2))
        (vmk Ws.length fun i => i * m) (Ws.map Csr.toRows)) ([] : List (ℕ × ℝ)) (b := b) (i := i) (by simpa using hb)
        (by rw [hget]; simpa using hi)
    rw [hlens] at this
    rw [this, hget]
    obtain ⟨hw, hc⟩ := hW Ws[b] (List.getElem_mem hb)
    have hi' : i < Ws[b].toRows.length := by simpa using hi
    have hg : ((Ws[b].toRows).map fun r => r.map fun p : ℕ × ℝ => (b * m + p.1, p.2)).getD i [] =
        (Ws[b].toRows.getD i []).map fun p : ℕ × ℝ => (b * m + p.1, p.2) := by
      rw [getD_getElem [] (by simpa using hi), getD_getElem [] hi', List.getElem_map]
    rw [hg, rowVal_shift]
    · have e2 : Ws[b].get i (j % m) = Csr.rowVal (Ws[b].toRows.getD i []) (j % m) := by
        conv_lhs => rw [hw.ofRows_toRows]
        exact Csr.ofRows_get _ _ hi' _
      rw [e2]
    · intro p hp
      rw [getD_getElem [] hi'] at hp
      have := hw.toRows_cols _ (List.getElem_mem hi') p hp
      rwa [hc] at this

theorem mapExcept_ok {α β : Type} {f : α → Except PyErr β} {g : α → β} {l : List α} (h : ∀ x ∈ l, f x = .ok (g x)) :
    mapExcept f l = .ok (l.map g) := by
  induction l with
  | nil => rfl
  | cons a l ih =>
    simp only [mapExcept, h a (by simp), ok_bind, ih fun x hx => h x (by simp [hx]), List.map_cons]
    rfl

/-- a one-dimensional input array: shape `(n,)` or `(n, 1)` -/
def IsColumn (X : NDArr ℝ) : Prop := X.shape = [X.data.length] ∨ X.shape = [X.data.length, 1]

/-- C20: `multi_interpolant` of one-dimensional inputs (any number of outputs, each with any number of samples, possibly
none) is the block diagonal of the `interp_cubic` matrices of the outputs. -/
theorem C20_multi_interpolant (Xs : List (NDArr ℝ)) (grid : List ℝ) (hne : Xs ≠ []) (hm : 4 ≤ grid.length)
    (hX : ∀ X ∈ Xs, IsColumn X) :
    ∃ Ws R, multiInterpolant Xs [NDArr.vec grid] = .ok R ∧ R.WF ∧ IsBlockDiag grid.length Ws R ∧
      List.Forall₂ (fun X W => interpCubic (NDArr.vec grid) (NDArr.vec X.data) = .ok W ∧ W.rows = X.data.length) Xs Ws := by
  let Wof : NDArr ℝ → Csr := fun X => Csr.ofFn X.data.length grid.length fun i j =>
    interpRow grid.length (interpFactor grid (X.data.getD i 0)) j
  obtain ⟨R, hR, hwf, hbd⟩ := C20_assembly_block_diagonal grid.length (Xs.map Wof) (by simpa using hne) (by
    intro W hW
    simp only [List.mem_map] at hW
    obtain ⟨X, -, rfl⟩ := hW
    exact ⟨Csr.ofFn_wf _ _ _, rfl⟩)
  refine ⟨Xs.map Wof, R, ?_, hwf, hbd, ?_⟩
  · cases Xs with
    | nil => exact absurd rfl hne
    | cons X0 Xs =>
      have hlens : mapExcept (fun X : NDArr ℝ => X.len) (X0 :: Xs) = .ok ((X0 :: Xs).map fun X => X.data.length) := by
        refine mapExcept_ok fun X hX' => ?_
        unfold NDArr.len
        rcases hX X hX' with h | h <;> rw [h]
      have hWs : mapExcept (fun X : NDArr ℝ => interpCubic (NDArr.vec grid) (NDArr.vec X.data)) (X0 :: Xs) =
          .ok ((X0 :: Xs).map Wof) := mapExcept_ok fun X _ => interpCubic_eq hm
      have hm1 : mapExcept (fun g : NDArr ℝ => g.len) [NDArr.vec grid] = .ok [grid.length] := rfl
      have hone : isOneDim X0 = .ok true := by
        rcases hX X0 (by simp) with h | h
        · simp [isOneDim, NDArr.ndim, h]
        · simp [isOneDim, NDArr.ndim, h]
      unfold multiInterpolant
      simp only [hm1, ok_bind, hone, if_true, hWs, hlens]
      rw [← hR]
      congr 1
      · simp
      · rw [List.map_map]
        exact List.map_congr_left fun X _ => by simp [Wof]
  · rw [List.forall₂_map_right_iff, List.forall₂_same]
    exact fun X _ => ⟨interpCubic_eq hm, by simp [Wof]⟩

/-- C20 for two-dimensional inputs: the block diagonal of the `interp_bicubic` matrices. -/
theorem C20_multi_interpolant_2d (Xs : List (NDArr ℝ)) (gridx gridy : List ℝ) (hne : Xs ≠ []) (hx : 4 ≤ gridx.length)
    (hy : 4 ≤ gridy.length) (rows : NDArr ℝ → ℕ) (hX : ∀ X ∈ Xs, X.shape = [rows X, 2]) :
    ∃ Ws R, multiInterpolant Xs [NDArr.vec gridx, NDArr.vec gridy] = .ok R ∧ R.WF ∧
      IsBlockDiag (gridx.length * gridy.length) Ws R ∧
      List.Forall₂ (fun X W => interpBicubic (NDArr.vec gridx) (NDArr.vec gridy) X = .ok W ∧ W.rows = rows X) Xs Ws := by
  let Wof : NDArr ℝ → Csr := fun X => Csr.ofFn (rows X) (gridx.length * gridy.length) fun i j =>
    interpRow gridx.length (interpFactor gridx (X.data.getD (i * 2) 0)) (j / gridy.length) *
        interpRow gridy.length (interpFactor gridy (X.data.getD (i * 2 + 1) 0)) (j % gridy.length)
  obtain ⟨R, hR, hwf, hbd⟩ := C20_assembly_block_diagonal (gridx.length * gridy.length) (Xs.map Wof) (by simpa using hne) (by
    intro W hW
    simp only [List.mem_map] at hW
    obtain ⟨X, -, rfl⟩ := hW
    exact ⟨Csr.ofFn_wf _ _ _, rfl⟩)
  have hB : ∀ X ∈ Xs, interpBicubic (NDArr.vec gridx) (NDArr.vec gridy) X = .ok (Wof X) := by
    intro X hX'
    have e := interpBicubic_eq hx hy (rows X) X.data
    rw [← hX X hX'] at e
    exact e
  refine ⟨Xs.map Wof, R, ?_, hwf, hbd, ?_⟩
  · cases Xs with
    | nil => exact absurd rfl hne
    | cons X0 Xs =>
      have hlens : mapExcept (fun X : NDArr ℝ => X.len) (X0 :: Xs) = .ok ((X0 :: Xs).map rows) := by
        refine mapExcept_ok fun X hX' => ?_
        unfold NDArr.len
        rw [hX X hX']
      have hWs : mapExcept (fun X : NDArr ℝ => interpBicubic (NDArr.vec gridx) (NDArr.vec gridy) X) (X0 :: Xs) =
          .ok ((X0 :: Xs).map Wof) := mapExcept_ok hB
      have hm1 : mapExcept (fun g : NDArr ℝ => g.len) [NDArr.vec gridx, NDArr.vec gridy] = .ok [gridx.length, gridy.length] := rfl
      have hone : isOneDim X0 = .ok false := by
        have h := hX X0 (by simp)
        simp [isOneDim, NDArr.ndim, h]
      unfold multiInterpolant
      simp only [hm1, ok_bind, hone, Bool.false_eq_true, if_false, hWs, hlens]
      rw [← hR]
      congr 1
      · simp
      · rw [List.map_map]
        exact List.map_congr_left fun X _ => by simp [Wof]
  · rw [List.forall₂_map_right_iff, List.forall₂_same]
    exact fun X hX' => ⟨hB X hX', by simp [Wof]⟩

example : ∃ Ws R, multiInterpolant [⟨[2], [0.5, 1.5]⟩, ⟨[0, 1], []⟩, ⟨[1, 1], [7]⟩] [NDArr.vec [0, 1, 2, 3]] = .ok R ∧
    IsBlockDiag 4 Ws R := by
  obtain ⟨Ws, R, h, -, h', -⟩ := C20_multi_interpolant [⟨[2], [0.5, 1.5]⟩, ⟨[0, 1], []⟩, ⟨[1, 1], [7]⟩] [0, 1, 2, 3] (by simp) (by simp)
    (by
      intro X hX
      simp only [List.mem_cons, List.not_mem_nil, or_false] at hX
      rcases hX with rfl | rfl | rfl <;> simp [IsColumn])
  exact ⟨Ws, R, h, h'⟩

end Verif
