import Verif.Proofs.Matrix2
import Verif.Proofs.NumpyUtil

namespace Verif

/-! ### block diagonal -/

/-- entries of the direct sum of a list of `r × c` matrices -/
def directSum : List (ℕ × ℕ × (ℕ → ℕ → ℝ)) → ℕ → ℕ → ℝ
  | [], _, _ => 0
  | (r, c, A) :: rest, i, j =>
    if i < r then (if j < c then A i j else 0)
    else if j < c then 0 else directSum rest (i - r) (j - c)

/-- the list of `(rows, cols, entries)` of operators -/
def denseList (blocks : List MatObj) : List (ℕ × ℕ × (ℕ → ℕ → ℝ)) :=
  blocks.map fun M => (M.rows, M.cols, M.asNumpy.get)

/-- the consecutive block products, concatenated -/
def concatMV (x : List ℝ) : ℕ → List MatObj → List ℝ
  | _, [] => []
  | c, M :: rest => M.matvec (slice x c (c + M.cols)) ++ concatMV x (c + M.cols) rest

theorem setSlice_mid {α : Type*} (a b v d : List α) (h : v.length = b.length) :
    setSlice (a ++ b ++ d) a.length v = a ++ v ++ d := by
  unfold setSlice
  congr 1
  · simp
  · rw [h, ← List.length_append, List.drop_left]

theorem bd_fold (x : List ℝ) : ∀ (blocks : List MatObj) (c : ℕ) (pre mid : List ℝ),
    (∀ M ∈ blocks, Good M) → c + (blocks.map MatObj.cols).sum ≤ x.length →
    mid.length = (blocks.map MatObj.rows).sum →
    ((spansFrom pre.length (blocks.map MatObj.rows)).zip
      ((spansFrom c (blocks.map MatObj.cols)).zip blocks)).foldl
      (fun result t => setSlice result t.1.1 (t.2.2.matvec (slice x t.2.1.1 t.2.1.2))) (pre ++ mid)
      = pre ++ concatMV x c blocks
  | [], c, pre, mid, _, _, hmid => by
    have : mid = [] := by simpa using hmid
    simp [spansFrom, concatMV, this]
  | M :: rest, c, pre, mid, hG, hc, hmid => by
    simp only [List.map_cons, List.sum_cons] at hc hmid
    simp only [List.map_cons, spansFrom, List.zip_cons_cons, List.foldl_cons, concatMV]
    have hM := hG M (by simp)
    have hl : (M.matvec (slice x c (c + M.cols))).length = M.rows :=
      hM.matvec_length (by rw [slice_length (by omega)]; omega)
    have hs : setSlice (pre ++ mid) pre.length (M.matvec (slice x c (c + M.cols))) =
        (pre ++ M.matvec (slice x c (c + M.cols))) ++ mid.drop M.rows := by
      rw [← List.take_append_drop M.rows mid, ← List.append_assoc, setSlice_mid]
      · simp
      · rw [hl]; simp; omega
    rw [hs]
    have hp : pre.length + M.rows = (pre ++ M.matvec (slice x c (c + M.cols))).length := by simp [hl]
    rw [hp, bd_fold x rest (c + M.cols) _ _ (fun K hK => hG K (by simp [hK])) (by omega) (by simp; omega)]
    simp

theorem concatMV_length (x : List ℝ) : ∀ (blocks : List MatObj) (c : ℕ), (∀ M ∈ blocks, Good M) →
    c + (blocks.map MatObj.cols).sum ≤ x.length →
    (concatMV x c blocks).length = (blocks.map MatObj.rows).sum
  | [], _, _, _ => rfl
  | M :: rest, c, hG, hc => by
    simp only [List.map_cons, List.sum_cons] at hc
    simp only [concatMV, List.length_append, List.map_cons, List.sum_cons]
    rw [(hG M (by simp)).matvec_length (by rw [slice_length (by omega)]; omega),
      concatMV_length x rest _ (fun K hK => hG K (by simp [hK])) (by omega)]

theorem concatMV_getD (x : List ℝ) : ∀ (blocks : List MatObj) (c : ℕ), (∀ M ∈ blocks, Good M) →
    c + (blocks.map MatObj.cols).sum ≤ x.length → ∀ i < (blocks.map MatObj.rows).sum,
    (concatMV x c blocks).getD i 0 =
      ∑ j ∈ Finset.range (blocks.map MatObj.cols).sum, directSum (denseList blocks) i j * x.getD (c + j) 0
  | [], _, _, _ => by simp
  | M :: rest, c, hG, hc => by
    intro i hi
    simp only [List.map_cons, List.sum_cons] at hc hi ⊢
    have hM := hG M (by simp)
    have hsl : (slice x c (c + M.cols)).length = M.cols := by rw [slice_length (by omega)]; omega
    have hl : (M.matvec (slice x c (c + M.cols))).length = M.rows := hM.matvec_length hsl
    simp only [concatMV, denseList, List.map_cons, directSum]
    rw [Finset.sum_range_add]
    by_cases h : i < M.rows
    · rw [getD_append_left' (by omega), hM.matvec _ hsl, vmk_getD_lt h]
      have z : ∑ j ∈ Finset.range (rest.map MatObj.cols).sum,
          (if i < M.rows then (if M.cols + j < M.cols then M.asNumpy.get i (M.cols + j) else 0)
            else if M.cols + j < M.cols then 0
              else directSum (rest.map fun M => (M.rows, M.cols, M.asNumpy.get)) (i - M.rows) (M.cols + j - M.cols))
            * x.getD (c + (M.cols + j)) 0 = 0 :=
        Finset.sum_eq_zero fun j _ => by rw [if_pos h, if_neg (by omega), zero_mul]
      rw [z, add_zero]
      refine Finset.sum_congr rfl fun j hj => ?_
      have hj := Finset.mem_range.1 hj
      rw [if_pos h, if_pos hj, slice_getD (by omega)]
    · rw [getD_append_right' (by omega), hl,
        concatMV_getD x rest _ (fun K hK => hG K (by simp [hK])) (by omega) _ (by omega)]
      have z : ∑ j ∈ Finset.range M.cols,
          (if i < M.rows then (if j < M.cols then M.asNumpy.get i j else 0)
            else if j < M.cols then 0
              else directSum (rest.map fun M => (M.rows, M.cols, M.asNumpy.get)) (i - M.rows) (j - M.cols))
            * x.getD (c + j) 0 = 0 :=
        Finset.sum_eq_zero fun j hj => by
          rw [if_neg h, if_pos (Finset.mem_range.1 hj), zero_mul]
      rw [z, zero_add]
      refine Finset.sum_congr rfl fun j hj => ?_
      rw [if_neg h, if_neg (by omega), Nat.add_sub_cancel_left, add_assoc]
      rfl

theorem setBlock_get {Z B : Arr2 ℝ} {rb cb i j : ℕ} (hi : i < Z.rows) (hj : j < Z.cols) :
    (Z.setBlock rb cb B).get i j =
      if rb ≤ i ∧ i < rb + B.rows ∧ cb ≤ j ∧ j < cb + B.cols then B.get (i - rb) (j - cb)
      else Z.get i j := Arr2.of_get hi hj

@[simp] theorem setBlock_rows (Z B : Arr2 ℝ) (rb cb : ℕ) : (Z.setBlock rb cb B).rows = Z.rows := rfl
@[simp] theorem setBlock_cols (Z B : Arr2 ℝ) (rb cb : ℕ) : (Z.setBlock rb cb B).cols = Z.cols := rfl

theorem laBD_fold : ∀ (arrs : List (Arr2 ℝ)) (z : Arr2 ℝ) (r c : ℕ), z.WF →
    (∀ i < z.rows, ∀ j < z.cols, r ≤ i ∨ c ≤ j → z.get i j = 0) →
    let s := arrs.foldl (fun (s : Arr2 ℝ × ℕ × ℕ) B =>
      (s.1.setBlock s.2.1 s.2.2 B, s.2.1 + B.rows, s.2.2 + B.cols)) (z, r, c)
    s.1.WF ∧ s.1.rows = z.rows ∧ s.1.cols = z.cols ∧ ∀ i < z.rows, ∀ j < z.cols,
      s.1.get i j = if r ≤ i ∧ c ≤ j then directSum (arrs.map fun A => (A.rows, A.cols, A.get)) (i - r) (j - c)
        else z.get i j
  | [], z, r, c, hz, h0 => by
    refine ⟨hz, rfl, rfl, fun i hi j hj => ?_⟩
    simp only [List.foldl_nil, List.map_nil, directSum]
    split
    · exact h0 i hi j hj (Or.inl (by omega))
    · rfl
  | B :: arrs, z, r, c, hz, h0 => by
    have ih := laBD_fold arrs (z.setBlock r c B) (r + B.rows) (c + B.cols) (Arr2.of_wf _ _ _) (by
      intro i (hi : i < z.rows) j (hj : j < z.cols) h
      rw [setBlock_get hi hj, if_neg (by omega)]
      exact h0 i hi j hj (by omega))
    simp only [List.foldl_cons]
    obtain ⟨h1, h2, h3, h4⟩ := ih
    refine ⟨h1, h2, h3, fun i hi j hj => ?_⟩
    rw [h4 i hi j hj, setBlock_get hi hj]
    simp only [List.map_cons, directSum]
    by_cases a : r ≤ i
    · by_cases b : c ≤ j
      · by_cases a' : i < r + B.rows
        · by_cases b' : j < c + B.cols
          · rw [if_neg (by omega), if_pos (by omega), if_pos ⟨a, b⟩, if_pos (by omega), if_pos (by omega)]
          · rw [if_neg (by omega), if_neg (by omega), if_pos ⟨a, b⟩, if_pos (by omega), if_neg (by omega)]
            exact h0 i hi j hj (Or.inl a)
        · by_cases b' : j < c + B.cols
          · rw [if_neg (by omega), if_neg (by omega), if_pos ⟨a, b⟩, if_neg (by omega), if_pos (by omega)]
            exact h0 i hi j hj (Or.inl a)
          · rw [if_pos (by omega), if_pos ⟨a, b⟩, if_neg (by omega), if_neg (by omega)]
            rw [show i - (r + B.rows) = i - r - B.rows by omega, show j - (c + B.cols) = j - c - B.cols by omega]
      · rw [if_neg (by omega), if_neg (by omega), if_neg (by omega)]
    · rw [if_neg (by omega), if_neg (by omega), if_neg (by omega)]

theorem laBlockDiag_eq (arrs : List (Arr2 ℝ)) :
    laBlockDiag arrs = Arr2.of (arrs.map Arr2.rows).sum (arrs.map Arr2.cols).sum
      (directSum (arrs.map fun A => (A.rows, A.cols, A.get))) := by
  obtain ⟨h1, h2, h3, h4⟩ := laBD_fold arrs (Arr2.zeros (arrs.map Arr2.rows).sum (arrs.map Arr2.cols).sum) 0 0
    (Arr2.of_wf _ _ _) (fun i hi j hj _ => Arr2.of_get hi hj)
  unfold laBlockDiag
  simp only
  refine Arr2.ext' h1 (Arr2.of_wf _ _ _) h2 h3 fun i hi j hj => ?_
  rw [h2] at hi; rw [h3] at hj
  rw [h4 i hi j hj, if_pos (by omega)]
  exact (Arr2.of_get hi hj).symm

theorem Good.rows {M : MatObj} (h : Good M) : M.asNumpy.rows = M.rows := by rw [h.asNumpy]; rfl
theorem Good.cols {M : MatObj} (h : Good M) : M.asNumpy.cols = M.cols := by rw [h.asNumpy]; rfl

theorem blockDiag_ok {blocks : List MatObj} {M : MatObj} (h : blockDiagNew blocks = .ok M) :
    blocks ≠ [] ∧ 0 < M.rows ∧ 0 < M.cols ∧ M.rows = (blocks.map MatObj.rows).sum ∧
    M.cols = (blocks.map MatObj.cols).sum := by
  simp only [blockDiagNew, bind_ok, pure_ok] at h
  obtain ⟨_, h1, ⟨rb, re⟩, hr, ⟨cb, ce⟩, hc, rfl⟩ := h
  obtain ⟨h1, h2⟩ := matrixInit_ok.1 h1
  refine ⟨?_, h1, h2, rfl, rfl⟩
  rintro rfl; simp at h1

theorem blockDiag_represents {blocks : List MatObj} {M : MatObj} (hG : ∀ K ∈ blocks, Good K)
    (h : blockDiagNew blocks = .ok M) : Represents M (directSum (denseList blocks)) := by
  have hne := (blockDiag_ok h).1
  simp only [blockDiagNew, bind_ok, pure_ok] at h
  obtain ⟨_, h1, ⟨rb, re⟩, hr, ⟨cb, ce⟩, hc, rfl⟩ := h
  obtain ⟨h1, h2⟩ := matrixInit_ok.1 h1
  obtain ⟨b, e, hbe, hz, -⟩ := beginEnd_ok (lens := blocks.map MatObj.rows) (by simpa using hne)
  obtain ⟨b', e', hbe', hz', -⟩ := beginEnd_ok (lens := blocks.map MatObj.cols) (by simpa using hne)
  rw [hbe] at hr; rw [hbe'] at hc
  simp only [ok_eq, Prod.mk.injEq] at hr hc
  obtain ⟨rfl, rfl⟩ := hr
  obtain ⟨rfl, rfl⟩ := hc
  refine Represents.ofDefault h1 h2 (fun x hx => ?_) rfl ?_
  · simp only at hx ⊢
    rw [hz, hz']
    have := bd_fold x blocks 0 [] (npEmpty (blocks.map MatObj.rows).sum) hG (by omega) (by simp [npEmpty])
    simp only [List.length_nil, List.nil_append] at this
    rw [this]
    refine eq_vmk 0 (concatMV_length x blocks 0 hG (by omega)) fun i hi => ?_
    rw [concatMV_getD x blocks 0 hG (by omega) i hi]
    simp
  · simp only
    rw [laBlockDiag_eq]
    have e1 : (blocks.map MatObj.asNumpy).map Arr2.rows = blocks.map MatObj.rows := by
      rw [List.map_map]; exact List.map_congr_left fun K hK => (hG K hK).rows
    have e2 : (blocks.map MatObj.asNumpy).map Arr2.cols = blocks.map MatObj.cols := by
      rw [List.map_map]; exact List.map_congr_left fun K hK => (hG K hK).cols
    have e3 : ((blocks.map MatObj.asNumpy).map fun A => (A.rows, A.cols, A.get)) = denseList blocks := by
      rw [List.map_map]
      refine List.map_congr_left fun K hK => ?_
      simp [(hG K hK).rows, (hG K hK).cols]
    rw [e1, e2, e3]

/-! ### symmetric square block matrix -/

theorem spans_vmk (m : ℕ) : ∀ (D s : ℕ),
    (vmk D fun i => s + i * m).zip ((vmk D fun i => s + i * m).map (· + m)) = spansFrom s (List.replicate D m)
  | 0, s => by simp [vmk, spansFrom]
  | D + 1, s => by
    have e : (vmk (D + 1) fun i => s + i * m) = s :: vmk D fun i => (s + m) + i * m := by
      unfold vmk
      rw [List.range_succ_eq_map, List.map_cons, List.map_map]
      simp only [zero_mul, add_zero, List.cons.injEq, true_and]
      exact List.map_congr_left fun i _ => by simp [Nat.succ_mul]; ring
    rw [e, List.replicate_succ, spansFrom, ← spans_vmk m D (s + m)]
    simp

/-- inner loop: one block row -/
theorem ssb_inner (x : List ℝ) (m rb : ℕ) : ∀ (row : List MatObj) (c : ℕ) (res : List ℝ),
    (∀ M ∈ row, Good M ∧ M.rows = m ∧ M.cols = m) → c + row.length * m ≤ x.length →
    rb + m ≤ res.length →
    let out := ((spansFrom c (List.replicate row.length m)).zip row).foldl
      (fun result t => setSlice result rb (vadd (slice result rb (rb + m)) (t.2.matvec (slice x t.1.1 t.1.2)))) res
    out.length = res.length ∧ ∀ k, out.getD k 0 = res.getD k 0 + if rb ≤ k ∧ k < rb + m then
      ∑ j ∈ Finset.range (row.length * m), (row.map fun M => M.asNumpy.get (k - rb)).getD (j / m) 0 (j % m) * x.getD (c + j) 0
      else 0
  | [], c, res, _, _, _ => by simp [spansFrom]
  | M :: row, c, res, hM, hc, hr => by
    obtain ⟨hG, hMr, hMc⟩ := hM M (by simp)
    simp only [List.length_cons, Nat.succ_mul] at hc
    have hsl : (slice x c (c + m)).length = M.cols := by rw [slice_length (by omega)]; omega
    have hl : (M.matvec (slice x c (c + m))).length = m := by rw [hG.matvec_length hsl, hMr]
    have hrs : (slice res rb (rb + m)).length = m := by rw [slice_length (by omega)]; omega
    have hv : (vadd (slice res rb (rb + m)) (M.matvec (slice x c (c + m)))).length = m := by simp [hl, hrs]
    simp only [List.length_cons, List.replicate_succ, spansFrom, List.zip_cons_cons, List.foldl_cons]
    set res' := setSlice res rb (vadd (slice res rb (rb + m)) (M.matvec (slice x c (c + m)))) with hres'
    have hlen' : res'.length = res.length := setSlice_length (by rw [hv]; omega)
    obtain ⟨h1, h2⟩ := ssb_inner x m rb row (c + m) res' (fun K hK => hM K (by simp [hK])) (by omega) (by omega)
    refine ⟨by rw [h1, hlen'], fun k => ?_⟩
    rw [h2 k, hres', setSlice_getD (by rw [hv]; omega), hv]
    by_cases hk : rb ≤ k ∧ k < rb + m
    · have hk' : k - rb < m := by omega
      rw [if_pos hk, if_pos hk, if_pos hk, vadd_getD (by rw [hl, hrs]), slice_getD (by omega),
        hG.matvec _ hsl, vmk_getD_lt (by omega), hMc, show rb + (k - rb) = k by omega, Nat.succ_mul,
        Nat.add_comm (row.length * m) m, Finset.sum_range_add, ← add_assoc]
      congr 1
      · congr 1
        refine Finset.sum_congr rfl fun j hj => ?_
        have hj := Finset.mem_range.1 hj
        rw [slice_getD (by omega), Nat.div_eq_of_lt hj, Nat.mod_eq_of_lt hj]
        simp
      · refine Finset.sum_congr rfl fun j hj => ?_
        have hm : 0 < m := by omega
        rw [Nat.add_div_left _ hm, Nat.add_mod_left]
        simp [add_assoc]
    · rw [if_neg hk, if_neg hk, if_neg hk]

/-- entries of the block matrix of `m × m` blocks -/
def blockEntry (rows : List (List MatObj)) (m i j : ℕ) : ℝ :=
  ((rows.getD (i / m) []).map fun M => M.asNumpy.get (i % m)).getD (j / m) 0 (j % m)

theorem ssb_outer (x : List ℝ) (m D : ℕ) (hx : x.length = D * m) : ∀ (rows : List (List MatObj)) (rb : ℕ) (res : List ℝ),
    (∀ row ∈ rows, row.length = D ∧ ∀ M ∈ row, Good M ∧ M.rows = m ∧ M.cols = m) →
    rb + rows.length * m ≤ res.length →
    let out := ((spansFrom rb (List.replicate rows.length m)).zip rows).foldl (fun result r =>
          ((spansFrom 0 (List.replicate D m)).zip r.2).foldl (fun result c =>
            setSlice result r.1.1
              (vadd (slice result r.1.1 r.1.2) (c.2.matvec (slice x c.1.1 c.1.2)))) result) res
    out.length = res.length ∧ ∀ k, out.getD k 0 = res.getD k 0 + if rb ≤ k ∧ k < rb + rows.length * m then
      ∑ j ∈ Finset.range (D * m), blockEntry rows m (k - rb) j * x.getD j 0 else 0
  | [], rb, res, _, _ => by
    refine ⟨rfl, fun k => ?_⟩
    simp [spansFrom]
  | row :: rows, rb, res, hM, hr => by
    obtain ⟨hrow, hrowM⟩ := hM row (by simp)
    simp only [List.length_cons, Nat.succ_mul] at hr
    have hin := ssb_inner x m rb row 0 res hrowM (by rw [hrow, hx]; omega) (by omega)
    simp only [List.length_cons, List.replicate_succ, spansFrom, List.zip_cons_cons, List.foldl_cons]
    rw [hrow] at hin
    obtain ⟨i1, i2⟩ := hin
    set res' := (List.foldl (fun result t => setSlice result rb (vadd (slice result rb (rb + m)) (t.2.matvec (slice x t.1.1 t.1.2)))) res
      ((spansFrom 0 (List.replicate D m)).zip row)) with hres'
    obtain ⟨o1, o2⟩ := ssb_outer x m D hx rows (rb + m) res' (fun r' h' => hM r' (by simp [h'])) (by omega)
    refine ⟨by rw [o1, i1], fun k => ?_⟩
    rw [o2 k, i2 k]
    by_cases hk : rb ≤ k ∧ k < rb + m
    · rw [if_pos hk, if_neg (by omega), if_pos (by rw [Nat.succ_mul]; omega), add_zero]
      congr 1
      refine Finset.sum_congr rfl fun j _ => ?_
      unfold blockEntry
      rw [Nat.div_eq_of_lt (show k - rb < m by omega), Nat.mod_eq_of_lt (show k - rb < m by omega)]
      simp
    · rw [if_neg hk, add_zero]
      congr 1
      by_cases hk2 : rb + m ≤ k ∧ k < rb + m + rows.length * m
      · rw [if_pos hk2, if_pos (by rw [Nat.succ_mul]; omega)]
        refine Finset.sum_congr rfl fun j _ => ?_
        have hm : 0 < m := by
          rcases Nat.eq_zero_or_pos m with h | h
          · simp [h] at hk2; omega
          · exact h
        unfold blockEntry
        rw [show k - rb = m + (k - (rb + m)) by omega, Nat.add_div_left _ hm, Nat.add_mod_left]
        simp
      · rw [if_neg hk2, if_neg (by rw [Nat.succ_mul]; omega)]

theorem ssb_np_inner (m rb : ℕ) : ∀ (row : List MatObj) (c : ℕ) (z : Arr2 ℝ),
    (∀ M ∈ row, Good M ∧ M.rows = m ∧ M.cols = m) → z.WF →
    let out := ((spansFrom c (List.replicate row.length m)).zip row).foldl
      (fun z t => z.setBlock rb t.1.1 t.2.asNumpy) z
    out.WF ∧ out.rows = z.rows ∧ out.cols = z.cols ∧ ∀ i < z.rows, ∀ j < z.cols, out.get i j =
      if rb ≤ i ∧ i < rb + m ∧ c ≤ j ∧ j < c + row.length * m then
        (row.map fun M => M.asNumpy.get (i - rb)).getD ((j - c) / m) 0 ((j - c) % m) else z.get i j
  | [], c, z, _, hz => by
    refine ⟨hz, rfl, rfl, fun i _ j _ => ?_⟩
    rw [if_neg (by simp <;> omega)]
    rfl
  | M :: row, c, z, hM, hz => by
    obtain ⟨hG, hMr, hMc⟩ := hM M (by simp)
    simp only [List.length_cons, List.replicate_succ, spansFrom, List.zip_cons_cons, List.foldl_cons]
    obtain ⟨h1, h2, h3, h4⟩ := ssb_np_inner m rb row (c + m) (z.setBlock rb c M.asNumpy)
      (fun K hK => hM K (by simp [hK])) (Arr2.of_wf _ _ _)
    refine ⟨h1, h2, h3, fun i hi j hj => ?_⟩
    rw [h4 i hi j hj, setBlock_get hi hj, hG.rows, hG.cols, hMr, hMc]
    have hsm : (row.length + 1) * m = row.length * m + m := Nat.succ_mul _ _
    simp only [hsm]
    by_cases hi' : rb ≤ i ∧ i < rb + m
    · by_cases a : c ≤ j ∧ j < c + m
      · rw [if_neg (by omega), if_pos (by omega), if_pos (by omega),
          Nat.div_eq_of_lt (show j - c < m by omega), Nat.mod_eq_of_lt (show j - c < m by omega)]
        simp
      · by_cases b : c + m ≤ j ∧ j < c + m + row.length * m
        · have hm : 0 < m := by omega
          rw [if_pos (by omega), if_pos (by omega), show j - c = m + (j - (c + m)) by omega,
            Nat.add_div_left _ hm, Nat.add_mod_left]
          simp
        · rw [if_neg (by omega), if_neg (by omega), if_neg (by omega)]
    · rw [if_neg (by omega), if_neg (by omega), if_neg (by omega)]

theorem ssb_np_outer (m D : ℕ) : ∀ (rows : List (List MatObj)) (rb : ℕ) (z : Arr2 ℝ),
    (∀ row ∈ rows, row.length = D ∧ ∀ M ∈ row, Good M ∧ M.rows = m ∧ M.cols = m) → z.WF →
    let out := ((spansFrom rb (List.replicate rows.length m)).zip rows).foldl (fun z r =>
          ((spansFrom 0 (List.replicate D m)).zip r.2).foldl (fun z c => z.setBlock r.1.1 c.1.1 c.2.asNumpy) z) z
    out.WF ∧ out.rows = z.rows ∧ out.cols = z.cols ∧ ∀ i < z.rows, ∀ j < z.cols, out.get i j =
      if rb ≤ i ∧ i < rb + rows.length * m ∧ j < D * m then blockEntry rows m (i - rb) j else z.get i j
  | [], rb, z, _, hz => by
    refine ⟨hz, rfl, rfl, fun i _ j _ => ?_⟩
    rw [if_neg (by simp <;> omega)]
    rfl
  | row :: rows, rb, z, hM, hz => by
    obtain ⟨hrow, hrowM⟩ := hM row (by simp)
    have hin := ssb_np_inner m rb row 0 z hrowM hz
    simp only [List.length_cons, List.replicate_succ, spansFrom, List.zip_cons_cons, List.foldl_cons]
    rw [hrow] at hin
    obtain ⟨i1, i2, i3, i4⟩ := hin
    set z' := (List.foldl (fun z t => z.setBlock rb t.1.1 t.2.asNumpy) z
      ((spansFrom 0 (List.replicate D m)).zip row)) with hz'
    obtain ⟨o1, o2, o3, o4⟩ := ssb_np_outer m D rows (rb + m) z' (fun r' h' => hM r' (by simp [h'])) i1
    refine ⟨o1, by rw [o2, i2], by rw [o3, i3], fun i hi j hj => ?_⟩
    rw [o4 i (by omega) j (by omega), i4 i hi j hj]
    have hsm : (rows.length + 1) * m = rows.length * m + m := Nat.succ_mul _ _
    simp only [hsm]
    unfold blockEntry
    by_cases hj' : j < D * m
    · by_cases a : rb ≤ i ∧ i < rb + m
      · rw [if_neg (by omega), if_pos (by omega), if_pos (by omega),
          Nat.div_eq_of_lt (show i - rb < m by omega), Nat.mod_eq_of_lt (show i - rb < m by omega)]
        simp
      · by_cases b : rb + m ≤ i ∧ i < rb + m + rows.length * m
        · have hm : 0 < m := by
            rcases Nat.eq_zero_or_pos m with h | h
            · simp [h] at hj'
            · exact h
          rw [if_pos (by omega), if_pos (by omega), show i - rb = m + (i - (rb + m)) by omega,
            Nat.add_div_left _ hm, Nat.add_mod_left]
          simp
        · rw [if_neg (by omega), if_neg (by omega), if_neg (by omega)]
    · rw [if_neg (by omega), if_neg (by omega), if_neg (by omega)]

theorem symmSquareBlock_represents {blocks : List (List MatObj)} {M : MatObj} {m : ℕ}
    (hB : ∀ row ∈ blocks, ∀ K ∈ row, Good K ∧ K.rows = m ∧ K.cols = m)
    (h : symmSquareBlockNew blocks = .ok M) :
    M.rows = blocks.length * m ∧ M.cols = blocks.length * m ∧
      (∀ row ∈ blocks, row.length = blocks.length) ∧ Represents M (blockEntry blocks m) := by
  unfold symmSquareBlockNew at h
  simp only at h
  split at h
  · cases h
  · rename_i hD
    simp only [ne_eq, not_not] at hD
    split at h
    · rename_i b00 r0 rest
      simp only [bind_ok, pure_ok] at h
      obtain ⟨_, h1, rfl⟩ := h
      obtain ⟨h1, -⟩ := matrixInit_ok.1 h1
      have hm : b00.rows = m := (hB (b00 :: r0) (by simp) b00 (by simp)).2.1
      set bl := (b00 :: r0) :: rest with hbl
      have hlen : ∀ row ∈ bl, row.length = bl.length := fun row hrow => by
        rw [← Finset.mem_singleton, ← hD, List.mem_toFinset]
        exact List.mem_map_of_mem hrow
      have hall : ∀ row ∈ bl, row.length = bl.length ∧ ∀ M ∈ row, Good M ∧ M.rows = m ∧ M.cols = m :=
        fun row hrow => ⟨hlen row hrow, hB row hrow⟩
      have hsp := spans_vmk m bl.length 0
      simp only [Nat.zero_add] at hsp
      rw [hm] at h1
      refine ⟨by simp [hm], by simp [hm], hlen, Represents.ofDefault (by simpa [hm] using h1) (by simpa [hm] using h1) (fun x hx => ?_) rfl ?_⟩
      · simp only [hm] at hx ⊢
        rw [hsp]
        obtain ⟨o1, o2⟩ := ssb_outer x m bl.length hx bl 0 (vmk x.length fun _ => 0) hall (by simp [hx])
        refine eq_vmk 0 (by rw [o1]; simp [hx]) fun i hi => ?_
        rw [o2 i, if_pos (by omega), vmk_getD_lt (by omega), zero_add, Nat.sub_zero]
      · simp only [hm]
        rw [hsp]
        obtain ⟨o1, o2, o3, o4⟩ := ssb_np_outer m bl.length bl 0 (Arr2.zeros (bl.length * m) (bl.length * m)) hall
          (Arr2.of_wf _ _ _)
        refine Arr2.ext' o1 (Arr2.of_wf _ _ _) o2 o3 fun i hi j hj => ?_
        rw [o2] at hi; rw [o3] at hj
        have hi' : i < bl.length * m := hi
        have hj' : j < bl.length * m := hj
        rw [o4 i hi j hj, if_pos (by omega), Arr2.of_get hi' hj', Nat.sub_zero]
    · cases h

end Verif
