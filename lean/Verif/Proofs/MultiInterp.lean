import Verif.Proofs.Bicubic

namespace Verif

/-! ### every well-formed CSR matrix is a list of rows -/

theorem vmk_succ_append {α : Type*} (n : ℕ) (f : ℕ → α) : vmk (n + 1) f = vmk n f ++ [f n] := by
  simp [vmk, List.range_succ]

namespace Csr

/-- the stored rows of a CSR matrix -/
def toRows (A : Csr) : List (List (ℕ × ℝ)) :=
  vmk A.rows fun i => slice (A.indices.zip A.data) (A.indptr.getD i 0) (A.indptr.getD (i + 1) 0)

theorem WF.le_len {A : Csr} (h : A.WF) : ∀ i ≤ A.rows, A.indptr.getD i 0 ≤ A.data.length := by
  intro i hi
  have : ∀ k, i + k ≤ A.rows → A.indptr.getD i 0 ≤ A.indptr.getD (i + k) 0 := by
    intro k
    induction k with
    | zero => intro _; exact le_rfl
    | succ k ih => intro hk; exact (ih (by omega)).trans (h.mono (i + k) (by omega))
  have := this (A.rows - i) (by omega)
  rwa [show i + (A.rows - i) = A.rows by omega, h.last] at this

theorem WF.ofRows_toRows {A : Csr} (h : A.WF) : A = ofRows A.cols A.toRows := by
  have hz : (A.indices.zip A.data).length = A.data.length := by simp [h.lenIdx]
  have hfl : ∀ r ≤ A.rows, (vmk r fun i => slice (A.indices.zip A.data) (A.indptr.getD i 0) (A.indptr.getD (i + 1) 0)).flatten =
      (A.indices.zip A.data).take (A.indptr.getD r 0) := by
    intro r
    induction r with
    | zero => intro _; rw [h.zero]; simp [vmk]
    | succ r ih =>
      intro hr
      rw [vmk_succ_append, List.flatten_append, ih (by omega)]
      simp only [List.flatten_cons, List.flatten_nil, List.append_nil, slice]
      have := h.mono r (by omega)
      rw [show A.indptr.getD (r + 1) 0 = A.indptr.getD r 0 + (A.indptr.getD (r + 1) 0 - A.indptr.getD r 0) by omega,
        List.take_add]
      congr 3
      omega
  have hflat : A.toRows.flatten = A.indices.zip A.data := by
    rw [toRows, hfl A.rows le_rfl, h.last, ← hz, List.take_length]
  have hsum : ∀ r ≤ A.rows, ((A.toRows.map List.length).take r).sum = A.indptr.getD r 0 := by
    intro r
    induction r with
    | zero => intro _; rw [h.zero]; simp
    | succ r ih =>
      intro hr
      have hl : r < (A.toRows.map List.length).length := by simp [toRows]; omega
      rw [List.take_add_one, List.sum_append, ih (by omega), List.getElem?_eq_getElem hl]
      simp only [Option.toList_some, List.sum_cons, List.sum_nil, add_zero]
      have : (A.toRows.map List.length)[r] = A.indptr.getD (r + 1) 0 - A.indptr.getD r 0 := by
        rw [List.getElem_map]
        simp only [toRows, vmk_getElem]
        rw [slice_length]
        rw [hz]; exact h.le_len _ hr
      rw [this]
      have := h.mono r (by omega)
      omega
  obtain ⟨r, c, ptr, idx, dat⟩ := A
  simp only [ofRows, Csr.mk.injEq, hflat]
  refine ⟨by simp [toRows], trivial, ?_, ?_, ?_⟩
  · refine list_ext_getD 0 ?_ fun i hi => ?_
    · have := h.lenPtr
      simp only at this
      simp [accumulate_length, toRows, this]
    · have := h.lenPtr
      simp only at this
      rw [indptr_getD _ (by simp [toRows]; omega)]
      exact (hsum i (by simp only; omega)).symm
  · have := h.lenIdx
    simp only at this
    rw [List.map_fst_zip (by omega)]
  · have := h.lenIdx
    simp only at this
    rw [List.map_snd_zip (by omega)]

theorem WF.toRows_cols {A : Csr} (h : A.WF) : ∀ r ∈ A.toRows, ∀ p ∈ r, p.1 < A.cols := by
  intro r hr p hp
  simp only [toRows, vmk, List.mem_map, List.mem_range] at hr
  obtain ⟨i, hi, rfl⟩ := hr
  simp only [slice] at hp
  have hm := List.mem_of_mem_drop (List.mem_of_mem_take hp)
  have hm' : p.1 ∈ A.indices := (List.of_mem_zip hm).1
  obtain ⟨k, hk, hk'⟩ := List.getElem_of_mem hm'
  have := h.idx k (by rw [← h.lenIdx]; exact hk)
  rw [getD_getElem 0 hk, hk'] at this
  exact this

@[simp] theorem toRows_length (A : Csr) : A.toRows.length = A.rows := by simp [toRows]

end Csr

/-! ### slice-wise updates over consecutive spans -/

theorem setSlice_block {α : Type*} (pre B post v : List α) (h : v.length = B.length) :
    setSlice (pre ++ B ++ post) pre.length v = pre ++ v ++ post := by
  unfold setSlice
  have h1 : (pre ++ B ++ post).take pre.length = pre := by rw [List.append_assoc, List.take_left]
  have h2 : (pre ++ B ++ post).drop (pre.length + v.length) = post := by
    rw [h, ← List.length_append, List.drop_left]
  rw [h1, h2]

theorem slice_block {α : Type*} (pre B post : List α) : slice (pre ++ B ++ post) pre.length (pre.length + B.length) = B := by
  unfold slice
  rw [List.append_assoc, List.drop_left]
  simp

theorem addSlice_block (pre B post v : List ℕ) (h : v.length = B.length) :
    addSlice (pre ++ B ++ post) pre.length (pre.length + B.length) v = pre ++ List.zipWith (· + ·) B v ++ post := by
  unfold addSlice
  rw [slice_block, setSlice_block]
  simp [h]

theorem foldl_addSlice (vs : List (List ℕ)) : ∀ (pre : List ℕ) (Bs : List (List ℕ)) (post : List ℕ),
    Bs.map List.length = vs.map List.length →
    ((spansFrom pre.length (vs.map List.length)).zip vs).foldl (fun s t => addSlice s t.1.1 t.1.2 t.2) (pre ++ Bs.flatten ++ post) =
      pre ++ (List.zipWith (List.zipWith (· + ·)) Bs vs).flatten ++ post := by
  induction vs with
  | nil =>
    intro pre Bs post h
    have : Bs = [] := by simpa using h
    subst this; simp [spansFrom]
  | cons v vs ih =>
    intro pre Bs post h
    cases Bs with
    | nil => simp at h
    | cons B Bs =>
      simp only [List.map_cons, List.cons.injEq] at h
      simp only [List.map_cons, spansFrom, List.zip_cons_cons, List.foldl_cons, List.flatten_cons, List.zipWith_cons_cons]
      have e := addSlice_block pre B (Bs.flatten ++ post) v h.1.symm
      rw [h.1] at e
      rw [show pre ++ (B ++ Bs.flatten) ++ post = pre ++ B ++ (Bs.flatten ++ post) by simp, e]
      have hl : (pre ++ List.zipWith (· + ·) B v).length = pre.length + v.length := by simp [h.1]
      have := ih (pre ++ List.zipWith (· + ·) B v) Bs post h.2
      rw [hl] at this
      rw [show pre ++ List.zipWith (· + ·) B v ++ (Bs.flatten ++ post) =
        (pre ++ List.zipWith (· + ·) B v) ++ Bs.flatten ++ post by simp, this]
      simp

theorem foldl_setSlice {α : Type*} (vs : List (List α)) : ∀ (pre mid post : List α),
    mid.length = (vs.map List.length).sum →
    ((spansFrom pre.length (vs.map List.length)).zip vs).foldl (fun s t => setSlice s t.1.1 t.2) (pre ++ mid ++ post) =
      pre ++ vs.flatten ++ post := by
  induction vs with
  | nil =>
    intro pre mid post h
    have : mid = [] := by simpa using h
    subst this; simp [spansFrom]
  | cons v vs ih =>
    intro pre mid post h
    simp only [List.map_cons, List.sum_cons] at h
    simp only [List.map_cons, spansFrom, List.zip_cons_cons, List.foldl_cons, List.flatten_cons]
    have e := setSlice_block pre (mid.take v.length) (mid.drop v.length ++ post) v (by simp; omega)
    rw [show pre ++ mid.take v.length ++ (mid.drop v.length ++ post) = pre ++ mid ++ post by
      rw [← List.append_assoc, List.append_assoc pre, List.take_append_drop]] at e
    rw [e]
    have := ih (pre ++ v) (mid.drop v.length) post (by simp; omega)
    rw [List.length_append] at this
    rw [show pre ++ v ++ (mid.drop v.length ++ post) = pre ++ v ++ mid.drop v.length ++ post by simp, this]
    simp

theorem foldl_prod3 {α β γ δ : Type*} (l : List δ) (f : α → δ → α) (g : β → δ → β) (h : γ → δ → γ) (a : α) (b : β) (c : γ) :
    l.foldl (fun (s : α × β × γ) t => (f s.1 t, g s.2.1 t, h s.2.2 t)) (a, b, c) = (l.foldl f a, l.foldl g b, l.foldl h c) := by
  induction l generalizing a b c with
  | nil => rfl
  | cons x l ih => simp [ih]

/-! ### row pointers of a concatenation -/

/-- `indptr[:-1]` for rows of the given lengths -/
def ptrs (l : List ℕ) : List ℕ := vmk l.length fun i => (l.take i).sum

theorem ptrs_eq (l : List ℕ) : (0 :: accumulate l).dropLast = ptrs l := by
  refine eq_vmk 0 (by simp [accumulate_length]) fun i hi => ?_
  rw [← indptr_getD l (by omega), List.dropLast_eq_take, getD_take (by simp [accumulate_length]; omega)]

theorem ptrs_append (l l' : List ℕ) : ptrs (l ++ l') = ptrs l ++ (ptrs l').map (l.sum + ·) := by
  symm
  refine eq_vmk 0 (by simp [ptrs]) fun i hi => ?_
  by_cases h : i < l.length
  · rw [getD_append_left' (by simpa [ptrs] using h), ptrs, vmk_getD_lt h, List.take_append_of_le_length (by omega)]
  · have hi' : i - l.length < l'.length := by simp at hi; omega
    rw [getD_append_right' (by simp [ptrs]; omega)]
    have e : i = l.length + (i - l.length) := by omega
    have hp : (ptrs l).length = l.length := by simp [ptrs]
    rw [hp]
    conv_rhs => rw [e, List.take_length_add_append]
    simp [ptrs, hi']

theorem ptrs_flatten (s : ℕ) (ls : List (List ℕ)) : (ptrs ls.flatten).map (s + ·) =
    (List.zipWith (fun (sp : ℕ × ℕ) l => (ptrs l).map (sp.1 + ·)) (spansFrom s (ls.map List.sum)) ls).flatten := by
  induction ls generalizing s with
  | nil => simp [ptrs, vmk, spansFrom]
  | cons l ls ih =>
    simp only [List.flatten_cons, List.map_cons, spansFrom, List.zipWith_cons_cons]
    rw [ptrs_append, List.map_append, ← ih (s + l.sum), List.map_map]
    congr 2
    funext x; simp [add_assoc]

theorem indptr_eq (l : List ℕ) : 0 :: accumulate l = ptrs l ++ [l.sum] := by
  refine list_ext_getD 0 (by simp [accumulate_length, ptrs]) fun i hi => ?_
  simp only [List.length_cons, accumulate_length] at hi
  rw [indptr_getD _ (by omega)]
  by_cases h : i < l.length
  · rw [getD_append_left' (by simpa [ptrs] using h), ptrs, vmk_getD_lt h]
  · have : i = l.length := by omega
    subst this
    rw [getD_append_right' (by simp [ptrs])]
    simp [ptrs]

theorem spansFrom_snd_last (s : ℕ) (l : List ℕ) (h : l ≠ []) : ((spansFrom s l).map Prod.snd).getLast? = some (s + l.sum) := by
  induction l generalizing s with
  | nil => exact absurd rfl h
  | cons a l ih =>
    simp only [spansFrom, List.map_cons]
    cases l with
    | nil => simp [spansFrom]
    | cons b l =>
      have := ih (s + a) (by simp)
      simp only [spansFrom, List.map_cons] at this ⊢
      rw [List.getLast?_cons_cons, this]
      simp [add_assoc]

/-- rows of all outputs, output `b`'s columns moved by `ms[b]` -/
def shiftRows (ms : List ℕ) (rss : List (List (List (ℕ × ℝ)))) : List (List (ℕ × ℝ)) :=
  (List.zipWith (fun a rs => rs.map fun r => r.map fun p => (a + p.1, p.2)) ms rss).flatten

theorem shiftRows_lens (ms : List ℕ) (rss : List (List (List (ℕ × ℝ)))) (h : ms.length = rss.length) :
    (shiftRows ms rss).map List.length = (rss.map fun rs => rs.map List.length).flatten := by
  unfold shiftRows
  induction rss generalizing ms with
  | nil => simp
  | cons rs rss ih =>
    cases ms with
    | nil => simp at h
    | cons a ms =>
      simp only [List.zipWith_cons_cons, List.flatten_cons, List.map_append, List.map_cons]
      rw [ih ms (by simpa using h)]
      congr 1
      simp [List.map_map, Function.comp_def]

theorem shiftRows_data (ms : List ℕ) (rss : List (List (List (ℕ × ℝ)))) (h : ms.length = rss.length) :
    ((shiftRows ms rss).flatten).map Prod.snd = (rss.map fun rs => (rs.flatten).map Prod.snd).flatten := by
  unfold shiftRows
  induction rss generalizing ms with
  | nil => simp
  | cons rs rss ih =>
    cases ms with
    | nil => simp at h
    | cons a ms =>
      simp only [List.zipWith_cons_cons, List.flatten_cons, List.flatten_append, List.map_append, List.map_cons]
      rw [ih ms (by simpa using h)]
      congr 1
      rw [List.map_flatten, List.map_flatten, List.map_map]
      congr 1
      refine List.map_congr_left fun r _ => ?_
      simp [Function.comp_def]

theorem zipWith_replicate_add (a : ℕ) (l : List ℕ) : List.zipWith (· + ·) (List.replicate l.length a) l = l.map (a + ·) := by
  induction l with
  | nil => rfl
  | cons x l ih => simp [List.replicate_succ, ih]

theorem shiftRows_indices (ms : List ℕ) (rss : List (List (List (ℕ × ℝ)))) (h : ms.length = rss.length) :
    ((shiftRows ms rss).flatten).map Prod.fst =
      (List.zipWith (List.zipWith (· + ·))
        (List.zipWith (fun v c => List.replicate c v) ms (rss.map fun rs => rs.flatten.length))
        (rss.map fun rs => (rs.flatten).map Prod.fst)).flatten := by
  unfold shiftRows
  induction rss generalizing ms with
  | nil => simp
  | cons rs rss ih =>
    cases ms with
    | nil => simp at h
    | cons a ms =>
      simp only [List.zipWith_cons_cons, List.flatten_cons, List.flatten_append, List.map_append, List.map_cons]
      rw [ih ms (by simpa using h)]
      congr 1
      have e : rs.flatten.length = ((rs.flatten).map Prod.fst).length := by rw [List.length_map]
      rw [e, zipWith_replicate_add, List.map_flatten, List.map_flatten, List.map_flatten, List.map_map, List.map_map]
      congr 1
      refine List.map_congr_left fun r _ => ?_
      simp [Function.comp_def]

theorem Csr.ofRows_nnz (c : ℕ) (rs : List (List (ℕ × ℝ))) : (Csr.ofRows c rs).nnz = rs.flatten.length := by
  unfold Csr.nnz
  simp only [Csr.ofRows]
  rw [indptr_eq, List.getLast?_concat, List.length_flatten]
  rfl

theorem zip_zip_map1 {α β γ : Type*} (as : List α) (bs : List β) (cs : List γ) (h : bs.length = as.length) :
    (as.zip (bs.zip cs)).map (fun t => (t.1, t.2.2)) = as.zip cs := by
  induction as generalizing bs cs with
  | nil => simp
  | cons a as ih =>
    cases bs with
    | nil => simp at h
    | cons b bs =>
      cases cs with
      | nil => simp
      | cons c cs => simp [ih bs cs (by simpa using h)]

theorem zip_zip_map2 {α β γ : Type*} (as : List α) (bs : List β) (cs : List γ) (h : as.length = bs.length) :
    (as.zip (bs.zip cs)).map (fun t => (t.2.1, t.2.2)) = bs.zip cs := by
  induction as generalizing bs cs with
  | nil => cases bs with
    | nil => simp
    | cons => simp at h
  | cons a as ih =>
    cases bs with
    | nil => simp at h
    | cons b bs =>
      cases cs with
      | nil => simp
      | cons c cs => simp [ih bs cs (by simpa using h)]

theorem foldl_zip_map {σ α γ δ : Type*} (G : σ → α → δ → σ) (f : γ → δ) (as : List α) (cs : List γ) (s : σ) :
    (as.zip (cs.map f)).foldl (fun s t => G s t.1 t.2) s = (as.zip cs).foldl (fun s t => G s t.1 (f t.2)) s := by
  rw [List.zip_map_right, List.foldl_map]; rfl

theorem foldl_zip1 {σ α β γ : Type*} (G : σ → α → γ → σ) (as : List α) (bs : List β) (cs : List γ)
    (h : bs.length = as.length) (s : σ) :
    (as.zip (bs.zip cs)).foldl (fun s t => G s t.1 t.2.2) s = (as.zip cs).foldl (fun s t => G s t.1 t.2) s := by
  rw [← zip_zip_map1 as bs cs h, List.foldl_map]

theorem foldl_zip2 {σ α β γ : Type*} (G : σ → β → γ → σ) (as : List α) (bs : List β) (cs : List γ)
    (h : as.length = bs.length) (s : σ) :
    (as.zip (bs.zip cs)).foldl (fun s t => G s t.2.1 t.2.2) s = (bs.zip cs).foldl (fun s t => G s t.1 t.2) s := by
  conv_rhs => rw [← zip_zip_map2 as bs cs h, List.foldl_map]

theorem beginEnd_full {lens : List ℕ} (h : lens ≠ []) :
    beginEndIndices lens = .ok ((spansFrom 0 lens).map Prod.fst, (spansFrom 0 lens).map Prod.snd) := by
  obtain ⟨b, e, h1, h2, h3, h4⟩ := beginEnd_ok h
  rw [h1, ← h2, List.map_fst_zip (by omega), List.map_snd_zip (by omega)]

theorem begins_eq {lens : List ℕ} (h : lens ≠ []) : 0 :: (roll1 (accumulate lens)).tail = (spansFrom 0 lens).map Prod.fst := by
  have e := beginEnd_full h
  unfold beginEndIndices at e
  simp only at e
  cases hr : roll1 (accumulate lens) with
  | nil => rw [hr] at e; cases e
  | cons a t =>
    rw [hr] at e
    have := Except.ok.inj e
    simp only [Prod.mk.injEq] at this
    simp [this.1]

theorem zip_fst_snd {α β : Type*} (l : List (α × β)) : (l.map Prod.fst).zip (l.map Prod.snd) = l := by
  induction l with
  | nil => rfl
  | cons a l ih => simp [ih]

theorem assembleCsr_eq (m : ℕ) (rss : List (List (List (ℕ × ℝ)))) (hne : rss ≠ []) :
    assembleCsr m (rss.map List.length) (rss.map (Csr.ofRows m)) =
      .ok (Csr.ofRows (rss.length * m) (shiftRows (vmk rss.length fun i => i * m) rss)) := by
  unfold assembleCsr
  have hne1 : rss.map List.length ≠ [] := by simpa using hne
  have hnnz : (rss.map (Csr.ofRows m)).map Csr.nnz = rss.map fun rs => rs.flatten.length := by
    rw [List.map_map]
    refine List.map_congr_left fun rs _ => Csr.ofRows_nnz m rs
  have hnnz' : ((rss.map (Csr.ofRows m)).map fun W => W.indptr.getLast?.getD 0) = rss.map fun rs => rs.flatten.length := hnnz
  have hne2 : (rss.map fun rs => rs.flatten.length) ≠ [] := by simpa using hne
  simp only [hnnz, hnnz', beginEnd_full hne1, beginEnd_full hne2, ok_bind, zip_fst_snd, begins_eq hne2,
    spansFrom_snd_last 0 _ hne1, spansFrom_snd_last 0 _ hne2, zero_add, Option.getD_some]
  have hp := foldl_prod3 ((spansFrom 0 (rss.map List.length)).zip
      ((spansFrom 0 (rss.map fun rs => rs.flatten.length)).zip (rss.map (Csr.ofRows m))))
    (fun (s : List ℕ) t => addSlice s t.1.1 t.1.2 t.2.2.indptr.dropLast)
    (fun (s : List ℝ) t => setSlice s t.2.1.1 t.2.2.data)
    (fun (s : List ℕ) t => addSlice s t.2.1.1 t.2.1.2 t.2.2.indices)
  simp only [hp]
  have L1 : (spansFrom 0 (rss.map List.length)).length = rss.length := by simp [spansFrom_length]
  have L2 : (spansFrom 0 (rss.map fun rs => rs.flatten.length)).length = rss.length := by simp [spansFrom_length]
  have hms : (vmk rss.length fun i => i * m).length = rss.length := by simp
  refine congrArg Except.ok ?_
  simp only [List.length_map]
  simp only [Csr.ofRows, Csr.mk.injEq, true_and]
  refine ⟨?_, ?_, ?_, ?_⟩
  · -- rows
    rw [← List.length_map (f := List.length), shiftRows_lens _ _ hms, List.length_flatten, List.map_map]
    congr 1
    refine List.map_congr_left fun rs _ => ?_
    simp
  · -- indptr
    have e : ∀ init : List ℕ, List.foldl (fun s (t : (ℕ × ℕ) × ((ℕ × ℕ) × Csr)) => addSlice s t.1.1 t.1.2 t.2.2.indptr.dropLast) init
        ((spansFrom 0 (rss.map List.length)).zip ((spansFrom 0 (rss.map fun rs => rs.flatten.length)).zip (rss.map (Csr.ofRows m)))) =
        ((spansFrom 0 (rss.map List.length)).zip (rss.map fun rs => ptrs (rs.map List.length))).foldl
          (fun s t => addSlice s t.1.1 t.1.2 t.2) init := by
      intro init
      have : (rss.map fun rs => ptrs (rs.map List.length)) = (rss.map (Csr.ofRows m)).map fun W => W.indptr.dropLast := by
        rw [List.map_map]
        refine List.map_congr_left fun rs _ => ?_
        simp only [Function.comp, Csr.ofRows, ptrs_eq]
      rw [this, foldl_zip_map (fun s (a : ℕ × ℕ) v => addSlice s a.1 a.2 v)]
      exact foldl_zip1 (fun s (a : ℕ × ℕ) (W : Csr) => addSlice s a.1 a.2 W.indptr.dropLast) _ _ _ (by rw [L1, L2]) init
    refine (e _).trans ?_
    have hl : (rss.map fun rs => ptrs (rs.map List.length)).map List.length = rss.map List.length := by
      rw [List.map_map]; refine List.map_congr_left fun rs _ => ?_
      simp [ptrs]
    have hB : (List.zipWith (fun v c => List.replicate c v) ((spansFrom 0 (rss.map fun rs => rs.flatten.length)).map Prod.fst)
        (rss.map List.length)).map List.length = (rss.map fun rs => ptrs (rs.map List.length)).map List.length := by
      rw [hl, List.map_zipWith]
      simp only [List.length_replicate]
      rw [show (fun (x : ℕ) (y : ℕ) => y) = fun x y => (fun z => z) y from rfl]
      refine List.ext_getElem (by simp [spansFrom_length]) fun i h1 h2 => by simp
    have key := foldl_addSlice (rss.map fun rs => ptrs (rs.map List.length)) []
      (List.zipWith (fun v c => List.replicate c v) ((spansFrom 0 (rss.map fun rs => rs.flatten.length)).map Prod.fst)
        (rss.map List.length)) [(rss.map fun rs => rs.flatten.length).sum] hB
    rw [hl] at key
    simp only [List.nil_append, List.length_nil] at key
    unfold npRepeat
    rw [key, shiftRows_lens _ _ hms, indptr_eq]
    congr 1
    · have := ptrs_flatten 0 (rss.map fun rs => rs.map List.length)
      simp only [zero_add, List.map_id', List.map_map, Function.comp_def] at this
      rw [this]
      congr 1
      have hs : (rss.map fun rs : List (List (ℕ × ℝ)) => (rs.map List.length).sum) = rss.map fun rs => rs.flatten.length :=
        List.map_congr_left fun rs _ => (List.length_flatten).symm
      rw [hs]
      refine List.ext_getElem (by simp [spansFrom_length]) fun i h1 h2 => ?_
      simp only [List.getElem_zipWith, List.getElem_map]
      have hi : i < rss.length := by simpa using (by simpa using h2 : i < _ ∧ i < rss.length).2
      have : rss[i].length = (ptrs (rss[i].map List.length)).length := by simp [ptrs]
      rw [this, zipWith_replicate_add]
    · congr 1
      rw [List.sum_flatten, List.map_map]
      congr 1
      refine List.map_congr_left fun rs _ => by simp [List.length_flatten]
  · -- indices
    have e : ∀ init : List ℕ, List.foldl (fun s (t : (ℕ × ℕ) × ((ℕ × ℕ) × Csr)) => addSlice s t.2.1.1 t.2.1.2 t.2.2.indices) init
        ((spansFrom 0 (rss.map List.length)).zip ((spansFrom 0 (rss.map fun rs => rs.flatten.length)).zip (rss.map (Csr.ofRows m)))) =
        ((spansFrom 0 (rss.map fun rs => rs.flatten.length)).zip (rss.map fun rs => (rs.flatten).map Prod.fst)).foldl
          (fun s t => addSlice s t.1.1 t.1.2 t.2) init := by
      intro init
      have : (rss.map fun rs => (rs.flatten).map Prod.fst) = (rss.map (Csr.ofRows m)).map fun W => W.indices := by
        rw [List.map_map]; rfl
      rw [this, foldl_zip_map (fun s (a : ℕ × ℕ) v => addSlice s a.1 a.2 v)]
      exact foldl_zip2 (fun s (a : ℕ × ℕ) (W : Csr) => addSlice s a.1 a.2 W.indices) _ _ _ (by rw [L1, L2]) init
    refine (e _).trans ?_
    have hl : (rss.map fun rs => (rs.flatten).map Prod.fst).map List.length = rss.map fun rs => rs.flatten.length := by
      rw [List.map_map]; refine List.map_congr_left fun rs _ => ?_
      simp only [Function.comp, List.length_map]
    have hB : (List.zipWith (fun v c => List.replicate c v) (vmk rss.length fun i => i * m)
        (rss.map fun rs => rs.flatten.length)).map List.length =
        (rss.map fun rs => (rs.flatten).map Prod.fst).map List.length := by
      rw [hl, List.map_zipWith]
      refine List.ext_getElem (by simp) fun i h1 h2 => by simp
    have key := foldl_addSlice (rss.map fun rs => (rs.flatten).map Prod.fst) []
      (List.zipWith (fun v c => List.replicate c v) (vmk rss.length fun i => i * m)
        (rss.map fun rs => rs.flatten.length)) [] hB
    rw [hl] at key
    simp only [List.nil_append, List.append_nil, List.length_nil] at key
    unfold npRepeat
    rw [key, shiftRows_indices _ _ hms]
  · -- data
    have e : ∀ init : List ℝ, List.foldl (fun s (t : (ℕ × ℕ) × ((ℕ × ℕ) × Csr)) => setSlice s t.2.1.1 t.2.2.data) init
        ((spansFrom 0 (rss.map List.length)).zip ((spansFrom 0 (rss.map fun rs => rs.flatten.length)).zip (rss.map (Csr.ofRows m)))) =
        ((spansFrom 0 (rss.map fun rs => rs.flatten.length)).zip (rss.map fun rs => (rs.flatten).map Prod.snd)).foldl
          (fun s t => setSlice s t.1.1 t.2) init := by
      intro init
      have : (rss.map fun rs => (rs.flatten).map Prod.snd) = (rss.map (Csr.ofRows m)).map fun W => W.data := by
        rw [List.map_map]; rfl
      rw [this, foldl_zip_map (fun s (a : ℕ × ℕ) v => setSlice s a.1 v)]
      exact foldl_zip2 (fun s (a : ℕ × ℕ) (W : Csr) => setSlice s a.1 W.data) _ _ _ (by rw [L1, L2]) init
    refine (e _).trans ?_
    have hl : (rss.map fun rs => (rs.flatten).map Prod.snd).map List.length = rss.map fun rs => rs.flatten.length := by
      rw [List.map_map]; refine List.map_congr_left fun rs _ => ?_
      simp only [Function.comp, List.length_map]
    have key := foldl_setSlice (rss.map fun rs => (rs.flatten).map Prod.snd) []
      (npEmpty (rss.map fun rs => rs.flatten.length).sum) [] (by rw [hl]; simp [npEmpty])
    rw [hl] at key
    simp only [List.nil_append, List.append_nil, List.length_nil] at key
    rw [key, shiftRows_data _ _ hms]

end Verif
