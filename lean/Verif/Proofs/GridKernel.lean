import Verif.Proofs.GridOps
import Verif.Proofs.EigBound2
import Verif.Props.FK2

namespace Verif

theorem mapExcept_zip {α β γ δ : Type} {R : α → β → Prop} {S : γ × α → δ → Prop} {f : γ × β → Except PyErr δ} {tops : List α}
    {Ks : List β} (h : List.Forall₂ R tops Ks) : ∀ (mats : List γ),
    (∀ A ∈ mats, ∀ t K, R t K → ∃ y, f (A, K) = .ok y ∧ S (A, t) y) →
    ∃ ys, mapExcept f (mats.zip Ks) = .ok ys ∧ List.Forall₂ S (mats.zip tops) ys := by
  induction h with
  | nil => intro mats _; exact ⟨[], by simp [mapExcept], by simp⟩
  | @cons t K tops Ks h1 _ ih =>
    intro mats hf
    cases mats with
    | nil => exact ⟨[], by simp [mapExcept], by simp⟩
    | cons A mats =>
      obtain ⟨y, h2, h3⟩ := hf A (by simp) t K h1
      obtain ⟨ys, h4, h5⟩ := ih mats fun A hA => hf A (by simp [hA])
      exact ⟨y :: ys, by simp only [List.zip_cons_cons, mapExcept, h2, ok_bind, h4]; rfl, .cons h3 h5⟩

theorem dictIdx_of_get {α β : Type} [DecidableEq α] {d : List (α × β)} {k : α} {v : β} (h : dictGet d k = some v) :
    dictIdx d k = .ok v := by simp [dictIdx, h]

section
variable {fk : FK} {ad idxs : List ℕ} {tops : List (List ℝ)} {sizes : List ℕ}

theorem coregMats_getD (hw : fk.WF) {q : ℕ} (hq : q < fk.Q) :
    fk.coregMats.getD q ⟨0, 0, []⟩ = coregMat (fk.coregVecs.getD q ⟨0, 0, []⟩) (fk.coregDiags.getD q []) := by
  have h1 : q < fk.coregVecs.length := by rw [hw.vecs]; exact hq
  have h2 : q < fk.coregDiags.length := by rw [hw.diags]; exact hq
  unfold FK.coregMats
  rw [List.getD_eq_getElem _ _ (by simp; omega), List.getD_eq_getElem _ _ h1, List.getD_eq_getElem _ _ h2]
  simp

theorem coregMatsAt_eq (hw : fk.WF) (hg : dictGet fk.activeDims ad = some idxs) (hq : ∀ q ∈ idxs, q < fk.Q) :
    fk.coregMatsAt ad = .ok (fk.coregOf idxs) := by
  unfold FK.coregMatsAt FK.coregOf
  rw [dictIdx_of_get hg, ok_bind]
  congr 1
  rw [List.zipWith_map, List.zipWith_self]
  exact List.map_congr_left fun q h => (coregMats_getD hw (hq q h)).symm

theorem coregOf_shape (hw : fk.WF) (hq : ∀ q ∈ idxs, q < fk.Q) : ∀ B ∈ fk.coregOf idxs, B.WF ∧ B.rows = fk.D ∧ B.cols = fk.D := by
  intro B hB
  obtain ⟨q, h1, rfl⟩ := List.mem_map.1 hB
  have h2 : q < fk.coregMats.length := by rw [(C31_coreg_entries fk hw).1]; exact hq q h1
  obtain ⟨a, b, c, -⟩ := (C31_coreg_entries fk hw).2 q (hq q h1) (fk.coregMats.getD q ⟨0, 0, []⟩) (by
    rw [List.getD_eq_getElem _ _ h2, List.getElem?_eq_getElem h2])
  exact ⟨c, a, b⟩

theorem coregOf_entry (hw : fk.WF) {q : ℕ} (hq : q < fk.Q) {i j : ℕ} (hi : i < fk.D) (hj : j < fk.D) :
    (fk.coregMats.getD q ⟨0, 0, []⟩).get i j =
      (∑ r ∈ Finset.range (fk.coregVecs.getD q ⟨0, 0, []⟩).rows, (fk.coregVecs.getD q ⟨0, 0, []⟩).get r i *
          (fk.coregVecs.getD q ⟨0, 0, []⟩).get r j) + if i = j then (fk.coregDiags.getD q []).getD i 0 else 0 := by
  have h2 : q < fk.coregMats.length := by rw [(C31_coreg_entries fk hw).1]; exact hq
  obtain ⟨-, -, -, he⟩ := (C31_coreg_entries fk hw).2 q hq (fk.coregMats.getD q ⟨0, 0, []⟩) (by
    rw [List.getD_eq_getElem _ _ h2, List.getElem?_eq_getElem h2])
  exact he i hi j hj

theorem GridInput.get (h : GridInput fk ad idxs tops sizes) : dictGet fk.activeDims ad = some idxs :=
  (mem_iff_dictGet h.ok.nodup ad idxs).1 h.mem

theorem GridInput.lt (h : GridInput fk ad idxs tops sizes) : ∀ q ∈ idxs, q < fk.Q := (h.ok.group _ h.mem).2.2

theorem GridInput.bttbs (h : GridInput fk ad idxs tops sizes) {tops' : List (List ℝ)} (hs : ∀ t ∈ tops', t.length = sizes.prod) :
    ∃ Ks, mapExcept (gridBttb sizes) tops' = .ok Ks ∧
      List.Forall₂ (fun t K => IsMatrix K sizes.prod sizes.prod fun i j => t.getD (ravelDiff sizes i j) 0) tops' Ks :=
  mapExcept_forall2 fun t ht => isMatrix_bttb h.pos h.dim (hs t ht)

theorem genSumGrid_isMatrix (h : GridInput fk ad idxs tops sizes) :
    ∃ M, genSumGrid fk tops sizes ad = .ok M ∧
      IsMatrix M (fk.D * sizes.prod) (fk.D * sizes.prod) (lmcGridEntry (fk.coregOf idxs) tops sizes) := by
  obtain ⟨Ks, h1, h2⟩ := h.bttbs h.top
  have hB := coregOf_shape h.wf h.lt
  obtain ⟨Ps, h3, h4⟩ := mapExcept_zip (S := fun (Bt : Arr2 ℝ × List ℝ) (M : MatObj) =>
      IsMatrix M (fk.D * sizes.prod) (fk.D * sizes.prod) fun i j => Bt.1.get (i / sizes.prod) (j / sizes.prod) *
        Bt.2.getD (ravelDiff sizes (i % sizes.prod) (j % sizes.prod)) 0) (f := kronOf) h2 (fk.coregOf idxs) (by
    intro B hB' t K hK
    obtain ⟨b1, b2, b3⟩ := hB B hB'
    obtain ⟨A, hA, hA'⟩ := isMatrix_numpy b1 (by rw [b2]; exact h.wf.Dpos) (by rw [b3]; exact h.wf.Dpos)
    rw [b2, b3] at hA'
    obtain ⟨M, hM, hM'⟩ := isMatrix_kron hA' hK
    exact ⟨M, by simp only [kronOf, hA, ok_bind, hM], hM'⟩)
  have hne : (fk.coregOf idxs).zip tops ≠ [] := by
    have := List.length_pos_iff.2 (h.ok.group _ h.mem).1
    rw [← List.length_pos_iff, List.length_zip, h.len]; simp [FK.coregOf]; exact this
  obtain ⟨M, hM, hM'⟩ := isMatrix_sum hne h4
  exact ⟨M, by simp only [genSumGrid, h1, coregMatsAt_eq h.wf h.get h.lt, ok_bind, h3, hM], hM'⟩

theorem seqAll_of_ok {α : Type} : ∀ (l : List (Except PyErr α)), (∀ e ∈ l, ∃ x, e = .ok x) → ∃ r, seqAll l = .ok r
  | [], _ => ⟨[], rfl⟩
  | e :: l, h => by
    obtain ⟨x, rfl⟩ := h e (by simp)
    obtain ⟨r, hr⟩ := seqAll_of_ok l fun e he => h e (by simp [he])
    exact ⟨x :: r, by simp only [seqAll, ok_bind, hr]; rfl⟩

theorem zip_symm (hw : fk.WF) (hq : ∀ q ∈ idxs, q < fk.Q) {i j : ℕ} (hi : i < fk.D) (hj : j < fk.D) (k : ℕ) :
    (((fk.coregOf idxs).zip tops).map fun Bt => Bt.1.get i j * Bt.2.getD k 0).sum =
      (((fk.coregOf idxs).zip tops).map fun Bt => Bt.1.get j i * Bt.2.getD k 0).sum := by
  refine congrArg List.sum (List.map_congr_left fun Bt hBt => ?_)
  obtain ⟨q, h1, h2⟩ := List.mem_map.1 (List.of_mem_zip hBt).1
  rw [← h2, coregOf_entry hw (hq q h1) hi hj, coregOf_entry hw (hq q h1) hj hi]
  congr 2
  · exact Finset.sum_congr rfl fun _ _ => mul_comm _ _
  · by_cases e : i = j
    · subst e; rfl
    · rw [if_neg e, if_neg (Ne.symm e)]

theorem genBtGrid_isMatrix (h : GridInput fk ad idxs tops sizes) :
    ∃ M, genBtGrid fk tops sizes ad = .ok M ∧
      IsMatrix M (fk.D * sizes.prod) (fk.D * sizes.prod) (lmcGridEntry (fk.coregOf idxs) tops sizes) := by
  have hb : ∀ i j, ∃ M, gridBttb sizes (tensorTop (fk.coregOf idxs) tops sizes.prod i j) = .ok M ∧
      IsMatrix M sizes.prod sizes.prod fun a b =>
        (tensorTop (fk.coregOf idxs) tops sizes.prod i j).getD (ravelDiff sizes a b) 0 :=
    fun i j => isMatrix_bttb h.pos h.dim (by simp [tensorTop])
  obtain ⟨r, hr⟩ := seqAll_of_ok ((List.range fk.D).flatMap fun i => (List.range' i (fk.D - i)).map fun j =>
      gridBttb sizes (tensorTop (fk.coregOf idxs) tops sizes.prod i j)) (by
    intro e he
    obtain ⟨i, -, he⟩ := List.mem_flatMap.1 he
    obtain ⟨j, -, rfl⟩ := List.mem_map.1 he
    obtain ⟨M, hM, -⟩ := hb i j
    exact ⟨M, hM⟩)
  obtain ⟨M, hM, hM'⟩ := isMatrix_symmBlock (D := fk.D) (m := sizes.prod) h.wf.Dpos
    (B := symm2dListMap (fun top => MatObj.ofExcept (gridBttb sizes top)) (tensorTop (fk.coregOf idxs) tops sizes.prod) fk.D
      fun _ _ => MatObj.ofExcept (.error .attributeError))
    (A := fun p q a b => (tensorTop (fk.coregOf idxs) tops sizes.prod (min p q) (max p q)).getD (ravelDiff sizes a b) 0) (by
      intro p hp q hq
      rw [symm2dListMap_eq _ _ fk.D _ hp hq]
      obtain ⟨M, hM, hM'⟩ := hb (min p q) (max p q)
      rw [hM]; exact hM')
  refine ⟨M, by simp only [genBtGrid, coregMatsAt_eq h.wf h.get h.lt, ok_bind, hr, hM], hM'.congr fun i hi j hj => ?_⟩
  have hi' : i / sizes.prod < fk.D := Nat.div_lt_of_lt_mul (by rwa [mul_comm] at hi)
  have hj' : j / sizes.prod < fk.D := Nat.div_lt_of_lt_mul (by rwa [mul_comm] at hj)
  unfold tensorTop lmcGridEntry
  rw [vmk_getD_lt (ravelDiff_lt (Nat.mod_lt _ h.pos) (Nat.mod_lt _ h.pos))]
  rcases le_total (i / sizes.prod) (j / sizes.prod) with hle | hle
  · rw [min_eq_left hle, max_eq_right hle]
  · rw [min_eq_right hle, max_eq_left hle]
    exact zip_symm h.wf h.lt hj' hi' _

end

/-! ### the SLFM representation -/

theorem vstack_getD {D : ℕ} : ∀ (l : List (Arr2 ℝ)) (i : ℕ), i < D → (∀ a ∈ l, a.WF ∧ a.cols = D) → ∀ (a : Arr2 ℝ) (r : ℕ),
    a.WF → a.cols = D →
    (r < a.rows → ((a :: l).flatMap Arr2.data).getD (r * D + i) 0 = a.get r i) ∧
    ((a :: l).flatMap Arr2.data).getD ((a.rows + r) * D + i) 0 = (l.flatMap Arr2.data).getD (r * D + i) 0 := by
  intro l i hi hl a r hw hc
  have hlen : a.data.length = a.rows * D := by rw [← hc]; exact hw
  rw [List.flatMap_cons]
  constructor
  · intro hr
    have : r * D + i < a.rows * D := idx_lt hr hi
    rw [List.getD_append _ _ _ _ (by omega)]
    simp only [Arr2.get, hc]
  · rw [List.getD_append_right _ _ _ _ (by rw [hlen, Nat.add_mul]; omega), hlen, Nat.add_mul]
    congr 1; omega

/-- summing over the rows of stacked coregionalization vectors, each paired with its repeated kernel -/
theorem sum_vstack {τ : Type} (d : τ) (F : ℝ → ℝ → τ → ℝ) {D i j : ℕ} (hi : i < D) (hj : j < D) : ∀ (l : List (Arr2 ℝ)) (ts : List τ),
    ts.length = l.length → (∀ a ∈ l, a.WF ∧ a.cols = D) →
    ∑ r ∈ Finset.range (l.map Arr2.rows).sum, F ((l.flatMap Arr2.data).getD (r * D + i) 0) ((l.flatMap Arr2.data).getD (r * D + j) 0)
      ((npRepeat ts (l.map Arr2.rows)).getD r d) =
    ((l.zip ts).map fun at' => ∑ r ∈ Finset.range at'.1.rows, F (at'.1.get r i) (at'.1.get r j) at'.2).sum
  | [], ts, _, _ => by simp
  | a :: l, [], h, _ => by simp at h
  | a :: l, t :: ts, h, hl => by
    obtain ⟨hw, hc⟩ := hl a (by simp)
    have hl' : ∀ a ∈ l, a.WF ∧ a.cols = D := fun a ha => hl a (by simp [ha])
    simp only [List.map_cons, List.sum_cons, List.zip_cons_cons]
    rw [Finset.sum_range_add, ← sum_vstack d F hi hj l ts (by simpa using h) hl']
    have hrep : npRepeat (t :: ts) (a.rows :: l.map Arr2.rows) = List.replicate a.rows t ++ npRepeat ts (l.map Arr2.rows) := by
      simp [npRepeat]
    rw [hrep]
    congr 1
    · refine Finset.sum_congr rfl fun r hr => ?_
      have hr := Finset.mem_range.1 hr
      rw [(vstack_getD l i hi hl' a r hw hc).1 hr, (vstack_getD l j hj hl' a r hw hc).1 hr,
        List.getD_append _ _ _ _ (by simpa using hr), List.getD_eq_getElem _ _ (by simpa using hr), List.getElem_replicate]
    · refine Finset.sum_congr rfl fun r hr => ?_
      rw [(vstack_getD l i hi hl' a r hw hc).2, (vstack_getD l j hj hl' a r hw hc).2,
        List.getD_append_right _ _ _ _ (by simp), List.length_replicate, Nat.add_sub_cancel_left]

theorem forall₂_npRepeat {α β : Type} {R : α → β → Prop} {xs : List α} {ys : List β} (h : List.Forall₂ R xs ys) :
    ∀ (c : List ℕ), List.Forall₂ R (npRepeat xs c) (npRepeat ys c) := by
  induction h with
  | nil => intro c; simp [npRepeat]
  | @cons x y xs ys h1 h2 ih =>
    intro c
    cases c with
    | nil => simp [npRepeat]
    | cons n c =>
      have e : ∀ {γ : Type} (z : γ) (zs : List γ), npRepeat (z :: zs) (n :: c) = List.replicate n z ++ npRepeat zs c := by
        intro γ z zs; simp [npRepeat]
      rw [e, e]
      refine List.rel_append ?_ (ih c)
      induction n with
      | zero => simp
      | succ n ih' => rw [List.replicate_succ, List.replicate_succ]; exact .cons h1 (ih' (by intro γ z zs; simp [npRepeat]))

theorem npRepeat_length {α : Type} : ∀ (xs : List α) (c : List ℕ), xs.length = c.length → (npRepeat xs c).length = c.sum
  | [], [], _ => by simp [npRepeat]
  | [], _ :: _, h => by simp at h
  | _ :: _, [], h => by simp at h
  | x :: xs, n :: c, h => by
    have := npRepeat_length xs c (by simpa using h)
    simp only [npRepeat] at this ⊢
    simp [this]

section
variable {fk : FK} {ad idxs : List ℕ} {tops : List (List ℝ)} {sizes : List ℕ}

/-- in an increasing list the non-independent kernels come first -/
theorem filter_split {b : ℕ} : ∀ {l : List ℕ}, l.Pairwise (· < ·) →
    l = (l.filter fun q => q < b) ++ (l.filter fun q => b ≤ q)
  | [], _ => rfl
  | a :: l, h => by
    have ih := filter_split (b := b) h.of_cons
    by_cases hab : a < b
    · rw [List.filter_cons_of_pos (by simpa using hab), List.filter_cons_of_neg (by simpa using hab), List.cons_append, ← ih]
    · have hall : ∀ q ∈ l, ¬ q < b := fun q hq => by
        have := (List.pairwise_cons.1 h).1 q hq; omega
      have e1 : l.filter (fun q => decide (q < b)) = [] := by
        rw [List.filter_eq_nil_iff]; intro q hq; simpa using hall q hq
      rw [List.filter_cons_of_neg (by simpa using hab), List.filter_cons_of_pos (by simpa using hab), e1, List.nil_append]
      rw [e1, List.nil_append] at ih
      rw [← ih]

/-- entry of `∑_q (A_qᵀ A_q) ⊗ K_q` over some kernels -/
noncomputable def vecEntry (fk : FK) (qs : List ℕ) (tops : List (List ℝ)) (sizes : List ℕ) (i j : ℕ) : ℝ :=
  ((qs.zip tops).map fun qt => (∑ r ∈ Finset.range (fk.coregVecs.getD qt.1 ⟨0, 0, []⟩).rows,
    (fk.coregVecs.getD qt.1 ⟨0, 0, []⟩).get r (i / sizes.prod) * (fk.coregVecs.getD qt.1 ⟨0, 0, []⟩).get r (j / sizes.prod)) *
      qt.2.getD (ravelDiff sizes (i % sizes.prod) (j % sizes.prod)) 0).sum

/-- entry of `∑_q diag(κ_q) ⊗ K_q` over some kernels -/
noncomputable def diagEntry (fk : FK) (qs : List ℕ) (tops : List (List ℝ)) (sizes : List ℕ) (i j : ℕ) : ℝ :=
  ((qs.zip tops).map fun qt => (if i / sizes.prod = j / sizes.prod then (fk.coregDiags.getD qt.1 []).getD (i / sizes.prod) 0 else 0) *
      qt.2.getD (ravelDiff sizes (i % sizes.prod) (j % sizes.prod)) 0).sum

theorem lmcGridEntry_split (hw : fk.WF) (hq : ∀ q ∈ idxs, q < fk.Q) {i j : ℕ} (hi : i / sizes.prod < fk.D)
    (hj : j / sizes.prod < fk.D) :
    lmcGridEntry (fk.coregOf idxs) tops sizes i j = vecEntry fk idxs tops sizes i j + diagEntry fk idxs tops sizes i j := by
  unfold lmcGridEntry vecEntry diagEntry FK.coregOf
  rw [← List.sum_map_add, List.zip_map_left, List.map_map]
  refine congrArg List.sum (List.map_congr_left fun qt hqt => ?_)
  simp only [Function.comp_apply, Prod.map_fst, Prod.map_snd, id]
  rw [coregOf_entry hw (hq _ (List.of_mem_zip hqt).1) hi hj, add_mul]

theorem diagEntry_slfm (hw : fk.WF) (hs : ∀ q ∈ idxs, fk.IsSlfm q) (i j : ℕ) : diagEntry fk idxs tops sizes i j = 0 := by
  unfold diagEntry
  refine List.sum_eq_zero fun x hx => ?_
  obtain ⟨qt, hqt, rfl⟩ := List.mem_map.1 hx
  obtain ⟨h1, h2⟩ := hs _ (List.of_mem_zip hqt).1
  rw [hw.slfm _ h1 h2]
  simp

theorem vecEntry_indep (hw : fk.WF) (hs : ∀ q ∈ idxs, fk.IsIndep q) (i j : ℕ) : vecEntry fk idxs tops sizes i j = 0 := by
  unfold vecEntry
  refine List.sum_eq_zero fun x hx => ?_
  obtain ⟨qt, hqt, rfl⟩ := List.mem_map.1 hx
  rw [Finset.sum_eq_zero, zero_mul]
  intro r _
  rw [hw.indep _ (hs _ (List.of_mem_zip hqt).1), zero_mul]

theorem vecEntry_nonIndep (h : GridInput fk ad idxs tops sizes) (i j : ℕ) :
    vecEntry fk idxs tops sizes i j = vecEntry fk (fk.filterNonIndep idxs) (tops.take (fk.filterNonIndep idxs).length) sizes i j := by
  have hsp := filter_split (b := fk.numLmcTotal + fk.numSlfmTotal) (h.ok.group _ h.mem).2.1
  have ht : tops = tops.take (fk.filterNonIndep idxs).length ++ tops.drop (fk.filterNonIndep idxs).length := by simp
  have hle : (fk.filterNonIndep idxs).length ≤ tops.length := by rw [h.len]; exact List.length_filter_le _ _
  have e : idxs.zip tops = (fk.filterNonIndep idxs).zip (tops.take (fk.filterNonIndep idxs).length) ++
      (idxs.filter fun q => fk.numLmcTotal + fk.numSlfmTotal ≤ q).zip (tops.drop (fk.filterNonIndep idxs).length) := by
    rw [← List.zip_append (by simp [hle]), ← ht]
    unfold FK.filterNonIndep
    rw [← hsp]
  have hz := vecEntry_indep (idxs := idxs.filter fun q => fk.numLmcTotal + fk.numSlfmTotal ≤ q)
    (tops := tops.drop (fk.filterNonIndep idxs).length) (sizes := sizes) h.wf (by
      intro q hq; have := (List.mem_filter.1 hq).2; simpa [FK.IsIndep] using this) i j
  unfold vecEntry at hz ⊢
  rw [e, List.map_append, List.sum_append, hz, add_zero]

theorem genDiagKs_isMatrix (h : GridInput fk ad idxs tops sizes) :
    ∃ M, genDiagKs fk tops sizes (fk.D * sizes.prod) ad = .ok M ∧ IsMatrix M (fk.D * sizes.prod) (fk.D * sizes.prod) fun i j =>
      diagEntry fk idxs tops sizes i j + open Classical in if ∀ q ∈ idxs, fk.IsSlfm q then delta i j else 0 := by
  have h1 := h.ok.lmc _ h.mem
  have h2 := h.ok.indep _ h.mem
  simp only at h1 h2
  have hcond : ((idxs.filter fun q => q < fk.numLmcTotal).length = 0 ∧
      (idxs.filter fun q => fk.numLmcTotal + fk.numSlfmTotal ≤ q).length = 0) ↔ ∀ q ∈ idxs, fk.IsSlfm q := by
    simp only [List.length_eq_zero_iff, List.filter_eq_nil_iff, decide_eq_true_eq, not_lt, not_le, FK.IsSlfm]
    exact ⟨fun ⟨a, b⟩ q hq => ⟨a q hq, b q hq⟩, fun H => ⟨fun q hq => (H q hq).1, fun q hq => (H q hq).2⟩⟩
  unfold genDiagKs
  simp only [dictIdx_of_get h1, dictIdx_of_get h2, ok_bind]
  by_cases hc : ∀ q ∈ idxs, fk.IsSlfm q
  · rw [if_pos (hcond.2 hc)]
    obtain ⟨M, hM, hM'⟩ := isMatrix_identity (Nat.mul_pos h.wf.Dpos h.pos)
    refine ⟨M, hM, hM'.congr fun i _ j _ => ?_⟩
    rw [diagEntry_slfm h.wf hc, if_pos hc, zero_add]; rfl
  · rw [if_neg (fun h => hc (hcond.1 h)), dictIdx_of_get h.get, ok_bind, if_neg (by simp [h.len])]
    obtain ⟨Ks, hK, hK'⟩ := h.bttbs (tops' := vmk fk.D fun d => vmk sizes.prod fun k =>
      (((idxs.map fun q => fk.coregDiags.getD q []).zip tops).map fun dt => dt.1.getD d 0 * dt.2.getD k 0).sum) (by
      intro t ht; obtain ⟨d, -, rfl⟩ := List.mem_map.1 ht; simp)
    obtain ⟨M, hM, hM'⟩ := isMatrix_blockDiag (by
      rw [← List.length_pos_iff, vmk_length]; exact h.wf.Dpos) ([] : List ℝ) hK'
    rw [hK, ok_bind]
    refine ⟨M, hM, ?_⟩
    rw [vmk_length] at hM'
    refine hM'.congr fun i hi j hj => ?_
    have hi' : i / sizes.prod < fk.D := Nat.div_lt_of_lt_mul (by rwa [mul_comm] at hi)
    rw [if_neg hc, add_zero, vmk_getD_lt hi', vmk_getD_lt (ravelDiff_lt (Nat.mod_lt _ h.pos) (Nat.mod_lt _ h.pos))]
    unfold diagEntry
    rw [List.zip_map_left, List.map_map]
    by_cases e : i / sizes.prod = j / sizes.prod
    · simp only [if_pos e]; rfl
    · simp only [if_neg e, zero_mul]
      simp

theorem sum_delta_left {m a : ℕ} (ha : a < m) (f : ℕ → ℝ) : ∑ b ∈ Finset.range m, (if a = b then (1 : ℝ) else 0) * f b = f a := by
  rw [Finset.sum_eq_single a]
  · simp
  · intro b _ hb; simp [Ne.symm hb]
  · intro h; exact absurd (Finset.mem_range.2 ha) h

theorem genCoregKs_isMatrix (h : GridInput fk ad idxs tops sizes) :
    ∃ M, genCoregKs fk tops sizes (fk.D * sizes.prod) ad = .ok M ∧ IsMatrix M (fk.D * sizes.prod) (fk.D * sizes.prod) fun i j =>
      vecEntry fk idxs tops sizes i j + open Classical in if ∀ q ∈ idxs, fk.IsIndep q then delta i j else 0 := by
  have hcond : (fk.filterNonIndep idxs).map (fun q => fk.coregVecs.getD q ⟨0, 0, []⟩) = [] ↔ ∀ q ∈ idxs, fk.IsIndep q := by
    simp only [FK.filterNonIndep, List.map_eq_nil_iff, List.filter_eq_nil_iff, decide_eq_true_eq, not_lt, FK.IsIndep]
  unfold genCoregKs
  simp only [dictIdx_of_get h.get, ok_bind]
  by_cases hc : ∀ q ∈ idxs, fk.IsIndep q
  · rw [if_pos (hcond.2 hc)]
    obtain ⟨M, hM, hM'⟩ := isMatrix_identity (Nat.mul_pos h.wf.Dpos h.pos)
    refine ⟨M, hM, hM'.congr fun i _ j _ => ?_⟩
    rw [vecEntry_indep h.wf hc, if_pos hc, zero_add]; rfl
  · have hne : (fk.filterNonIndep idxs).map (fun q => fk.coregVecs.getD q ⟨0, 0, []⟩) ≠ [] := fun e => hc (hcond.1 e)
    rw [if_neg hne]
    set qs := fk.filterNonIndep idxs with hqs
    set cs := qs.map fun q => fk.coregVecs.getD q ⟨0, 0, []⟩ with hcs
    set m := sizes.prod with hm
    have hcs' : ∀ a ∈ cs, a.WF ∧ a.cols = fk.D ∧ 0 < a.rows := by
      intro a ha
      obtain ⟨q, hq, rfl⟩ := List.mem_map.1 ha
      exact h.wf.vec q (h.lt q (List.mem_of_mem_filter hq))
    have hR : 0 < (cs.map Arr2.rows).sum := by
      obtain ⟨a, l, e⟩ := List.exists_cons_of_ne_nil hne
      have h1 := (hcs' a (by rw [e]; simp)).2.2
      rw [e, List.map_cons, List.sum_cons]; omega
    have hV : (npVstack cs).WF ∧ (npVstack cs).cols = fk.D := by
      have hcols : (npVstack cs).cols = fk.D := by
        obtain ⟨a, l, e⟩ := List.exists_cons_of_ne_nil hne
        simp only [npVstack, e, List.headD_cons]
        exact (hcs' a (by rw [e]; simp)).2.1
      refine ⟨?_, hcols⟩
      have : ∀ l : List (Arr2 ℝ), (∀ a ∈ l, a.WF ∧ a.cols = fk.D ∧ 0 < a.rows) →
          (l.flatMap Arr2.data).length = (l.map Arr2.rows).sum * fk.D := by
        intro l
        induction l with
        | nil => intro _; simp
        | cons a l ih =>
          intro H
          obtain ⟨h1, h2, -⟩ := H a (by simp)
          rw [List.flatMap_cons, List.length_append, ih fun a ha => H a (by simp [ha]), List.map_cons, List.sum_cons, Nat.add_mul]
          congr 1
          rw [← h2]; exact h1
      show (cs.flatMap Arr2.data).length = _
      rw [hcols]; exact this cs hcs'
    set R := (cs.map Arr2.rows).sum with hRdef
    have hVr : (npVstack cs).rows = R := rfl
    obtain ⟨Im, hIm, hIm'⟩ := isMatrix_identity h.pos
    obtain ⟨a, ha, ha'⟩ := isMatrix_numpy (A := (npVstack cs).T) (Arr2.T_wf _) (by simp only [Arr2.T_rows]; rw [hV.2]; exact h.wf.Dpos)
      (by simp only [Arr2.T_cols]; exact hR)
    obtain ⟨L, hL, hL'⟩ := isMatrix_kron ha' hIm'
    obtain ⟨b, hb, hb'⟩ := isMatrix_numpy (A := (npVstack cs).T.T) (Arr2.T_wf _) (by simp only [Arr2.T_rows, Arr2.T_cols]; exact hR)
      (by simp only [Arr2.T_cols, Arr2.T_rows]; rw [hV.2]; exact h.wf.Dpos)
    obtain ⟨Rt, hRt, hRt'⟩ := isMatrix_kron hb' hIm'
    obtain ⟨Ks, hK, hK'⟩ := h.bttbs (tops' := tops.take cs.length) (fun t ht => h.top t (List.mem_of_mem_take ht))
    have hlen : (tops.take cs.length).length = cs.length := by
      rw [List.length_take, h.len, hcs, List.length_map]
      exact min_eq_left (List.length_filter_le _ _)
    have hrep := forall₂_npRepeat hK' (cs.map Arr2.rows)
    have hrl : (npRepeat (tops.take cs.length) (cs.map Arr2.rows)).length = R := npRepeat_length _ _ (by simpa using hlen)
    obtain ⟨B, hB, hB'⟩ := isMatrix_blockDiag (by rw [← List.length_pos_iff, hrl]; exact hR) ([] : List ℝ) hrep
    rw [hrl] at hB'
    simp only [Arr2.T_rows, Arr2.T_cols, hV.2, hVr] at hL' hRt'
    obtain ⟨M, hM, hM'⟩ := isMatrix_comp3 hL' hB' hRt'
    refine ⟨M, by simp only [hm, hIm, ha, hL, hb, hRt, hK, hB, ok_bind, hM], hM'.congr fun i hi k hk => ?_⟩
    have hm0 : 0 < m := h.pos
    have hi' : i / m < fk.D := Nat.div_lt_of_lt_mul (by rwa [mul_comm] at hi)
    have hk' : k / m < fk.D := Nat.div_lt_of_lt_mul (by rwa [mul_comm] at hk)
    have him := Nat.mod_lt i hm0
    have hkm := Nat.mod_lt k hm0
    rw [if_neg hc, add_zero, vecEntry_nonIndep h, ← hqs]
    have hqc : qs.length = cs.length := by rw [hcs, List.length_map]
    rw [sum_range_mul]
    have hsum := sum_vstack ([] : List ℝ) (fun x y t => x * y * t.getD (ravelDiff sizes (i % m) (k % m)) 0) hi' hk' cs
      (tops.take cs.length) hlen (fun a ha => ⟨(hcs' a ha).1, (hcs' a ha).2.1⟩)
    rw [hqc]
    have hv : vecEntry fk qs (tops.take cs.length) sizes i k = ((cs.zip (tops.take cs.length)).map fun at' =>
        ∑ r ∈ Finset.range at'.1.rows, at'.1.get r (i / m) * at'.1.get r (k / m) *
          at'.2.getD (ravelDiff sizes (i % m) (k % m)) 0).sum := by
      unfold vecEntry
      rw [hcs, List.zip_map_left, List.map_map]
      refine congrArg List.sum (List.map_congr_left fun qt _ => ?_)
      simp only [Function.comp_apply, Prod.map_fst, Prod.map_snd, id, Finset.sum_mul]
      rfl
    rw [hv, ← hsum]
    refine Finset.sum_congr rfl fun r hr => ?_
    have hr := Finset.mem_range.1 hr
    have hg : ∀ d < fk.D, (npVstack cs).T.get d r = (cs.flatMap Arr2.data).getD (r * fk.D + d) 0 := by
      intro d hd
      rw [Arr2.T_get (by rw [hV.2]; exact hd) (by exact hr)]
      unfold Arr2.get; rw [hV.2]; rfl
    have hinner : ∀ p < m, (∑ l ∈ Finset.range (R * m),
        (if (r * m + p) / m = l / m then ((npRepeat (tops.take cs.length) (cs.map Arr2.rows)).getD ((r * m + p) / m) []).getD
          (ravelDiff sizes ((r * m + p) % m) (l % m)) 0 else 0) *
        ((npVstack cs).T.T.get (l / m) (k / m) * if l % m = k % m then 1 else 0)) =
        ((npRepeat (tops.take cs.length) (cs.map Arr2.rows)).getD r []).getD (ravelDiff sizes p (k % m)) 0 *
          (cs.flatMap Arr2.data).getD (r * fk.D + k / m) 0 := by
      intro p hp
      rw [sum_range_mul, Finset.sum_eq_single r]
      · rw [Finset.sum_eq_single (k % m)]
        · rw [idx_div hp, idx_mod hp, idx_div hkm, idx_mod hkm, if_pos rfl, if_pos rfl, mul_one,
            Arr2.T_get (by rw [Arr2.T_cols]; exact hr) (by simpa [hV.2] using hk'), hg _ hk']
        · intro l hl hne
          rw [idx_mod (Finset.mem_range.1 hl), if_neg hne]; simp
        · intro h'; exact absurd (Finset.mem_range.2 hkm) h'
      · intro r' _ hne
        refine Finset.sum_eq_zero fun l hl => ?_
        rw [idx_div hp, idx_div (Finset.mem_range.1 hl), if_neg (Ne.symm hne), zero_mul]
      · intro h'; exact absurd (Finset.mem_range.2 hr) h'
    rw [Finset.sum_congr rfl fun p hp => by
      rw [hinner p (Finset.mem_range.1 hp), idx_div (Finset.mem_range.1 hp), idx_mod (Finset.mem_range.1 hp), hg _ hi']]
    rw [Finset.sum_eq_single (i % m)]
    · rw [if_pos rfl]; ring
    · intro p _ hne; rw [if_neg (Ne.symm hne)]; ring
    · intro h'; exact absurd (Finset.mem_range.2 him) h'

theorem genSlfmGrid_isMatrix (h : GridInput fk ad idxs tops sizes) :
    ∃ M, genSlfmGrid fk tops sizes (fk.D * sizes.prod) ad = .ok M ∧ IsMatrix M (fk.D * sizes.prod) (fk.D * sizes.prod) fun i j =>
      lmcGridEntry (fk.coregOf idxs) tops sizes i j +
        open Classical in if (∀ q ∈ idxs, fk.IsIndep q) ∨ ∀ q ∈ idxs, fk.IsSlfm q then delta i j else 0 := by
  obtain ⟨A, hA, hA'⟩ := genCoregKs_isMatrix h
  obtain ⟨B, hB, hB'⟩ := genDiagKs_isMatrix h
  obtain ⟨M, hM, hM'⟩ := isMatrix_sum (xs := [false, true]) (A := fun b i j => bif b then
      diagEntry fk idxs tops sizes i j + open Classical in if ∀ q ∈ idxs, fk.IsSlfm q then delta i j else 0
      else vecEntry fk idxs tops sizes i j + open Classical in if ∀ q ∈ idxs, fk.IsIndep q then delta i j else 0)
    (Ks := [A, B]) (by simp) (.cons hA' (.cons hB' .nil))
  refine ⟨M, by simp only [genSlfmGrid, hA, hB, ok_bind, hM], hM'.congr fun i hi j hj => ?_⟩
  have hi' : i / sizes.prod < fk.D := Nat.div_lt_of_lt_mul (by rwa [mul_comm] at hi)
  have hj' : j / sizes.prod < fk.D := Nat.div_lt_of_lt_mul (by rwa [mul_comm] at hj)
  rw [lmcGridEntry_split h.wf h.lt hi' hj']
  obtain ⟨q, hq⟩ := List.exists_mem_of_ne_nil _ (h.ok.group _ h.mem).1
  have hex : ¬ ((∀ q ∈ idxs, fk.IsIndep q) ∧ ∀ q ∈ idxs, fk.IsSlfm q) := by
    rintro ⟨h1, h2⟩
    have := h1 q hq; have := h2 q hq
    simp only [FK.IsIndep, FK.IsSlfm] at *; omega
  simp only [List.map_cons, List.map_nil, cond_false, cond_true, List.sum_cons, List.sum_nil]
  by_cases h1 : ∀ q ∈ idxs, fk.IsIndep q
  · have h2 : ¬ ∀ q ∈ idxs, fk.IsSlfm q := fun h2 => hex ⟨h1, h2⟩
    rw [if_pos h1, if_neg h2, if_pos (Or.inl h1)]; ring
  · by_cases h2 : ∀ q ∈ idxs, fk.IsSlfm q
    · rw [if_neg h1, if_pos h2, if_pos (Or.inr h2)]; ring
    · rw [if_neg h1, if_neg h2, if_neg (by tauto)]; ring

end

end Verif
