import Verif.Spec.Grid
import Verif.Props.LinAlg
import Verif.Props.Interp2
import Mathlib.Data.List.GetD

namespace Verif

theorem mapExcept_forall2 {α β : Type} {f : α → Except PyErr β} {R : α → β → Prop} {l : List α}
    (h : ∀ x ∈ l, ∃ y, f x = .ok y ∧ R x y) : ∃ ys, mapExcept f l = .ok ys ∧ List.Forall₂ R l ys := by
  induction l with
  | nil => exact ⟨[], rfl, .nil⟩
  | cons a l ih =>
    obtain ⟨y, h1, h2⟩ := h a (by simp)
    obtain ⟨ys, h3, h4⟩ := ih fun x hx => h x (by simp [hx])
    exact ⟨y :: ys, by simp only [mapExcept, h1, ok_bind, h3]; rfl, .cons h2 h4⟩

theorem forall₂_mem_right {α β : Type*} {R : α → β → Prop} {l : List α} {r : List β} (h : List.Forall₂ R l r) {b : β}
    (hb : b ∈ r) : ∃ a ∈ l, R a b := by
  induction h with
  | nil => simp at hb
  | cons hu _ ih =>
    rcases List.mem_cons.1 hb with rfl | hb
    · exact ⟨_, by simp, hu⟩
    · obtain ⟨a, h1, h2⟩ := ih hb
      exact ⟨a, by simp [h1], h2⟩

theorem IsMatrix.congr {M : MatObj} {n c : ℕ} {A B : ℕ → ℕ → ℝ} (h : IsMatrix M n c A) (e : ∀ i < n, ∀ j < c, A i j = B i j) :
    IsMatrix M n c B := ⟨h.built, h.rows, h.cols, fun i hi j hj => by rw [h.entry i hi j hj, e i hi j hj]⟩

theorem IsMatrix.represents {M : MatObj} {n c : ℕ} {A : ℕ → ℕ → ℝ} (h : IsMatrix M n c A) : Represents M A :=
  h.built.good.congr fun i hi j hj => h.entry i (h.rows ▸ hi) j (h.cols ▸ hj)

theorem IsMatrix.pos {M : MatObj} {n c : ℕ} {A : ℕ → ℕ → ℝ} (h : IsMatrix M n c A) : 0 < n ∧ 0 < c :=
  ⟨h.rows ▸ h.built.good.rpos, h.cols ▸ h.built.good.cpos⟩

theorem Represents.isMatrix {M : MatObj} {A : ℕ → ℕ → ℝ} (hb : Built M) {n c : ℕ} (hr : M.rows = n) (hc : M.cols = c)
    (h : Represents M A) : IsMatrix M n c A := ⟨hb, hr, hc, fun i hi j hj => h.entry (hr ▸ hi) (hc ▸ hj)⟩

theorem vec_wf {α : Type} (x : List α) : (NDArr.vec x).WF := by simp [NDArr.WF, NDArr.vec]

theorem isMatrix_bttb {sizes : List ℕ} {top : List ℝ} (h0 : 0 < sizes.prod) (hs : sizes ≠ []) (hl : top.length = sizes.prod) :
    ∃ M, gridBttb sizes top = .ok M ∧ IsMatrix M sizes.prod sizes.prod fun i j => top.getD (ravelDiff sizes i j) 0 := by
  obtain ⟨M, hM⟩ := (C09_bttb (.vec top) (.vec sizes) (vec_wf _) (vec_wf _)).2
    ⟨top.length, sizes.length, rfl, by omega, rfl, List.length_pos_iff.2 hs, by simp [NDArr.vec, hl]⟩
  obtain ⟨h1, h2, hR⟩ := bttb_represents (vec_wf _) hM
  exact ⟨M, hM, hR.isMatrix (.bttb (vec_wf _) hM) h1 h2⟩

theorem isMatrix_numpy {A : Arr2 ℝ} (hw : A.WF) (hr : 0 < A.rows) (hc : 0 < A.cols) :
    ∃ M, numpyMatrix2 A = .ok M ∧ IsMatrix M A.rows A.cols A.get := by
  have hw' : (⟨[A.rows, A.cols], A.data⟩ : NDArr ℝ).WF := by simpa [NDArr.WF, Arr2.WF] using hw
  obtain ⟨M, hM⟩ := (C09_dense ⟨[A.rows, A.cols], A.data⟩).1.2 ⟨_, _, rfl, hr, hc⟩
  obtain ⟨h1, hR⟩ := numpyMatrix_represents hw' hM
  simp only [List.cons.injEq, and_true] at h1
  refine ⟨M, hM, (hR.isMatrix (.dense hw' hM) h1.1.symm h1.2.symm).congr fun i _ j _ => ?_⟩
  simp only [Arr2.get, ← h1.2]

theorem isMatrix_identity {n : ℕ} (h : 0 < n) : ∃ M, identityNew n = .ok M ∧ IsMatrix M n n fun i j => if i = j then 1 else 0 := by
  obtain ⟨M, hM⟩ := (C09_identity n).1.2 h
  obtain ⟨h1, h2, hR⟩ := identity_represents hM
  exact ⟨M, hM, hR.isMatrix (.identity hM) h1 h2⟩

theorem isMatrix_kron {A B : MatObj} {n c n' c' : ℕ} {a b : ℕ → ℕ → ℝ} (hA : IsMatrix A n c a) (hB : IsMatrix B n' c' b) :
    ∃ M, kroneckerNew A B = .ok M ∧ IsMatrix M (n * n') (c * c') fun i j => a (i / n') (j / c') * b (i % n') (j % c') := by
  obtain ⟨M, hM⟩ := C09_composition_kronecker.2.2 A B hA.built hB.built
  obtain ⟨h1, h2, hR⟩ := kronecker_represents hA.represents hB.represents hM
  rw [hA.rows, hB.rows] at h1
  rw [hA.cols, hB.cols] at h2
  rw [hB.rows, hB.cols] at hR
  exact ⟨M, hM, hR.isMatrix (.kronecker hA.built hB.built hM) h1 h2⟩

theorem isMatrix_sum {ι : Type} {xs : List ι} {Ks : List MatObj} {n c : ℕ} {A : ι → ℕ → ℕ → ℝ} (hne : xs ≠ [])
    (h : List.Forall₂ (fun x K => IsMatrix K n c (A x)) xs Ks) :
    ∃ M, sumMatrixNew Ks = .ok M ∧ IsMatrix M n c fun i j => (xs.map fun x => A x i j).sum := by
  have hK : ∀ K ∈ Ks, Built K ∧ K.rows = n ∧ K.cols = c := by
    intro K hK
    obtain ⟨x, -, hx⟩ := forall₂_mem_right h hK
    exact ⟨hx.built, hx.rows, hx.cols⟩
  have hKne : Ks ≠ [] := by rintro rfl; cases h; exact hne rfl
  obtain ⟨M, hM⟩ := (C09_sum Ks fun K h => (hK K h).1).1.2 ⟨hKne, fun K h1 L h2 => by
    rw [(hK K h1).2.1, (hK K h1).2.2, (hK L h2).2.1, (hK L h2).2.2]; exact ⟨rfl, rfl⟩⟩
  obtain ⟨K0, hK0⟩ := List.exists_mem_of_ne_nil _ hKne
  have hsh := (sumMatrix_ok hM).2 K0 hK0
  rw [(hK K0 hK0).2.1, (hK K0 hK0).2.2] at hsh
  have hR := sumMatrix_represents (A := fun K => K.asNumpy.get) hM fun K h => (hK K h).1.good
  refine ⟨M, hM, (hR.isMatrix (.sum (fun K h => (hK K h).1) hM) hsh.1.symm hsh.2.symm).congr fun i hi j hj => ?_⟩
  clear hK hKne hM hK0 hR hne
  induction h with
  | nil => rfl
  | cons h1 h2 ih => simp only [List.map_cons, List.sum_cons, ih, h1.entry i hi j hj]

theorem isMatrix_comp3 {A B C : MatObj} {n p q c : ℕ} {a b d : ℕ → ℕ → ℝ} (hA : IsMatrix A n p a) (hB : IsMatrix B p q b)
    (hC : IsMatrix C q c d) : ∃ M, compositionNew [A, B, C] = .ok M ∧ IsMatrix M n c fun i k =>
      ∑ j ∈ Finset.range p, a i j * ∑ l ∈ Finset.range q, b j l * d l k := by
  have hb : ∀ K ∈ [A, B, C], Built K := by
    intro K hK; simp only [List.mem_cons, List.not_mem_nil, or_false] at hK
    rcases hK with rfl | rfl | rfl
    exacts [hA.built, hB.built, hC.built]
  obtain ⟨M, hM⟩ := C09_composition_kronecker.2.1 [A, B, C] (by simp) hb
  have hch : Composable [A, B, C] := ⟨by rw [hA.cols, hB.rows], by rw [hB.cols, hC.rows], trivial⟩
  have hR := composition_represents (A := fun K => K.asNumpy.get) hM hch fun K hK => (hb K hK).good
  obtain ⟨f, l, hf, hl, -, -, h1, h2, -⟩ := composition_ok hM
  simp only [List.head?_cons, Option.some.injEq] at hf
  simp only [List.getLast?_cons_cons, List.getLast?_singleton, Option.some.injEq] at hl
  subst hf; subst hl
  rw [hA.rows] at h1; rw [hC.cols] at h2
  refine ⟨M, hM, (hR.isMatrix (.composition hb ?_ hM) h1 h2).congr fun i hi k hk => ?_⟩
  · simp [List.isChain_cons_cons, hA.cols, hB.rows, hB.cols, hC.rows]
  · simp only [prodEntry, foldr_range_sum]
    rw [hA.cols, hB.cols]
    refine Finset.sum_congr rfl fun j hj => ?_
    rw [hA.entry i hi j (Finset.mem_range.1 hj)]
    congr 1
    refine Finset.sum_congr rfl fun l hl => ?_
    rw [hB.entry j (Finset.mem_range.1 hj) l (Finset.mem_range.1 hl), hC.entry l (Finset.mem_range.1 hl) k hk]

/-- equal square blocks on the diagonal -/
theorem directSum_square {m : ℕ} (hm : 0 < m) : ∀ (l : List (ℕ × ℕ × (ℕ → ℕ → ℝ))), (∀ t ∈ l, t.1 = m ∧ t.2.1 = m) → ∀ i j,
    i < l.length * m → j < l.length * m →
    directSum l i j = if i / m = j / m then (l.getD (i / m) (0, 0, fun _ _ => 0)).2.2 (i % m) (j % m) else 0
  | [], _, i, j, hi, _ => by simp at hi
  | (r, c, A) :: l, h, i, j, hi, hj => by
    obtain ⟨rfl, hc⟩ := h (r, c, A) (by simp)
    simp only at hc hm hi hj ⊢
    subst hc
    simp only [directSum]
    simp only [List.length_cons, Nat.add_mul, one_mul] at hi hj
    have sub : ∀ i, ¬ i < c → i / c = (i - c) / c + 1 ∧ i % c = (i - c) % c := by
      intro i h'
      have : i = (i - c) + c := by omega
      refine ⟨?_, ?_⟩
      · conv_lhs => rw [this]
        rw [Nat.add_div_right _ hm]
      · conv_lhs => rw [this]
        rw [Nat.add_mod_right]
    by_cases h1 : i < c
    · by_cases h2 : j < c
      · simp [h1, h2, Nat.div_eq_of_lt, Nat.mod_eq_of_lt]
      · obtain ⟨e1, -⟩ := sub j h2
        simp [h1, h2, Nat.div_eq_of_lt h1, e1]
    · obtain ⟨e1, e2⟩ := sub i h1
      by_cases h2 : j < c
      · simp [h1, h2, Nat.div_eq_of_lt h2, e1]
      · obtain ⟨e3, e4⟩ := sub j h2
        simp only [h1, h2, ↓reduceIte]
        rw [directSum_square hm l (fun t ht => h t (by simp [ht])) (i - c) (j - c) (by omega) (by omega), e1, e2, e3, e4]
        simp

theorem isMatrix_blockDiag {ι : Type} {xs : List ι} {Ks : List MatObj} {m : ℕ} {A : ι → ℕ → ℕ → ℝ} (hne : xs ≠ []) (d : ι)
    (h : List.Forall₂ (fun x K => IsMatrix K m m (A x)) xs Ks) :
    ∃ M, blockDiagNew Ks = .ok M ∧ IsMatrix M (xs.length * m) (xs.length * m) fun i j =>
      if i / m = j / m then A (xs.getD (i / m) d) (i % m) (j % m) else 0 := by
  have hK : ∀ K ∈ Ks, Built K ∧ K.rows = m ∧ K.cols = m := by
    intro K hK
    obtain ⟨x, -, hx⟩ := forall₂_mem_right h hK
    exact ⟨hx.built, hx.rows, hx.cols⟩
  have hKne : Ks ≠ [] := by rintro rfl; cases h; exact hne rfl
  have hm : 0 < m := by
    obtain ⟨K0, hK0⟩ := List.exists_mem_of_ne_nil _ hKne
    rw [← (hK K0 hK0).2.1]; exact (hK K0 hK0).1.good.rpos
  have hlen := h.length_eq
  obtain ⟨M, hM⟩ := (C09_blockDiag Ks fun K h => (hK K h).1).1.2 hKne
  obtain ⟨-, -, -, h1, h2⟩ := blockDiag_ok hM
  have hsum : ∀ f : MatObj → ℕ, (∀ K ∈ Ks, f K = m) → (Ks.map f).sum = xs.length * m := by
    intro f hf
    rw [List.map_congr_left hf, List.map_const', List.sum_replicate, hlen, smul_eq_mul]
  rw [hsum _ fun K h => (hK K h).2.1] at h1
  rw [hsum _ fun K h => (hK K h).2.2] at h2
  have hR := blockDiag_represents (fun K h => (hK K h).1.good) hM
  refine ⟨M, hM, (hR.isMatrix (.blockDiag (fun K h => (hK K h).1) hM) h1 h2).congr fun i hi j hj => ?_⟩
  rw [directSum_square hm _ (by
      intro t ht; unfold denseList at ht
      obtain ⟨K, hK1, rfl⟩ := List.mem_map.1 ht
      exact (hK K hK1).2) i j (by simpa [denseList, ← hlen] using hi) (by simpa [denseList, ← hlen] using hj)]
  split_ifs with he
  · have hq : i / m < xs.length := Nat.div_lt_of_lt_mul (by rwa [mul_comm] at hi)
    have hq' : i / m < Ks.length := hlen ▸ hq
    have hR := (List.forall₂_iff_get.1 h).2 (i / m) hq hq'
    rw [List.getD_eq_getElem _ _ (by simpa [denseList] using hq'), List.getD_eq_getElem _ _ hq]
    simp only [denseList, List.getElem_map]
    exact hR.entry _ (Nat.mod_lt _ hm) _ (Nat.mod_lt _ hm)
  · rfl

theorem isMatrix_symmBlock {D m : ℕ} (hD : 0 < D) {B : ℕ → ℕ → MatObj} {A : ℕ → ℕ → ℕ → ℕ → ℝ}
    (h : ∀ i < D, ∀ j < D, IsMatrix (B i j) m m (A i j)) :
    ∃ M, symmSquareBlockNew (vmk D fun i => vmk D fun j => B i j) = .ok M ∧ IsMatrix M (D * m) (D * m) fun i j =>
      A (i / m) (j / m) (i % m) (j % m) := by
  have hK : ∀ row ∈ vmk D fun i => vmk D fun j => B i j, ∀ K ∈ row, Built K ∧ K.rows = m ∧ K.cols = m := by
    intro row hrow K hK
    obtain ⟨i, hi, rfl⟩ := List.mem_map.1 hrow
    obtain ⟨j, hj, rfl⟩ := List.mem_map.1 hK
    have := h i (List.mem_range.1 hi) j (List.mem_range.1 hj)
    exact ⟨this.built, this.rows, this.cols⟩
  have hm : 0 < m := (h 0 hD 0 hD).pos.1
  have hlen : ∀ row ∈ vmk D fun i => vmk D fun j => B i j, row.length = D := by
    intro row hrow
    obtain ⟨i, hi, rfl⟩ := List.mem_map.1 hrow
    simp
  obtain ⟨M, hM⟩ := (C09_symmBlock _ fun row hr K h => (hK row hr K h).1).1.2 ⟨by
    intro e; have := congrArg List.length e; simp at this; omega, by simpa using hlen⟩
  obtain ⟨h1, h2, h3, hR⟩ := symmSquareBlock_represents (m := m) (fun r hr K hk => ⟨(hK r hr K hk).1.good, (hK r hr K hk).2⟩) hM
  rw [vmk_length] at h1 h2
  refine ⟨M, hM, (hR.isMatrix (.symmBlock (fun r hr K hk => (hK r hr K hk).1) (fun r hr K hk => (hK r hr K hk).2) hM) h1 h2).congr
    fun i hi j hj => ?_⟩
  have hi' : i / m < D := Nat.div_lt_of_lt_mul (by rwa [mul_comm] at hi)
  have hj' : j / m < D := Nat.div_lt_of_lt_mul (by rwa [mul_comm] at hj)
  unfold blockEntry
  rw [vmk_getD_lt hi', List.getD_eq_getElem _ _ (by simpa using hj'), List.getElem_map, vmk_getElem]
  exact (h _ hi' _ hj').entry _ (Nat.mod_lt _ hm) _ (Nat.mod_lt _ hm)

end Verif
