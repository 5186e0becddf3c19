import Verif.Proofs.Work
import Verif.Spec.Work
import Verif.Proofs.RawProduct
import Verif.Props.Grid2

/-! What the operators cost. -/

namespace Verif

variable {p : Prices}

theorem mapExcept_inv {α β : Type} {f : α → Except PyErr β} : ∀ {l : List α} {r : List β}, mapExcept f l = .ok r → List.Forall₂ (fun x y => f x = .ok y) l r
  | [], r, h => by
    cases h
    exact .nil
  | a :: l, r, h => by
    simp only [mapExcept, bind_ok, pure_ok] at h
    obtain ⟨b, h1, bs, h2, rfl⟩ := h
    exact .cons h1 (mapExcept_inv h2)

theorem sum_const {α : Type} {f : α → ℕ} {c : ℕ} : ∀ {l : List α}, (∀ x ∈ l, f x = c) → (l.map f).sum = l.length * c
  | [], _ => by simp
  | a :: l, h => by
    rw [List.map_cons, List.sum_cons, sum_const fun x hx => h x (List.mem_cons_of_mem _ hx), h a (by simp), List.length_cons]
    ring

theorem numpyMatrix_price {A : Arr2 ℝ} {K : Priced} (h : p.numpyMatrix A = .ok K) :
    K.obj.rows = A.rows ∧ K.obj.cols = A.cols ∧ K.mv = p.op * (2 * (A.rows * A.cols)) ∧ ∀ k, K.mm k = p.op * (2 * (A.rows * A.cols) * k) := by
  simp only [Prices.numpyMatrix, bind_ok, pure_ok] at h
  obtain ⟨M, h1, rfl⟩ := h
  simp only [numpyMatrix2, numpyMatrixNew, bind_ok, pure_ok] at h1
  obtain ⟨_, _, rfl⟩ := h1
  exact ⟨rfl, rfl, rfl, fun _ => rfl⟩

theorem identity_price {n : ℕ} {K : Priced} (h : pricedIdentity n = .ok K) : K.obj.rows = n ∧ K.obj.cols = n ∧ K.mv = 0 ∧ ∀ k, K.mm k = 0 := by
  simp only [pricedIdentity, bind_ok, pure_ok] at h
  obtain ⟨M, h1, rfl⟩ := h
  simp only [identityNew, bind_ok, pure_ok] at h1
  obtain ⟨_, _, rfl⟩ := h1
  exact ⟨rfl, rfl, rfl, fun _ => rfl⟩

theorem bttb_price {sizes : List ℕ} {top : List ℝ} {K : Priced} (h : p.bttb sizes top = .ok K) :
    K.obj.rows = sizes.prod ∧ K.obj.cols = sizes.prod ∧ K.mv = p.bttbWork sizes ∧ ∀ k, K.mm k = k * p.bttbWork sizes := by
  simp only [Prices.bttb, bind_ok, pure_ok] at h
  obtain ⟨M, h1, rfl⟩ := h
  obtain ⟨s, c, -, d, -⟩ := bttb_ok h1
  have e : top.length = M.rows := by simpa [NDArr.vec] using s
  have e' : sizes.prod = top.length := d
  exact ⟨by rw [e', e]; rfl, by rw [e', e]; exact c, rfl, fun _ => rfl⟩

theorem kronecker_price {A B K : Priced} (h : pricedKronecker A B = .ok K) : K.obj.rows = A.obj.rows * B.obj.rows ∧ K.obj.cols = A.obj.cols * B.obj.cols ∧
    K.mv = B.mm A.obj.cols + A.mm B.obj.rows := by
  simp only [pricedKronecker, bind_ok, pure_ok] at h
  obtain ⟨M, h1, rfl⟩ := h
  obtain ⟨a, b, -⟩ := kron_ok h1
  exact ⟨a, b, rfl⟩

theorem blockDiag_price {l : List Priced} {K : Priced} (h : pricedBlockDiag l = .ok K) : K.obj.rows = (l.map fun B => B.obj.rows).sum ∧ K.mv = (l.map Priced.mv).sum := by
  simp only [pricedBlockDiag, bind_ok, pure_ok] at h
  obtain ⟨M, h1, rfl⟩ := h
  obtain ⟨-, -, -, a, -⟩ := blockDiag_ok h1
  refine ⟨?_, rfl⟩
  rw [List.map_map] at a
  exact a

theorem sumMatrix_price {l : List Priced} {K : Priced} (h : p.sumMatrix l = .ok K) : (∀ B ∈ l, B.obj.rows = K.obj.rows) ∧
    K.mv = (l.map fun B => B.mv + p.op * B.obj.rows).sum := by
  simp only [Prices.sumMatrix, bind_ok, pure_ok] at h
  obtain ⟨M, h1, rfl⟩ := h
  obtain ⟨-, a⟩ := sumMatrix_ok h1
  exact ⟨fun B hB => (a _ (List.mem_map_of_mem hB)).1, rfl⟩

theorem composition_price {l : List Priced} {K : Priced} (h : pricedComposition l = .ok K) : K.mv = (l.map Priced.mv).sum := by
  simp only [pricedComposition, bind_ok, pure_ok] at h
  obtain ⟨M, h1, rfl⟩ := h
  rfl

theorem composition_rows {A : Priced} {l : List Priced} {K : Priced} (h : pricedComposition (A :: l) = .ok K) : K.obj.rows = A.obj.rows := by
  simp only [pricedComposition, bind_ok, pure_ok] at h
  obtain ⟨M, h1, rfl⟩ := h
  obtain ⟨first, last, a, -, -, -, b, -⟩ := composition_ok h1
  cases a
  exact b

section
variable {fk : FK} {ad idxs : List ℕ} {tops : List (List ℝ)} {sizes : List ℕ}

theorem genSumGrid_price (h : GridInput fk ad idxs tops sizes) {K : Priced} (hK : p.genSumGrid fk tops sizes ad = .ok K) :
    K.mv = idxs.length * (fk.D * p.bttbWork sizes + p.op * (2 * fk.D ^ 2 * sizes.prod + fk.D * sizes.prod)) := by
  simp only [Prices.genSumGrid, bind_ok] at hK
  obtain ⟨ks, h1, mats, h2, prods, h3, h4⟩ := hK
  rw [coregMatsAt_eq h.wf h.get h.lt] at h2
  cases h2
  have f1 := mapExcept_inv h1
  have f3 := mapExcept_inv h3
  have hl : prods.length = idxs.length := by
    rw [← f3.length_eq, List.length_zip, ← f1.length_eq, h.len, FK.coregOf, List.length_map, min_self]
  have hp : ∀ B ∈ prods, B.mv + p.op * B.obj.rows = fk.D * p.bttbWork sizes + p.op * (2 * fk.D ^ 2 * sizes.prod + fk.D * sizes.prod) := by
    intro B hB
    obtain ⟨AK, hAK, hB⟩ := forall₂_mem_right f3 hB
    obtain ⟨hA, hk⟩ := List.of_mem_zip (a := AK.1) (b := AK.2) hAK
    obtain ⟨t, -, hk⟩ := forall₂_mem_right f1 hk
    obtain ⟨-, r1, r2⟩ := coregOf_shape h.wf h.lt _ hA
    obtain ⟨k1, k2, k3, k4⟩ := bttb_price hk
    simp only [Prices.kronOf, bind_ok] at hB
    obtain ⟨A, hA', hB⟩ := hB
    obtain ⟨a1, a2, a3, a4⟩ := numpyMatrix_price hA'
    obtain ⟨b1, b2, b3⟩ := kronecker_price hB
    rw [b1, b3, a1, a2, k1, k4, a4, r1, r2]
    ring
  rw [(sumMatrix_price h4).2, sum_const hp, hl]

theorem genBtGrid_price (h : GridInput fk ad idxs tops sizes) {K : Priced} (hK : p.genBtGrid fk tops sizes ad = .ok K) :
    K.mv = fk.D ^ 2 * p.bttbWork sizes + p.op * (fk.D ^ 2 * sizes.prod) := by
  simp only [Prices.genBtGrid, bind_ok] at hK
  obtain ⟨mats, h2, -, -, h4⟩ := hK
  rw [coregMatsAt_eq h.wf h.get h.lt] at h2
  cases h2
  simp only [Prices.symmSquareBlock, bind_ok, pure_ok] at h4
  obtain ⟨M, -, rfl⟩ := h4
  show (List.map _ _).sum = _
  rw [sum_const (c := fk.D * (p.bttbWork sizes + p.op * sizes.prod)), vmk_length]
  · ring
  · intro row hrow
    obtain ⟨i, hi, rfl⟩ := List.mem_map.1 hrow
    rw [sum_const (c := p.bttbWork sizes + p.op * sizes.prod)]
    · rw [vmk_length]
    · intro B hB
      obtain ⟨j, hj, rfl⟩ := List.mem_map.1 hB
      rw [symm2dListMap_eq _ _ fk.D _ (List.mem_range.1 hi) (List.mem_range.1 hj)]
      obtain ⟨M, hM, -⟩ := isMatrix_bttb h.pos h.dim (top := tensorTop (fk.coregOf idxs) tops sizes.prod (min i j) (max i j)) (by simp [tensorTop])
      have hb : p.bttb sizes (tensorTop (fk.coregOf idxs) tops sizes.prod (min i j) (max i j)) = .ok (.loop M (p.bttbWork sizes)) := by
        unfold Prices.bttb
        unfold gridBttb at *
        rw [hM]
        rfl
      rw [hb]
      obtain ⟨k1, -, k3, -⟩ := bttb_price hb
      show (Priced.loop M (p.bttbWork sizes)).mv + p.op * (Priced.loop M (p.bttbWork sizes)).obj.rows = _
      rw [k3, k1]

theorem genDiagKs_price (h : GridInput fk ad idxs tops sizes) {K : Priced} (hK : p.genDiagKs fk tops sizes (fk.D * sizes.prod) ad = .ok K) :
    K.obj.rows = fk.D * sizes.prod ∧ K.mv = (open Classical in if ∀ q ∈ idxs, fk.IsSlfm q then 0 else fk.D) * p.bttbWork sizes := by
  have h1 := h.ok.lmc _ h.mem
  have h2 := h.ok.indep _ h.mem
  simp only at h1 h2
  have hcond : ((idxs.filter fun q => q < fk.numLmcTotal).length = 0 ∧
      (idxs.filter fun q => fk.numLmcTotal + fk.numSlfmTotal ≤ q).length = 0) ↔ ∀ q ∈ idxs, fk.IsSlfm q := by
    simp only [List.length_eq_zero_iff, List.filter_eq_nil_iff, decide_eq_true_eq, not_lt, not_le, FK.IsSlfm]
    exact ⟨fun ⟨a, b⟩ q hq => ⟨a q hq, b q hq⟩, fun H => ⟨fun q hq => (H q hq).1, fun q hq => (H q hq).2⟩⟩
  unfold Prices.genDiagKs at hK
  simp only [dictIdx_of_get h1, dictIdx_of_get h2, ok_bind] at hK
  by_cases hc : ∀ q ∈ idxs, fk.IsSlfm q
  · rw [if_pos (hcond.2 hc)] at hK
    obtain ⟨a, -, b, -⟩ := identity_price hK
    rw [if_pos hc, zero_mul]
    exact ⟨a, b⟩
  · rw [if_neg (fun h => hc (hcond.1 h)), dictIdx_of_get h.get, ok_bind, if_neg (by simp [h.len]), bind_ok] at hK
    obtain ⟨ks, k1, k2⟩ := hK
    have f1 := mapExcept_inv k1
    have hl : ks.length = fk.D := by rw [← f1.length_eq, vmk_length]
    have hb : ∀ B ∈ ks, B.obj.rows = sizes.prod ∧ B.mv = p.bttbWork sizes := fun B hB => by
      obtain ⟨t, -, hB⟩ := forall₂_mem_right f1 hB
      obtain ⟨a, -, b, -⟩ := bttb_price hB
      exact ⟨a, b⟩
    obtain ⟨a, b⟩ := blockDiag_price k2
    rw [if_neg hc, a, b, sum_const fun B hB => (hb B hB).1, sum_const fun B hB => (hb B hB).2, hl]
    exact ⟨rfl, rfl⟩

theorem npRepeat_mem {α : Type} : ∀ {l : List α} {c : List ℕ} {x : α}, x ∈ npRepeat l c → x ∈ l
  | [], c, x, h => by simp [npRepeat] at h
  | a :: l, [], x, h => by simp [npRepeat] at h
  | a :: l, k :: c, x, h => by
    simp only [npRepeat, List.zipWith_cons_cons, List.flatten_cons, List.mem_append] at h
    rcases h with h | h
    · rw [List.eq_of_mem_replicate h]
      simp
    · exact List.mem_cons_of_mem _ (npRepeat_mem h)

theorem genCoregKs_price (h : GridInput fk ad idxs tops sizes) {K : Priced} (hK : p.genCoregKs fk tops sizes (fk.D * sizes.prod) ad = .ok K) :
    K.obj.rows = fk.D * sizes.prod ∧ K.mv = fk.rankOf (ad, idxs) * p.bttbWork sizes + p.op * (4 * fk.D * fk.rankOf (ad, idxs) * sizes.prod) := by
  unfold Prices.genCoregKs at hK
  simp only [dictIdx_of_get h.get, ok_bind] at hK
  have hr : fk.rankOf (ad, idxs) = (((fk.filterNonIndep idxs).map fun q => fk.coregVecs.getD q ⟨0, 0, []⟩).map Arr2.rows).sum := by
    rw [List.map_map]
    rfl
  set cs := (fk.filterNonIndep idxs).map fun q => fk.coregVecs.getD q ⟨0, 0, []⟩ with hcs
  rw [hr]
  by_cases hc : cs = []
  · rw [if_pos hc] at hK
    obtain ⟨a, -, b, -⟩ := identity_price hK
    refine ⟨a, ?_⟩
    rw [hc, b]
    simp
  · rw [if_neg hc] at hK
    simp only [bind_ok] at hK
    obtain ⟨Im, i1, a, a1, L, l1, a', a2, R, r1, ks, k1, T, t1, c1⟩ := hK
    obtain ⟨i2, i3, i4, i5⟩ := identity_price i1
    obtain ⟨a3, a4, a5, a6⟩ := numpyMatrix_price a1
    obtain ⟨b3, b4, b5, b6⟩ := numpyMatrix_price a2
    obtain ⟨l2, l3, l4⟩ := kronecker_price l1
    obtain ⟨r2, r3, r4⟩ := kronecker_price r1
    have hcols : (npVstack cs).cols = fk.D := by
      obtain ⟨c, l, hl⟩ := List.exists_cons_of_ne_nil hc
      show (cs.headD ⟨0, 0, []⟩).cols = fk.D
      rw [hl]
      show c.cols = fk.D
      have : c ∈ cs := by rw [hl]; simp
      obtain ⟨q, hq, rfl⟩ := List.mem_map.1 this
      exact (h.wf.vec q (h.lt q (List.mem_of_mem_filter hq))).2.1
    have hrows : (npVstack cs).rows = (cs.map Arr2.rows).sum := rfl
    have f1 := mapExcept_inv k1
    obtain ⟨t2, t3⟩ := blockDiag_price t1
    have hlen : ks.length = (cs.map Arr2.rows).length := by
      rw [← f1.length_eq, List.length_take, h.len, List.length_map, hcs, List.length_map, List.length_map]
      exact min_eq_left (List.length_filter_le _ _)
    have hT : T.mv = (cs.map Arr2.rows).sum * p.bttbWork sizes := by
      rw [t3, sum_const (c := p.bttbWork sizes), npRepeat_length _ _ hlen]
      intro B hB
      obtain ⟨t, -, hB⟩ := forall₂_mem_right f1 (npRepeat_mem hB)
      exact (bttb_price hB).2.2.1
    refine ⟨?_, ?_⟩
    · rw [composition_rows c1, l2, a3, i2, Arr2.T_rows, hcols]
    · rw [composition_price c1]
      simp only [List.map_cons, List.map_nil, List.sum_cons, List.sum_nil, l4, r4, hT, i5, a6, b6, i2, Arr2.T_rows, Arr2.T_cols, hcols, hrows]
      ring

end

theorem chooseKType_eq {fk : FK} (hok : fk.GroupsOK) {g : List ℕ × List ℕ} (hg : g ∈ fk.activeDims) :
    chooseKType fk g.1 = .ok (if fk.Q = 1 then .sum else if fk.apart g < fk.D ^ 2 then .slfm else .bt) := by
  unfold chooseKType
  by_cases hQ : fk.Q = 1
  · rw [if_pos hQ, if_pos hQ]
  · rw [if_neg hQ, if_neg hQ]
    have hcond : ((g.2.filter fun q => q < fk.numLmcTotal).length = 0 ∧
        (g.2.filter fun q => fk.numLmcTotal + fk.numSlfmTotal ≤ q).length = 0) ↔ ∀ q ∈ g.2, fk.IsSlfm q := by
      simp only [List.length_eq_zero_iff, List.filter_eq_nil_iff, decide_eq_true_eq, not_lt, not_le, FK.IsSlfm]
      exact ⟨fun ⟨a, b⟩ q hq => ⟨a q hq, b q hq⟩, fun H => ⟨fun q hq => (H q hq).1, fun q hq => (H q hq).2⟩⟩
    simp only [totalRank_eq hok hg, dictIdx_of_get (hok.lmc g hg), dictIdx_of_get (hok.indep g hg), ok_bind]
    have hr : ((fk.filterNonIndep g.2).map fun q => (fk.coregVecs.getD q ⟨0, 0, []⟩).rows).sum = fk.rankOf g := rfl
    rw [hr]
    unfold FK.apart
    by_cases hc : ∀ q ∈ g.2, fk.IsSlfm q
    · rw [if_pos (hcond.2 hc), if_pos hc]
      by_cases h : fk.rankOf g < fk.D ^ 2
      · rw [if_pos (by omega), if_pos (by omega)]
        rfl
      · rw [if_neg (by omega), if_neg (by omega)]
        rfl
    · rw [if_neg (fun h => hc (hcond.1 h)), if_neg hc]
      by_cases h : fk.rankOf g + fk.D < fk.D ^ 2
      · rw [if_pos (by omega), if_pos h]
        rfl
      · rw [if_neg (by omega), if_neg h]
        rfl

theorem genGridK_price {fk : FK} {g : List ℕ × List ℕ} {tops : List (List ℝ)} {sizes : List ℕ} (h : GridInput fk g.1 g.2 tops sizes) {K : Priced}
    (hK : p.genGridK fk tops sizes (fk.D * sizes.prod) (if fk.Q = 1 then .sum else if fk.apart g < fk.D ^ 2 then .slfm else .bt) g.1 = .ok K) :
    K.mv = fk.toeplitzProducts g * p.bttbWork sizes + p.op * fk.mixing g sizes.prod := by
  unfold FK.toeplitzProducts FK.mixing
  by_cases hQ : fk.Q = 1
  · rw [if_pos hQ] at hK ⊢
    rw [if_pos hQ]
    have hl : g.2.length = 1 := by
      obtain ⟨h1, h2, h3⟩ := h.ok.group _ h.mem
      simp only at h1 h2 h3
      match hg : g.2 with
      | [] => exact absurd hg h1
      | [q] => rfl
      | q :: q' :: l =>
        rw [hg] at h2 h3
        have := h3 q' (by simp)
        have h4 := (List.pairwise_cons.1 h2).1 q' (by simp)
        omega
    rw [genSumGrid_price h hK, hl]
    ring
  · rw [if_neg hQ] at hK ⊢
    rw [if_neg hQ]
    by_cases ha : fk.apart g < fk.D ^ 2
    · rw [if_pos ha] at hK
      rw [if_pos ha, min_eq_left ha.le]
      simp only [Prices.genGridK, Prices.genSlfmGrid, bind_ok] at hK
      obtain ⟨A, h1, B, h2, h3⟩ := hK
      obtain ⟨a1, a2⟩ := genCoregKs_price h h1
      obtain ⟨b1, b2⟩ := genDiagKs_price h h2
      rw [(sumMatrix_price h3).2]
      simp only [List.map_cons, List.map_nil, List.sum_cons, List.sum_nil, a1, a2, b1, b2]
      unfold FK.apart
      ring
    · rw [if_neg ha] at hK
      rw [if_neg ha, min_eq_right (by omega)]
      exact genBtGrid_price h hK

theorem gridKernelFor_price {fk : FK} {dists : List (List ℕ × NDArr ℝ)} {interp : List (List ℕ × (Arr2 ℝ × Arr2 ℝ))} {lens : List ℕ}
    {d : List ℕ → NDArr ℝ} {W : List ℕ → Arr2 ℝ} {n : ℕ} (h : GridSetup fk dists interp lens d W n) {stored : List ℕ → ℕ} {g : List ℕ × List ℕ}
    (hg : g ∈ fk.activeDims) {K : Priced} (hK : p.gridKernelFor fk dists interp stored g.1 = .ok K) :
    K.obj.rows = n ∧ K.mv = fk.toeplitzProducts g * p.bttbWork (d g.1).shape + p.op * (fk.mixing g (d g.1).shape.prod + 4 * stored g.1) := by
  obtain ⟨d1, d2, d3, d4⟩ := h.dist g hg
  obtain ⟨w1, w2, w3⟩ := h.interp g hg
  obtain ⟨g1, g2, g3⟩ := h.ok.group g hg
  have hget := (mem_iff_dictGet h.ok.nodup g.1 g.2).1 hg
  have hev : fk.evalKernelsFixedDim (.arr (d g.1)) g.1 = .ok (g.2.map fun q => .arr ⟨(d g.1).shape,
      (d g.1).data.map (fk.kernels.getD q (.identity none)).doc⟩) := by
    unfold FK.evalKernelsFixedDim
    rw [dictIdx_of_get hget, ok_bind]
    refine mapExcept_ok fun q hq => ?_
    exact fromDist_arr _ (h.valid _ (getD_mem _ (g3 q hq))) _ d3
  have hst := stackTops_eq (d g.1).shape (fun q => (d g.1).data.map (fk.kernels.getD q (.identity none)).doc) g.2 g1
  have hin : GridInput fk g.1 g.2 (g.2.map fun q => (d g.1).data.map (fk.kernels.getD q (.identity none)).doc) (d g.1).shape :=
    ⟨h.wf, h.ok, hg, by simp, by
      intro t ht; obtain ⟨q, -, rfl⟩ := List.mem_map.1 ht
      rw [List.length_map]; exact d2, d4, d3⟩
  unfold Prices.gridKernelFor Prices.gridKernelNew at hK
  simp only [chooseKType_eq h.ok hg, ok_bind, dictIdx_of_get d1, dictIdx_of_get w1, matrixInit_eq (w2 ▸ h.pos) (w2 ▸ h.pos), hev, hst, bind_ok, pure_ok] at hK
  obtain ⟨G, hG, S, hS, rfl⟩ := hK
  rw [w3] at hG
  refine ⟨w2, ?_⟩
  simp only [Prices.ski, bind_ok, pure_ok] at hS
  obtain ⟨M, -, rfl⟩ := hS
  show p.op * (2 * stored g.1) + G.mv + p.op * (2 * stored g.1) = _
  rw [genGridK_price hin hG]
  ring

theorem genGridKernel_price {fk : FK} {dists : List (List ℕ × NDArr ℝ)} {interp : List (List ℕ × (Arr2 ℝ × Arr2 ℝ))} {lens : List ℕ}
    {d : List ℕ → NDArr ℝ} {W : List ℕ → Arr2 ℝ} {n : ℕ} (h : GridSetup fk dists interp lens d W n) {stored : List ℕ → ℕ} {K : Priced}
    (hK : p.genGridKernel fk dists interp stored lens = .ok K) :
    K.mv = (fk.activeDims.map fun g => fk.toeplitzProducts g * p.bttbWork (d g.1).shape + p.op * (fk.mixing g (d g.1).shape.prod + 4 * stored g.1 + n)).sum + p.op * (2 * n) := by
  simp only [Prices.genGridKernel, bind_ok] at hK
  obtain ⟨gks, h1, N, h2, h3⟩ := hK
  have f1 := mapExcept_inv h1
  rw [List.forall₂_map_left_iff] at f1
  simp only [Prices.diag, bind_ok, pure_ok] at h2
  obtain ⟨M, h2, rfl⟩ := h2
  have hlen : (npRepeat fk.noise lens).length = n := by rw [npRepeat_length _ _ (by rw [h.wf.noise, h.lensD]), h.sum]
  obtain ⟨r, e⟩ := sumMatrix_price h3
  have hM : M.rows = n := by
    simp only [diagNew, NDArr.vec, NDArr.len, bind_ok, pure_ok, Except.ok.injEq] at h2
    obtain ⟨k, hk, -, -, h2⟩ := h2
    have h3 := (if_neg (show ¬ (({ shape := [(npRepeat fk.noise lens).length], data := npRepeat fk.noise lens } :
      NDArr ℝ).ndim ≠ 1) by simp [NDArr.ndim])).symm.trans h2
    rw [pure_ok] at h3
    rw [← h3, ← hlen, ← hk]
  rw [e, List.map_append, List.sum_append]
  have hs : (gks.map fun B => B.mv + p.op * B.obj.rows).sum =
      (fk.activeDims.map fun g => fk.toeplitzProducts g * p.bttbWork (d g.1).shape + p.op * (fk.mixing g (d g.1).shape.prod + 4 * stored g.1 + n)).sum := by
    congr 1
    refine List.ext_getElem (by simp [f1.length_eq]) fun i hi hi' => ?_
    simp only [List.length_map] at hi hi'
    rw [List.getElem_map, List.getElem_map]
    have := List.forall₂_iff_get.1 f1 |>.2 i hi' hi
    obtain ⟨a, b⟩ := gridKernelFor_price h (List.getElem_mem hi') this
    simp only [List.get_eq_getElem] at a b
    rw [a, b]
    ring
  rw [hs]
  congr 1
  show (_ + p.op * M.rows) + 0 = _
  rw [hM]
  show p.op * (npRepeat fk.noise lens).length + p.op * n + 0 = _
  rw [hlen]
  ring

end Verif
