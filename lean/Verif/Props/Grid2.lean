import Verif.Props.Grid

/-! C33, C34: the grid kernels. -/

namespace Verif

/-! ### how the hypotheses come about -/

theorem groupsOK_of_setInputDim (fk fk' : FK) (hf : fk.Fresh) (P : ℕ) (hP : 0 < P) (h : fk.setInputDim P = .ok fk') : fk'.GroupsOK := by
  obtain ⟨fk'', h', g⟩ := setInputDim_fresh fk P hf
  rw [h] at h'; cases h'
  have hQ : fk'.Q = fk.Q := g.klen
  have e1 : fk'.numLmcTotal = fk.numLmcTotal := by rw [g.same]
  have e2 : fk'.numSlfmTotal = fk.numSlfmTotal := by rw [g.same]
  refine ⟨⟨P, by rw [g.same], hP⟩, g.nodup, fun x hx => ?_, fun x hx => ?_, fun x hx => ?_, fun x hx q hq => ?_⟩
  · obtain ⟨h1, h2⟩ := (g.mem x.1 x.2).1 hx
    refine ⟨h2, (C30_partition fk fk' hf P h).2.1 x hx, fun q hq => ?_⟩
    rw [h1, FK.groupOf, List.mem_filter, List.mem_range] at hq
    rw [hQ]; exact hq.1
  · rw [g.lmc x.1 x.2 hx, e1]
  · rw [g.indep x.1 x.2 hx, e1, e2]
  · rw [hQ] at hq
    rw [((g.mem x.1 x.2).1 hx).1, g.kern q hq, show ∀ (k : Kern) ad, (k.setActiveDims ad).activeDims = ad from fun k ad => by cases k <;> rfl, FK.groupOf, List.mem_filter, List.mem_range]
    constructor
    · rintro ⟨-, h⟩
      rw [of_decide_eq_true h]
    · intro h
      exact ⟨hq, decide_eq_true (Option.some.inj h)⟩

theorem wf_of_setInputDim (fk fk' : FK) (hf : fk.Fresh) (hw : fk.WF) (P : ℕ) (h : fk.setInputDim P = .ok fk') : fk'.WF := by
  obtain ⟨fk'', h', g⟩ := setInputDim_fresh fk P hf
  rw [h] at h'; cases h'
  have e1 : fk'.numLmcTotal = fk.numLmcTotal := by rw [g.same]
  have e2 : fk'.numSlfmTotal = fk.numSlfmTotal := by rw [g.same]
  have e3 : fk'.coregVecs = fk.coregVecs := by rw [g.same]
  have e4 : fk'.coregDiags = fk.coregDiags := by rw [g.same]
  have e5 : fk'.D = fk.D := by rw [g.same]
  have e6 : fk'.noise = fk.noise := by rw [g.same]
  obtain ⟨a1, a2, a3, a4, a5, a6, a7, a8, a9, a10⟩ := hw
  constructor <;> simp only [e1, e2, e3, e4, e5, e6, g.klen] <;> assumption

/-! ### C33 -/

/-- C33 for 'sum' and 'bt': both are the matrix `∑_q B_q ⊗ K_q`. -/
theorem C33_sum_bt {fk : FK} {ad idxs : List ℕ} {tops : List (List ℝ)} {sizes : List ℕ} (h : GridInput fk ad idxs tops sizes) :
    (∃ M, genGridK fk tops sizes (fk.D * sizes.prod) .sum ad = .ok M ∧
      IsMatrix M (fk.D * sizes.prod) (fk.D * sizes.prod) (lmcGridEntry (fk.coregOf idxs) tops sizes)) ∧
    ∃ M, genGridK fk tops sizes (fk.D * sizes.prod) .bt ad = .ok M ∧
      IsMatrix M (fk.D * sizes.prod) (fk.D * sizes.prod) (lmcGridEntry (fk.coregOf idxs) tops sizes) :=
  ⟨genSumGrid_isMatrix h, genBtGrid_isMatrix h⟩

/-- What the 'slfm' representation is: `∑_q B_q ⊗ K_q`, *plus an identity matrix* when the group has only SLFM kernels or only
independent ones. -/
theorem C33_slfm_exact {fk : FK} {ad idxs : List ℕ} {tops : List (List ℝ)} {sizes : List ℕ} (h : GridInput fk ad idxs tops sizes) :
    ∃ M, genGridK fk tops sizes (fk.D * sizes.prod) .slfm ad = .ok M ∧
      IsMatrix M (fk.D * sizes.prod) (fk.D * sizes.prod) fun i j => lmcGridEntry (fk.coregOf idxs) tops sizes i j +
        open Classical in if (∀ q ∈ idxs, fk.IsIndep q) ∨ ∀ q ∈ idxs, fk.IsSlfm q then delta i j else 0 :=
  genSlfmGrid_isMatrix h

/-- C33 in full holds when the group has a kernel that is not independent and one that is not SLFM. Missing: the other groups, for
which it is false, see `C33_slfm_wrong`. -/
theorem C33_agree_partial {fk : FK} {ad idxs : List ℕ} {tops : List (List ℝ)} {sizes : List ℕ} (h : GridInput fk ad idxs tops sizes)
    (h1 : ∃ q ∈ idxs, ¬ fk.IsIndep q) (h2 : ∃ q ∈ idxs, ¬ fk.IsSlfm q) (kt : KType) :
    ∃ M, genGridK fk tops sizes (fk.D * sizes.prod) kt ad = .ok M ∧
      IsMatrix M (fk.D * sizes.prod) (fk.D * sizes.prod) (lmcGridEntry (fk.coregOf idxs) tops sizes) := by
  cases kt
  · exact (C33_sum_bt h).1
  · exact (C33_sum_bt h).2
  · obtain ⟨M, hM, hM'⟩ := C33_slfm_exact h
    refine ⟨M, hM, hM'.congr fun i _ j _ => ?_⟩
    rw [if_neg, add_zero]
    rintro (h | h)
    · obtain ⟨q, hq, hn⟩ := h1; exact hn (h q hq)
    · obtain ⟨q, hq, hn⟩ := h2; exact hn (h q hq)

/-- In the remaining groups the representations never agree. -/
theorem C33_slfm_wrong {fk : FK} {ad idxs : List ℕ} {tops : List (List ℝ)} {sizes : List ℕ} (h : GridInput fk ad idxs tops sizes)
    (hd : (∀ q ∈ idxs, fk.IsIndep q) ∨ ∀ q ∈ idxs, fk.IsSlfm q) (A C : MatObj)
    (hA : genGridK fk tops sizes (fk.D * sizes.prod) .sum ad = .ok A) (hC : genGridK fk tops sizes (fk.D * sizes.prod) .slfm ad = .ok C) :
    C.asNumpy.get 0 0 = A.asNumpy.get 0 0 + 1 := by
  obtain ⟨M, hM, hM'⟩ := (C33_sum_bt h).1
  obtain ⟨M2, hM2, hM2'⟩ := C33_slfm_exact h
  rw [hA] at hM; cases hM
  rw [hC] at hM2; cases hM2
  have hp := Nat.mul_pos h.wf.Dpos h.pos
  rw [hM'.entry 0 hp 0 hp, hM2'.entry 0 hp 0 hp, if_pos hd]
  simp [delta]

/-- the mixed model of `exampleArgs_ok`: the group `[0, 1]` has an LMC and an SLFM kernel, the group `[1]` only an independent one -/
example (rand : ℕ → ℕ → ℕ → ℝ) : ∃ fk tops, GridInput fk [0, 1] [0, 1] tops [2, 3] ∧ (∃ q ∈ [0, 1], ¬ fk.IsIndep q) ∧
    ∃ q ∈ [0, 1], ¬ fk.IsSlfm q := by
  obtain ⟨fk, h⟩ := exampleArgs_ok rand
  obtain ⟨hk, -, hQ, hw, hf⟩ := C29_contents rand _ fk (by simp) (by simp) h
  obtain ⟨fk', h', -, hm, -⟩ := C30_groups fk hf 2
  have hk' : fk.kernels = [.rbf 1 none, .matern32 1 (some [1, 0]), .rbf 2 (some [1])] := hk
  obtain ⟨fk'', h'', g⟩ := setInputDim_fresh fk 2 hf
  rw [h'] at h''; cases h''
  have e1 : fk'.numLmcTotal = fk.numLmcTotal := by rw [g.same]
  have e2 : fk'.numSlfmTotal = fk.numSlfmTotal := by rw [g.same]
  obtain ⟨D, hD, h3⟩ := (fkNew_given rand ⟨some 3, some [.rbf 1 none], some [2],
    some [.matern32 1 (some [1, 0])], some [.rbf 2 (some [1])], some [-1]⟩ (by simp) (by simp)).1
    ⟨⟨3, rfl, by norm_num⟩, by simp [given], rfl, by simp [given], .inr rfl⟩ (fun D hD => by cases hD; simp [given])
  have l1 : fk.numLmcTotal = 1 ∧ fk.numSlfmTotal = 1 := by
    rw [h] at h3; cases h3; exact ⟨rfl, rfl⟩
  refine ⟨fk', [[1, 2, 3, 4, 5, 6], [6, 5, 4, 3, 2, 1]], ⟨wf_of_setInputDim fk fk' hf hw 2 h', groupsOK_of_setInputDim fk fk' hf 2 (by norm_num) h',
    ?_, rfl, by simp, by norm_num, by simp⟩, ⟨0, by simp, ?_⟩, ⟨0, by simp, ?_⟩⟩
  · rw [hm]; simp [FK.Q, hk', List.range_succ, dimsRead, Kern.activeDims]
  · simp [FK.IsIndep, e1, e2, l1.1]
  · simp [FK.IsSlfm, e1, e2, l1.1]

/-! ### C34 -/

theorem stackTops_eq {α : Type} (s : List ℕ) (f : α → List ℝ) : ∀ (l : List α), l ≠ [] →
    stackTops (l.map fun q => .arr ⟨s, f q⟩) = .ok (l.map f, s)
  | [], h => absurd rfl h
  | [a], _ => rfl
  | a :: b :: l, _ => by
    have ih := stackTops_eq s f (b :: l) (by simp)
    rw [List.map_cons] at ih ⊢
    rw [List.map_cons] at ih ⊢
    simp only [stackTops, ih, ok_bind, if_true]
    rfl

theorem npRepeat_getD : ∀ (xs : List ℝ) (c : List ℕ) (i : ℕ), xs.length = c.length → i < c.sum →
    (npRepeat xs c).getD i 0 = xs.getD (ownerOf c i) 0
  | [], [], i, _, hi => by simp at hi
  | [], _ :: _, _, h, _ => by simp at h
  | _ :: _, [], _, h, _ => by simp at h
  | x :: xs, n :: c, i, h, hi => by
    have e : npRepeat (x :: xs) (n :: c) = List.replicate n x ++ npRepeat xs c := by simp [npRepeat]
    rw [e, ownerOf]
    by_cases h1 : i < n
    · rw [List.getD_append _ _ _ _ (by simpa using h1), if_pos h1, List.getD_eq_getElem _ _ (by simpa using h1)]
      simp
    · rw [List.getD_append_right _ _ _ _ (by simpa using h1), if_neg h1, List.length_replicate, List.getD_cons_succ,
        npRepeat_getD xs c (i - n) (by simpa using h) (by simp at hi; omega)]

theorem chooseKType_ok {fk : FK} (hok : fk.GroupsOK) {g : List ℕ × List ℕ} (hg : g ∈ fk.activeDims) : ∃ kt, chooseKType fk g.1 = .ok kt := by
  unfold chooseKType
  split
  · exact ⟨_, rfl⟩
  · obtain ⟨P, hP, hP'⟩ := hok.P
    have h1 : fk.totalRank g.1 = .ok (g.2.foldl (fun r q => if q < fk.numLmcTotal + fk.numSlfmTotal then
        r + (fk.coregVecs.getD q ⟨0, 0, []⟩).rows else r) 0) := by
      unfold FK.totalRank FK.assertP
      simp only [hP, if_neg hP'.ne', ok_bind, dictIdx_of_get ((mem_iff_dictGet hok.nodup g.1 g.2).1 hg)]
      rfl
    simp only [h1, ok_bind, dictIdx_of_get (hok.lmc g hg), dictIdx_of_get (hok.indep g hg)]
    split <;> split <;> exact ⟨_, rfl⟩

theorem gridKernelFor_represents {fk : FK} {dists : List (List ℕ × NDArr ℝ)} {interp : List (List ℕ × (Arr2 ℝ × Arr2 ℝ))} {lens : List ℕ}
    {d : List ℕ → NDArr ℝ} {W : List ℕ → Arr2 ℝ} {n : ℕ} (h : GridSetup fk dists interp lens d W n) {g : List ℕ × List ℕ}
    (hg : g ∈ fk.activeDims) : ∃ G, gridKernelFor fk dists interp g.1 = .ok G ∧ G.obj.rows = n ∧ G.obj.cols = n ∧
      IsMatrix G.gridK (W g.1).cols (W g.1).cols (fun p q => groupGrid fk (d g.1) g.2 p q +
        open Classical in if Spoiled fk g then delta p q else 0) ∧
      Represents G.obj (sandwich (W g.1) fun p q => groupGrid fk (d g.1) g.2 p q +
        open Classical in if Spoiled fk g then delta p q else 0) := by
  obtain ⟨kt, hkt⟩ := chooseKType_ok h.ok hg
  obtain ⟨d1, d2, d3, d4⟩ := h.dist g hg
  obtain ⟨w1, w2, w3⟩ := h.interp g hg
  obtain ⟨g1, g2, g3⟩ := h.ok.group g hg
  have hget := (mem_iff_dictGet h.ok.nodup g.1 g.2).1 hg
  have hev : fk.evalKernelsFixedDim (.arr (d g.1)) g.1 = .ok (g.2.map fun q => .arr ⟨(d g.1).shape,
      (d g.1).data.map (fk.kernels.getD q (.identity none)).doc⟩) := by
    unfold FK.evalKernelsFixedDim
    rw [dictIdx_of_get hget, ok_bind]
    refine mapExcept_ok fun q hq => ?_
    exact fromDist_arr _ (h.valid _ (getD_mem _ (g3 q hq))) _ d3
  have hst := stackTops_eq (d g.1).shape (fun q => (d g.1).data.map (fk.kernels.getD q (.identity none)).doc) g.2 g1
  have hin : GridInput fk g.1 g.2 (g.2.map fun q => (d g.1).data.map (fk.kernels.getD q (.identity none)).doc) (d g.1).shape :=
    ⟨h.wf, h.ok, hg, by simp, by
      intro t ht; obtain ⟨q, -, rfl⟩ := List.mem_map.1 ht
      rw [List.length_map]; exact d2, d4, d3⟩
  obtain ⟨K, hK, hK'⟩ : ∃ K, genGridK fk (g.2.map fun q => (d g.1).data.map (fk.kernels.getD q (.identity none)).doc) (d g.1).shape
      (W g.1).cols kt g.1 = .ok K ∧ IsMatrix K (W g.1).cols (W g.1).cols (fun p q => groupGrid fk (d g.1) g.2 p q +
        open Classical in if Spoiled fk g then delta p q else 0) := by
    rw [w3]
    have hns : kt ≠ .slfm → ¬ Spoiled fk g := by
      rintro hn ⟨h1, -⟩; rw [hkt] at h1; cases h1; exact hn rfl
    cases kt
    · obtain ⟨K, hK, hK'⟩ := (C33_sum_bt hin).1
      exact ⟨K, hK, hK'.congr fun i _ j _ => by rw [if_neg (hns (by simp)), add_zero]; rfl⟩
    · obtain ⟨K, hK, hK'⟩ := (C33_sum_bt hin).2
      exact ⟨K, hK, hK'.congr fun i _ j _ => by rw [if_neg (hns (by simp)), add_zero]; rfl⟩
    · obtain ⟨K, hK, hK'⟩ := C33_slfm_exact hin
      refine ⟨K, hK, hK'.congr fun i _ j _ => ?_⟩
      have : Spoiled fk g ↔ ((∀ q ∈ g.2, fk.IsIndep q) ∨ ∀ q ∈ g.2, fk.IsSlfm q) := ⟨fun h => h.2, fun h => ⟨hkt, h⟩⟩
      by_cases hsp : Spoiled fk g
      · rw [if_pos hsp, if_pos (this.1 hsp)]; rfl
      · rw [if_neg hsp, if_neg (fun h => hsp (this.2 h))]; rfl
  have hs : ∃ S, skiNew K (W g.1) (W g.1).T = .ok S := by
    have hc : 0 < (W g.1).cols := by rw [w3]; exact Nat.mul_pos h.wf.Dpos d4
    have hr : 0 < (W g.1).rows := by rw [w2]; exact h.pos
    unfold skiNew wrapNew compositionNew
    simp only [Arr2.T_rows, Arr2.T_cols, matrixInit_eq hr hc, matrixInit_eq hc hr, ok_bind, List.head?_cons,
      List.getLast?_cons_cons, List.getLast?_singleton, pure_bind, matrixInit_eq hr hr]
    exact ⟨_, rfl⟩
  obtain ⟨S, hS⟩ := hs
  obtain ⟨s1, s2, hR⟩ := ski_represents hK'.represents hK'.rows hK'.cols rfl hS
  refine ⟨_, by
    unfold gridKernelFor gridKernelNew
    simp only [hkt, ok_bind, dictIdx_of_get d1, dictIdx_of_get w1, matrixInit_eq (w2 ▸ h.pos) (w2 ▸ h.pos), hev, hst, hK, hS]
    rfl, w2, w2, hK', ?_⟩
  have hp : 0 < (W g.1).rows := by rw [w2]; exact h.pos
  have mv : ∀ x : List ℝ, x.length = (W g.1).rows → S.matvec x = vmk (W g.1).rows fun i => ∑ j ∈ Finset.range (W g.1).rows,
      sandwich (W g.1) (fun p q => groupGrid fk (d g.1) g.2 p q + open Classical in if Spoiled fk g then delta p q else 0) i j *
        x.getD j 0 := by
    intro x hx
    have := hR.matvec x (by rw [s2, hx])
    rw [s1, s2] at this
    exact this
  refine Represents.ofDefault hp hp mv rfl ?_
  show defaultMatmat _ _ _ = _
  rw [defaultMatmat_eq mv (Arr2.eye _) rfl]
  exact matmat_eye

theorem sum_represents {ι : Type} {xs : List ι} {Ks : List MatObj} {n : ℕ} {A : ι → ℕ → ℕ → ℝ} (hne : xs ≠ [])
    (h : List.Forall₂ (fun x K => K.rows = n ∧ K.cols = n ∧ Represents K (A x)) xs Ks) :
    ∃ M, sumMatrixNew Ks = .ok M ∧ M.rows = n ∧ M.cols = n ∧ Represents M fun i j => (xs.map fun x => A x i j).sum := by
  have hK : ∀ K ∈ Ks, K.rows = n ∧ K.cols = n ∧ Good K := by
    intro K hK
    obtain ⟨x, -, hx⟩ := forall₂_mem_right h hK
    exact ⟨hx.1, hx.2.1, hx.2.2.good⟩
  have hKne : Ks ≠ [] := by rintro rfl; cases h; exact hne rfl
  have hex : ∃ M, sumMatrixNew Ks = .ok M := by
    obtain ⟨K0, rest, rfl⟩ := List.exists_cons_of_ne_nil hKne
    have hc : ((K0 :: rest).map fun K => (K.rows, K.cols)).toFinset.card = 1 := by
      rw [Finset.card_eq_one]
      refine ⟨(n, n), ?_⟩
      ext p
      simp only [List.mem_toFinset, Finset.mem_singleton, List.mem_map]
      constructor
      · rintro ⟨K, hK', rfl⟩
        rw [(hK K hK').1, (hK K hK').2.1]
      · rintro rfl; exact ⟨K0, by simp, by rw [(hK K0 (by simp)).1, (hK K0 (by simp)).2.1]⟩
    have hg := (hK K0 (by simp)).2.2
    unfold sumMatrixNew
    simp only
    rw [if_neg (by rw [not_not]; exact hc), matrixInit_eq hg.rpos hg.cpos]
    exact ⟨_, rfl⟩
  obtain ⟨M, hM⟩ := hex
  obtain ⟨K0, hK0⟩ := List.exists_mem_of_ne_nil _ hKne
  have hsh := (sumMatrix_ok hM).2 K0 hK0
  rw [(hK K0 hK0).1, (hK K0 hK0).2.1] at hsh
  have hR := sumMatrix_represents (A := fun K => K.asNumpy.get) hM fun K h => (hK K h).2.2
  refine ⟨M, hM, hsh.1.symm, hsh.2.symm, hR.congr fun i hi j hj => ?_⟩
  rw [← hsh.1] at hi
  rw [← hsh.2] at hj
  clear hK hKne hM hK0 hR hne
  induction h with
  | nil => rfl
  | cons h1 h2 ih => simp only [List.map_cons, List.sum_cons, ih, h1.2.2.entry (h1.1.symm ▸ hi) (h1.2.1.symm ▸ hj)]

theorem mapExcept_map {α β γ : Type} (f : β → Except PyErr γ) (g : α → β) : ∀ l : List α, mapExcept f (l.map g) = mapExcept (fun x => f (g x)) l
  | [] => rfl
  | x :: l => by simp only [List.map_cons, mapExcept, mapExcept_map f g l]

/-- What `gen_grid_kernel` returns, exactly: `∑_g W_g (∑_q B_q ⊗ K_q) W_gᵀ + diag(noise)`, with an extra `W_g W_gᵀ` for every group
whose 'slfm' representation is chosen although it has only SLFM or only independent kernels. All products of the operator are those
of this matrix. -/
theorem C34_covariance_exact {fk : FK} {dists : List (List ℕ × NDArr ℝ)} {interp : List (List ℕ × (Arr2 ℝ × Arr2 ℝ))} {lens : List ℕ}
    {d : List ℕ → NDArr ℝ} {W : List ℕ → Arr2 ℝ} {n : ℕ} (h : GridSetup fk dists interp lens d W n) :
    ∃ K gks, genGridKernel fk dists interp lens = .ok (K, gks) ∧ K.rows = n ∧ K.cols = n ∧
      Represents K fun i j => (fk.activeDims.map fun g => sandwich (W g.1) (fun p q => groupGrid fk (d g.1) g.2 p q +
          open Classical in if Spoiled fk g then delta p q else 0) i j).sum +
        if i = j then fk.noise.getD (ownerOf lens i) 0 else 0 := by
  obtain ⟨Gs, hG, hG'⟩ := mapExcept_forall2 (f := fun g : List ℕ × List ℕ => gridKernelFor fk dists interp g.1) (l := fk.activeDims)
    (R := fun g G => G.obj.rows = n ∧ G.obj.cols = n ∧
      Represents G.obj (sandwich (W g.1) fun p q => groupGrid fk (d g.1) g.2 p q +
        open Classical in if Spoiled fk g then delta p q else 0)) fun g hg => by
      obtain ⟨G, h1, h2, h3, -, h4⟩ := gridKernelFor_represents h hg
      exact ⟨G, h1, h2, h3, h4⟩
  have hlen : (npRepeat fk.noise lens).length = n := by
    rw [npRepeat_length _ _ (by rw [h.wf.noise, h.lensD]), h.sum]
  obtain ⟨N, hN⟩ := (C09_diag (.vec (npRepeat fk.noise lens))).1.2 ⟨n, by simp [NDArr.vec, hlen], h.pos⟩
  obtain ⟨n1, n2, n3⟩ := diag_represents (vec_wf _) hN
  have n1' : N.rows = n := by simp [NDArr.vec] at n1; omega
  obtain ⟨M, hM, m1, m2, m3⟩ := sum_represents (n := n) (xs := fk.activeDims.map some ++ [none]) (Ks := Gs.map GridKernelObj.obj ++ [N])
    (A := fun x i j => match x with
      | some g => sandwich (W g.1) (fun p q => groupGrid fk (d g.1) g.2 p q +
          open Classical in if Spoiled fk g then delta p q else 0) i j
      | none => if i = j then (npRepeat fk.noise lens).getD i 0 else 0) (by simp) (by
    refine List.rel_append ?_ (.cons ⟨n1', n2.trans n1', n3⟩ .nil)
    rw [List.forall₂_map_left_iff, List.forall₂_map_right_iff]
    exact hG')
  refine ⟨M, _, by
    simp only [genGridKernel, mapExcept_map, hG, ok_bind, hN, hM]; rfl, m1, m2, m3.congr fun i hi j hj => ?_⟩
  rw [List.map_append, List.sum_append, List.map_map]
  congr 1
  simp only [List.map_cons, List.map_nil, List.sum_cons, List.sum_nil, add_zero]
  rw [npRepeat_getD _ _ _ (by rw [h.wf.noise, h.lensD]) (by rw [h.sum, ← m1]; exact hi)]

/-- C34, for models where no group with only SLFM or only independent kernels gets the 'slfm' representation. Missing: those models,
for which it is false, see `C34_wrong_variance`. -/
theorem C34_covariance_partial {fk : FK} {dists : List (List ℕ × NDArr ℝ)} {interp : List (List ℕ × (Arr2 ℝ × Arr2 ℝ))} {lens : List ℕ}
    {d : List ℕ → NDArr ℝ} {W : List ℕ → Arr2 ℝ} {n : ℕ} (h : GridSetup fk dists interp lens d W n)
    (hs : ∀ g ∈ fk.activeDims, ¬ Spoiled fk g) :
    ∃ K gks, genGridKernel fk dists interp lens = .ok (K, gks) ∧ K.rows = n ∧ K.cols = n ∧
      Represents K fun i j => (fk.activeDims.map fun g => sandwich (W g.1) (groupGrid fk (d g.1) g.2) i j).sum +
        if i = j then fk.noise.getD (ownerOf lens i) 0 else 0 := by
  obtain ⟨K, gks, h1, h2, h3, h4⟩ := C34_covariance_exact h
  refine ⟨K, gks, h1, h2, h3, h4.congr fun i _ j _ => ?_⟩
  congr 2
  refine List.map_congr_left fun g hg => ?_
  simp only [if_neg (hs g hg), add_zero]

/-- In particular whenever every group has an LMC kernel, or an SLFM and an independent one. -/
theorem C34_covariance_mixed {fk : FK} {dists : List (List ℕ × NDArr ℝ)} {interp : List (List ℕ × (Arr2 ℝ × Arr2 ℝ))} {lens : List ℕ}
    {d : List ℕ → NDArr ℝ} {W : List ℕ → Arr2 ℝ} {n : ℕ} (h : GridSetup fk dists interp lens d W n)
    (hs : ∀ g ∈ fk.activeDims, (∃ q ∈ g.2, ¬ fk.IsIndep q) ∧ ∃ q ∈ g.2, ¬ fk.IsSlfm q) :
    ∃ K gks, genGridKernel fk dists interp lens = .ok (K, gks) ∧ K.rows = n ∧ K.cols = n ∧
      Represents K fun i j => (fk.activeDims.map fun g => sandwich (W g.1) (groupGrid fk (d g.1) g.2) i j).sum +
        if i = j then fk.noise.getD (ownerOf lens i) 0 else 0 := by
  refine C34_covariance_partial h fun g hg hsp => ?_
  obtain ⟨⟨q, hq, h1⟩, q', hq', h2⟩ := hs g hg
  rcases hsp.2 with h | h
  · exact h1 (h q hq)
  · exact h2 (h q' hq')

theorem totalRank_eq {fk : FK} (hok : fk.GroupsOK) {g : List ℕ × List ℕ} (hg : g ∈ fk.activeDims) :
    fk.totalRank g.1 = .ok ((fk.filterNonIndep g.2).map fun q => (fk.coregVecs.getD q ⟨0, 0, []⟩).rows).sum := by
  obtain ⟨P, hP, hP'⟩ := hok.P
  unfold FK.totalRank FK.assertP
  simp only [hP, if_neg hP'.ne', ok_bind, dictIdx_of_get ((mem_iff_dictGet hok.nodup g.1 g.2).1 hg)]
  have : ∀ (l : List ℕ) (r0 : ℕ), l.foldl (fun r q => if q < fk.numLmcTotal + fk.numSlfmTotal then
        r + (fk.coregVecs.getD q ⟨0, 0, []⟩).rows else r) r0 =
      r0 + ((fk.filterNonIndep l).map fun q => (fk.coregVecs.getD q ⟨0, 0, []⟩).rows).sum := by
    intro l
    induction l with
    | nil => intro r0; simp [FK.filterNonIndep]
    | cons q l ih =>
      intro r0
      rw [List.foldl_cons, ih]
      unfold FK.filterNonIndep
      by_cases hq : q < fk.numLmcTotal + fk.numSlfmTotal
      · rw [if_pos hq, List.filter_cons_of_pos (by simpa using hq), List.map_cons, List.sum_cons]; omega
      · rw [if_neg hq, List.filter_cons_of_neg (by simpa using hq)]
  rw [this]; simp; rfl

/-- C34 is false: with at least two kernels in the model and two outputs, every group of independent kernels only is spoiled, and so
is every group of fewer than `D²` SLFM kernels only. -/
theorem C34_spoiled {fk : FK} (hw : fk.WF) (hok : fk.GroupsOK) (hQ : 2 ≤ fk.Q) (hD : 2 ≤ fk.D) {g : List ℕ × List ℕ}
    (hg : g ∈ fk.activeDims) :
    ((∀ q ∈ g.2, fk.IsIndep q) → Spoiled fk g) ∧
    ((∀ q ∈ g.2, fk.IsSlfm q) → g.2.length < fk.D ^ 2 → Spoiled fk g) := by
  have hr := totalRank_eq hok hg
  have hDD : fk.D < fk.D ^ 2 := by nlinarith
  have hl := hok.lmc g hg
  have hi := hok.indep g hg
  have hne := (hok.group g hg).1
  constructor
  · intro h
    have e : fk.filterNonIndep g.2 = [] := by
      unfold FK.filterNonIndep; rw [List.filter_eq_nil_iff]; intro q hq; have := h q hq; simpa [FK.IsIndep] using this
    have ei : (g.2.filter fun q => fk.numLmcTotal + fk.numSlfmTotal ≤ q) = g.2 := by
      rw [List.filter_eq_self]; intro q hq; have := h q hq; simpa [FK.IsIndep] using this
    have hpos := List.length_pos_iff.2 hne
    refine ⟨?_, .inl h⟩
    unfold chooseKType
    rw [if_neg (by omega), hr, e]
    simp only [ok_bind, dictIdx_of_get hl, dictIdx_of_get hi, ei]
    rw [if_pos (by
      rw [if_neg (by omega)]; simpa using hDD)]
    rfl
  · intro h hlt
    have e : fk.filterNonIndep g.2 = g.2 := by
      unfold FK.filterNonIndep; rw [List.filter_eq_self]; intro q hq; simpa using (h q hq).2
    have el : (g.2.filter fun q => q < fk.numLmcTotal) = [] := by
      rw [List.filter_eq_nil_iff]; intro q hq; simpa using (h q hq).1
    have ei : (g.2.filter fun q => fk.numLmcTotal + fk.numSlfmTotal ≤ q) = [] := by
      rw [List.filter_eq_nil_iff]; intro q hq; simpa using (h q hq).2
    have es : (g.2.map fun q => (fk.coregVecs.getD q ⟨0, 0, []⟩).rows).sum = g.2.length := by
      rw [List.map_congr_left fun q hq => hw.slfmRank q (h q hq).1 (h q hq).2]; simp
    refine ⟨?_, .inr h⟩
    unfold chooseKType
    rw [if_neg (by omega), hr, e, es]
    simp only [ok_bind, dictIdx_of_get hl, dictIdx_of_get hi, ei, el]
    rw [if_pos (by
      rw [if_pos (by simp)]; omega)]
    rfl

/-- Consequence: in a model with SLFM kernels only, or independent kernels only, the variance of every observation is too large by
the squared norm of its interpolation weights. -/
theorem C34_wrong_variance {fk : FK} {dists : List (List ℕ × NDArr ℝ)} {interp : List (List ℕ × (Arr2 ℝ × Arr2 ℝ))} {lens : List ℕ}
    {d : List ℕ → NDArr ℝ} {W : List ℕ → Arr2 ℝ} {n : ℕ} (h : GridSetup fk dists interp lens d W n) (hQ : 2 ≤ fk.Q) (hD : 2 ≤ fk.D)
    (hs : (∀ q < fk.Q, fk.IsIndep q) ∨ (∀ q < fk.Q, fk.IsSlfm q) ∧ fk.Q < fk.D ^ 2) :
    ∃ K gks, genGridKernel fk dists interp lens = .ok (K, gks) ∧ ∀ i < n, K.asNumpy.get i i =
      ((fk.activeDims.map fun g => sandwich (W g.1) (groupGrid fk (d g.1) g.2) i i).sum + fk.noise.getD (ownerOf lens i) 0) +
        (fk.activeDims.map fun g => ∑ p ∈ Finset.range (W g.1).cols, (W g.1).get i p ^ 2).sum := by
  obtain ⟨K, gks, h1, h2, h3, h4⟩ := C34_covariance_exact h
  refine ⟨K, gks, h1, fun i hi => ?_⟩
  have hsp : ∀ g ∈ fk.activeDims, Spoiled fk g := by
    intro g hg
    obtain ⟨g1, g2, g3⟩ := h.ok.group g hg
    rcases hs with hs | ⟨hs, hlt⟩
    · exact (C34_spoiled h.wf h.ok hQ hD hg).1 fun q hq => hs q (g3 q hq)
    · refine (C34_spoiled h.wf h.ok hQ hD hg).2 (fun q hq => hs q (g3 q hq)) (lt_of_le_of_lt ?_ hlt)
      have hnd : g.2.Nodup := g2.imp fun h => h.ne
      have : g.2.length ≤ (List.range fk.Q).length :=
        (hnd.subperm fun q hq => List.mem_range.2 (g3 q hq)).length_le
      simpa using this
  rw [h4.entry (h2 ▸ hi) (h3 ▸ hi), if_pos rfl]
  have : (fk.activeDims.map fun g => sandwich (W g.1) (fun p q => groupGrid fk (d g.1) g.2 p q +
          open Classical in if Spoiled fk g then delta p q else 0) i i).sum =
      (fk.activeDims.map fun g => sandwich (W g.1) (groupGrid fk (d g.1) g.2) i i).sum +
        (fk.activeDims.map fun g => ∑ p ∈ Finset.range (W g.1).cols, (W g.1).get i p ^ 2).sum := by
    rw [← List.sum_map_add]
    refine congrArg List.sum (List.map_congr_left fun g hg => ?_)
    unfold sandwich
    rw [← Finset.sum_add_distrib]
    refine Finset.sum_congr rfl fun p hp => ?_
    simp only [if_pos (hsp g hg), mul_add, add_mul, Finset.sum_add_distrib]
    congr 1
    rw [Finset.sum_eq_single p]
    · simp [delta]; ring
    · intro q _ hq; simp [delta, Ne.symm hq]
    · intro h; exact absurd hp h
  rw [this]; ring

/-- the simplest wrong model: two outputs, one independent GP each, on a line with a grid of three points; one observation per
output, at the first grid point -/
example : ∃ fk dists interp d W, GridSetup fk dists interp [1, 1] d W 2 ∧ 2 ≤ fk.Q ∧ 2 ≤ fk.D ∧ ∀ q < fk.Q, fk.IsIndep q := by
  obtain ⟨fk, h⟩ : ∃ fk, fkNew (fun _ _ _ => 0) ⟨some 2, some [], some [], none, some [.rbf 1 none, .rbf 1 none], none⟩ = .ok fk :=
    (C29_accepts_partial _ _ (by simp) (by simp)).2 ⟨⟨⟨2, rfl, by norm_num⟩, by simp [given], rfl, by simp [given], .inl rfl⟩,
      fun D hD => by cases hD; simp [given]⟩
  obtain ⟨hk, hD, hQ, hw, hf⟩ := C29_contents _ _ fk (by simp) (by simp) h
  obtain ⟨fk', h', -, hm, -⟩ := C30_groups fk hf 1
  obtain ⟨fk'', h'', g⟩ := setInputDim_fresh fk 1 hf
  rw [h'] at h''; cases h''
  have hk' : fk.kernels = [.rbf 1 none, .rbf 1 none] := hk
  have e1 : fk'.numLmcTotal = fk.numLmcTotal := by rw [g.same]
  have e2 : fk'.numSlfmTotal = fk.numSlfmTotal := by rw [g.same]
  have e3 : fk'.D = fk.D := by rw [g.same]
  obtain ⟨D, hD', h3⟩ := (fkNew_given (fun _ _ _ => 0) ⟨some 2, some [], some [], none, some [.rbf 1 none, .rbf 1 none], none⟩
    (by simp) (by simp)).1
    ⟨⟨2, rfl, by norm_num⟩, by simp [given], rfl, by simp [given], .inl rfl⟩ (fun D hD => by cases hD; simp [given])
  have l1 : fk.numLmcTotal = 0 ∧ fk.numSlfmTotal = 0 := by
    rw [h] at h3; cases h3; exact ⟨rfl, rfl⟩
  have hD2 : fk.D = 2 := by simp at hD; omega
  have hQ2 : fk'.Q = 2 := by rw [show fk'.Q = fk.Q from g.klen, hQ]; rfl
  have hkeys : ∀ x ∈ fk'.activeDims, x.1 = [0] := by
    intro x hx
    obtain ⟨h1, h2⟩ := (hm x.1 x.2).1 hx
    obtain ⟨q, hq⟩ := List.exists_mem_of_ne_nil _ h1
    rw [h2, List.mem_filter, List.mem_range] at hq
    have hq2 : q < 2 := by rw [hQ] at hq; exact hq.1
    have := hq.2
    have : q = 0 ∨ q = 1 := by omega
    rcases this with rfl | rfl <;> simpa [hk', dimsRead, Kern.activeDims, List.range_succ, eq_comm] using hq.2
  refine ⟨fk', [([0], ⟨[3], [0, 1, 2]⟩)], [([0], (Arr2.of 2 6 fun i j => if j = 3 * i then 1 else 0,
    (Arr2.of 2 6 fun i j => if j = 3 * i then 1 else 0).T))], fun _ => ⟨[3], [0, 1, 2]⟩,
    fun _ => Arr2.of 2 6 fun i j => if j = 3 * i then 1 else 0, ⟨wf_of_setInputDim fk fk' hf hw 1 h', groupsOK_of_setInputDim fk fk' hf 1
    (by norm_num) h', ?_, by simp [e3, hD2], rfl, by norm_num, ?_, ?_⟩, by omega, by omega, ?_⟩
  · intro k hk
    obtain ⟨i, hi, rfl⟩ := List.getElem_of_mem hk
    have hi' : i < fk.kernels.length := by rw [← g.klen]; exact hi
    have := g.kern i hi'
    rw [List.getD_eq_getElem _ _ hi] at this
    rw [this]
    have hi2 : i = 0 ∨ i = 1 := by rw [hk'] at hi'; simp at hi'; omega
    rcases hi2 with rfl | rfl <;> simp [hk', Kern.setActiveDims, Kern.Valid]
  · intro x hx
    rw [hkeys x hx]
    exact ⟨rfl, by simp [NDArr.WF], by simp, by norm_num⟩
  · intro x hx
    rw [hkeys x hx]
    exact ⟨rfl, rfl, by rw [e3, hD2]; rfl⟩
  · intro q _; simp [FK.IsIndep, e1, e2, l1.1, l1.2]

/-- a model to which `C34_covariance_mixed` applies: an LMC kernel and an independent one -/
example : ∃ fk dists interp d W, GridSetup fk dists interp [1, 1] d W 2 ∧ ∀ g ∈ fk.activeDims, (∃ q ∈ g.2, ¬ fk.IsIndep q) ∧ ∃ q ∈ g.2, ¬ fk.IsSlfm q := by
  obtain ⟨fk, h⟩ : ∃ fk, fkNew (fun _ _ _ => 0) ⟨some 2, some [.rbf 1 none], some [2], none, some [.rbf 1 none], none⟩ = .ok fk :=
    (C29_accepts_partial _ _ (by simp) (by simp)).2 ⟨⟨⟨2, rfl, by norm_num⟩, by simp [given], rfl, by simp [given], .inl rfl⟩,
      fun D hD => by cases hD; simp [given]⟩
  obtain ⟨hk, hD, hQ, hw, hf⟩ := C29_contents _ _ fk (by simp) (by simp) h
  obtain ⟨fk', h', -, hm, -⟩ := C30_groups fk hf 1
  obtain ⟨fk'', h'', g⟩ := setInputDim_fresh fk 1 hf
  rw [h'] at h''; cases h''
  have hk' : fk.kernels = [.rbf 1 none, .rbf 1 none] := hk
  have e1 : fk'.numLmcTotal = fk.numLmcTotal := by rw [g.same]
  have e2 : fk'.numSlfmTotal = fk.numSlfmTotal := by rw [g.same]
  have e3 : fk'.D = fk.D := by rw [g.same]
  obtain ⟨D, hD', h3⟩ := (fkNew_given (fun _ _ _ => 0) ⟨some 2, some [.rbf 1 none], some [2], none, some [.rbf 1 none], none⟩
    (by simp) (by simp)).1
    ⟨⟨2, rfl, by norm_num⟩, by simp [given], rfl, by simp [given], .inl rfl⟩ (fun D hD => by cases hD; simp [given])
  have l1 : fk.numLmcTotal = 1 ∧ fk.numSlfmTotal = 0 := by
    rw [h] at h3; cases h3; exact ⟨rfl, rfl⟩
  have hD2 : fk.D = 2 := by simp at hD; omega
  have hQ2 : fk'.Q = 2 := by rw [show fk'.Q = fk.Q from g.klen, hQ]; rfl
  have hkeys : ∀ x ∈ fk'.activeDims, x.1 = [0] := by
    intro x hx
    obtain ⟨h1, h2⟩ := (hm x.1 x.2).1 hx
    obtain ⟨q, hq⟩ := List.exists_mem_of_ne_nil _ h1
    rw [h2, List.mem_filter, List.mem_range] at hq
    have hq2 : q < 2 := by rw [hQ] at hq; exact hq.1
    have := hq.2
    have : q = 0 ∨ q = 1 := by omega
    rcases this with rfl | rfl <;> simpa [hk', dimsRead, Kern.activeDims, List.range_succ, eq_comm] using hq.2
  refine ⟨fk', [([0], ⟨[3], [0, 1, 2]⟩)], [([0], (Arr2.of 2 6 fun i j => if j = 3 * i then 1 else 0,
    (Arr2.of 2 6 fun i j => if j = 3 * i then 1 else 0).T))], fun _ => ⟨[3], [0, 1, 2]⟩,
    fun _ => Arr2.of 2 6 fun i j => if j = 3 * i then 1 else 0, ⟨wf_of_setInputDim fk fk' hf hw 1 h', groupsOK_of_setInputDim fk fk' hf 1
    (by norm_num) h', ?_, by simp [e3, hD2], rfl, by norm_num, ?_, ?_⟩, ?_⟩
  · intro k hk
    obtain ⟨i, hi, rfl⟩ := List.getElem_of_mem hk
    have hi' : i < fk.kernels.length := by rw [← g.klen]; exact hi
    have := g.kern i hi'
    rw [List.getD_eq_getElem _ _ hi] at this
    rw [this]
    have hi2 : i = 0 ∨ i = 1 := by rw [hk'] at hi'; simp at hi'; omega
    rcases hi2 with rfl | rfl <;> simp [hk', Kern.setActiveDims, Kern.Valid]
  · intro x hx
    rw [hkeys x hx]
    exact ⟨rfl, by simp [NDArr.WF], by simp, by norm_num⟩
  · intro x hx
    rw [hkeys x hx]
    exact ⟨rfl, rfl, by rw [e3, hD2]; rfl⟩
  · intro x hx
    obtain ⟨h1, h2⟩ := (hm x.1 x.2).1 hx
    have h0 : 0 ∈ x.2 := by
      rw [h2, List.mem_filter, List.mem_range, hkeys x hx]
      exact ⟨by rw [hQ]; simp [given], by simp [hk', dimsRead, Kern.activeDims, List.range_succ]⟩
    exact ⟨⟨0, h0, by simp [FK.IsIndep, e1, e2, l1.1, l1.2]⟩, 0, h0, by simp [FK.IsSlfm, e1, e2, l1.1, l1.2]⟩

end Verif
