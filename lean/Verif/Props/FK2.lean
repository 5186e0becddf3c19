import Verif.Props.FK

/-! C30: grouping by active dimensions; C31: coregionalization matrices. -/

namespace Verif

/-! ### C30 -/

/-- C30: `set_input_dim` on a new `FunctionalKernel` succeeds; a group `(key, idxs)` is recorded exactly when `idxs` lists, in order, all
the kernels that read the dimensions `key`, and there is at least one; no key is recorded twice; every kernel's own `active_dims` becomes its key. -/
theorem C30_groups (fk : FK) (hf : fk.Fresh) (P : ℕ) :
    ∃ fk', fk.setInputDim P = .ok fk' ∧ fk'.P = some P ∧
      (∀ key idxs, (key, idxs) ∈ fk'.activeDims ↔ idxs ≠ [] ∧
        idxs = (List.range fk.Q).filter fun i => dimsRead P (fk.kernels.getD i (.identity none)) = key) ∧
      (fk'.activeDims.map Prod.fst).Nodup ∧
      ∀ q < fk.Q, fk'.getActiveDims q = .ok (dimsRead P (fk.kernels.getD q (.identity none))) := by
  obtain ⟨fk', h, g⟩ := setInputDim_fresh fk P hf
  refine ⟨fk', h, by rw [g.same], fun key idxs => (g.mem key idxs).trans and_comm, g.nodup, fun q hq => ?_⟩
  have hk := g.kern q hq
  unfold FK.getActiveDims
  rw [List.getElem?_eq_getElem (by rw [g.klen]; exact hq)]
  rw [List.getD_eq_getElem _ _ (by rw [g.klen]; exact hq)] at hk
  simp only [hk]
  have : ∀ (k : Kern) (ad : Option (List ℕ)), (k.setActiveDims ad).activeDims = ad := by intro k ad; cases k <;> rfl
  rw [this]

/-- C30: every kernel index is in exactly one group and each group is strictly increasing. -/
theorem C30_partition (fk fk' : FK) (hf : fk.Fresh) (P : ℕ) (h : fk.setInputDim P = .ok fk') :
    (fk'.activeDims.flatMap Prod.snd).Perm (List.range fk.Q) ∧ (∀ g ∈ fk'.activeDims, g.2.Pairwise (· < ·)) ∧
      ∀ q < fk.Q, ∃! g, g ∈ fk'.activeDims ∧ q ∈ g.2 := by
  obtain ⟨fk'', h', g⟩ := setInputDim_fresh fk P hf
  rw [h] at h'; cases h'
  have hin : ∀ key idxs, (key, idxs) ∈ fk'.activeDims → ∀ q, q ∈ idxs ↔
      q < fk.Q ∧ dimsRead P (fk.kernels.getD q (.identity none)) = key := by
    intro key idxs hm q
    rw [((g.mem _ _).1 hm).1]
    simp [FK.groupOf, FK.Q]
  have hex : ∀ q < fk.Q, ∃! g, g ∈ fk'.activeDims ∧ q ∈ g.2 := by
    intro q hq
    set key := dimsRead P (fk.kernels.getD q (.identity none)) with hkey
    have hm : (key, fk.groupOf P key) ∈ fk'.activeDims := by
      rw [g.mem]
      refine ⟨rfl, List.ne_nil_of_mem (a := q) ?_⟩
      exact List.mem_filter.2 ⟨List.mem_range.2 hq, by simp [hkey]⟩
    refine ⟨_, ⟨hm, (hin _ _ hm q).2 ⟨hq, rfl⟩⟩, ?_⟩
    rintro ⟨k2, i2⟩ ⟨hm2, hq2⟩
    have e := ((hin _ _ hm2 q).1 hq2).2
    rw [← hkey] at e
    subst e
    rw [((g.mem _ _).1 hm2).1]
  have hsort : ∀ g ∈ fk'.activeDims, g.2.Pairwise (· < ·) := by
    rintro ⟨key, idxs⟩ hm
    rw [((g.mem _ _).1 hm).1]
    exact List.pairwise_lt_range.filter _
  refine ⟨?_, hsort, hex⟩
  refine (List.perm_ext_iff_of_nodup ?_ List.nodup_range).2 fun q => ?_
  · rw [List.nodup_flatMap]
    refine ⟨fun x hx => (hsort x hx).imp fun h => ne_of_lt h, ?_⟩
    refine (List.pairwise_map.1 g.nodup).imp_of_mem ?_
    rintro ⟨k1, i1⟩ ⟨k2, i2⟩ h1 h2 hne
    rw [Function.onFun, List.disjoint_left]
    intro q hq1 hq2
    exact hne (((hin _ _ h1 q).1 hq1).2.symm.trans ((hin _ _ h2 q).1 hq2).2)
  · rw [List.mem_flatMap, List.mem_range]
    constructor
    · rintro ⟨⟨key, idxs⟩, hm, hq⟩
      exact ((hin _ _ hm q).1 hq).1
    · intro hq
      obtain ⟨x, hx, -⟩ := hex q hq
      exact ⟨x, hx⟩

theorem length_filter_flatMap {α β : Type} (l : List α) (f : α → List β) (p : β → Bool) :
    ((l.flatMap f).filter p).length = (l.map fun a => ((f a).filter p).length).sum := by
  induction l with
  | nil => rfl
  | cons a l ih => simp [List.flatMap_cons, List.filter_append, ih]

theorem filter_range_length (p : ℕ → Bool) (a b n : ℕ) (hab : a ≤ b) (hb : b ≤ n) (hp : ∀ i, p i = true ↔ a ≤ i ∧ i < b) :
    ((List.range n).filter p).length = b - a := by
  have e : ((List.range n).filter p).Perm (List.range' a (b - a)) := by
    refine (List.perm_ext_iff_of_nodup (List.nodup_range.filter _) List.nodup_range').2 fun i => ?_
    rw [List.mem_filter, List.mem_range, List.mem_range'_1, hp]
    omega
  rw [e.length_eq, List.length_range']

/-- C30: in every group the three counts are the numbers of LMC, SLFM and independent kernels in it; they add up to its size; over all
groups they add up to the global counts. -/
theorem C30_counts (fk fk' : FK) (hf : fk.Fresh) (P : ℕ) (h : fk.setInputDim P = .ok fk') :
    (∀ key idxs, (key, idxs) ∈ fk'.activeDims → ∃ l s i, dictGet fk'.numLmc key = some l ∧ dictGet fk'.numSlfm key = some s ∧
      dictGet fk'.numIndep key = some i ∧ l + s + i = idxs.length ∧
      l = (idxs.filter fun q => q < fk.numLmcTotal).length ∧
      i = (idxs.filter fun q => fk.numLmcTotal + fk.numSlfmTotal ≤ q).length ∧
      (fk'.filterNonIndep idxs).length = l + s) ∧
    (fk'.activeDims.map fun g => (dictGet fk'.numLmc g.1).getD 0).sum = fk.numLmcTotal ∧
    (fk'.activeDims.map fun g => (dictGet fk'.numSlfm g.1).getD 0).sum = fk.numSlfmTotal ∧
    (fk'.activeDims.map fun g => (dictGet fk'.numIndep g.1).getD 0).sum = fk.Q - (fk.numLmcTotal + fk.numSlfmTotal) := by
  obtain ⟨fk'', h', g⟩ := setInputDim_fresh fk P hf
  rw [h] at h'; cases h'
  obtain ⟨hperm, -, -⟩ := C30_partition fk fk' hf P h
  have hc := hf.counts
  have tot : ∀ (d : List (List ℕ × ℕ)) (p : ℕ → Bool), (∀ key idxs, (key, idxs) ∈ fk'.activeDims → dictGet d key = some (idxs.filter p).length) →
      (fk'.activeDims.map fun g => (dictGet d g.1).getD 0).sum = ((List.range fk.Q).filter p).length := by
    intro d p hd
    rw [← (hperm.filter p).length_eq, length_filter_flatMap]
    congr 1
    refine List.map_congr_left ?_
    rintro ⟨key, idxs⟩ hm
    simp [hd key idxs hm]
  refine ⟨fun key idxs hm => ⟨_, _, _, g.lmc _ _ hm, g.slfm _ _ hm, g.indep _ _ hm, ?_, rfl, rfl, ?_⟩, ?_, ?_, ?_⟩
  · clear hm
    induction idxs with
    | nil => rfl
    | cons a l ih =>
      simp only [List.filter_cons, List.length_cons]
      by_cases h1 : a < fk.numLmcTotal
      · simp [h1, show ¬ fk.numLmcTotal ≤ a by omega, show ¬ fk.numLmcTotal + fk.numSlfmTotal ≤ a by omega]
        simp at ih; omega
      · by_cases h2 : a < fk.numLmcTotal + fk.numSlfmTotal
        · simp [h1, h2, show fk.numLmcTotal ≤ a by omega, show ¬ fk.numLmcTotal + fk.numSlfmTotal ≤ a by omega]
          simp at ih; omega
        · simp [h1, h2, show fk.numLmcTotal + fk.numSlfmTotal ≤ a by omega]
          simp at ih; omega
  · have e1 : fk'.numLmcTotal = fk.numLmcTotal := by rw [g.same]
    have e2 : fk'.numSlfmTotal = fk.numSlfmTotal := by rw [g.same]
    unfold FK.filterNonIndep
    rw [e1, e2]
    clear hm
    induction idxs with
    | nil => rfl
    | cons a l ih =>
      simp only [List.filter_cons]
      by_cases h1 : a < fk.numLmcTotal
      · simp [h1, show ¬ fk.numLmcTotal ≤ a by omega, show a < fk.numLmcTotal + fk.numSlfmTotal by omega]
        simp at ih; omega
      · by_cases h2 : a < fk.numLmcTotal + fk.numSlfmTotal
        · simp [h1, h2, show fk.numLmcTotal ≤ a by omega]
          simp at ih; omega
        · simp [h1, h2]
          simp at ih; omega
  · rw [tot _ _ g.lmc, filter_range_length _ 0 fk.numLmcTotal _ (Nat.zero_le _) (by unfold FK.Q; omega) (by simp), Nat.sub_zero]
  · rw [tot _ _ g.slfm, filter_range_length _ fk.numLmcTotal (fk.numLmcTotal + fk.numSlfmTotal) _ (by omega) (by unfold FK.Q; omega) (by simp)]
    omega
  · rw [tot _ _ g.indep]
    have : ((List.range fk.Q).filter fun i => decide (fk.numLmcTotal + fk.numSlfmTotal ≤ i)) =
        (List.range fk.Q).filter fun i => decide (fk.numLmcTotal + fk.numSlfmTotal ≤ i ∧ i < fk.Q) := by
      refine List.filter_congr fun i hi => ?_
      simp [List.mem_range.1 hi]
    rw [this, filter_range_length _ (fk.numLmcTotal + fk.numSlfmTotal) fk.Q _ (by unfold FK.Q; omega) le_rfl (by simp)]

/-- a history of `set_input_dim` calls: a call that raises leaves the object as it was (the code assigns nothing before raising) -/
def FK.callHistory (fk : FK) : List ℕ → FK
  | [] => fk
  | P :: Ps => match fk.setInputDim P with
    | .ok fk' => FK.callHistory fk' Ps
    | .error _ => FK.callHistory fk Ps

/-- C30: after the first call, every later history leaves the object unchanged: the same `P` is accepted, another raises ValueError. -/
theorem C30_history (fk fk' : FK) (hf : fk.Fresh) (P : ℕ) (h : fk.setInputDim P = .ok fk') (Ps : List ℕ) :
    fk'.callHistory Ps = fk' ∧ ∀ P', (fk'.callHistory Ps).setInputDim P' = if P' = P then .ok fk' else .error .valueError := by
  obtain ⟨fk'', h', g⟩ := setInputDim_fresh fk P hf
  rw [h] at h'; cases h'
  have hP : fk'.P = some P := by rw [g.same]
  have key : ∀ P', fk'.setInputDim P' = if P' = P then .ok fk' else .error .valueError := by
    intro P'
    unfold FK.setInputDim
    by_cases e : P' = P
    · simp [hP, e]
    · simp [hP, e, Ne.symm e]
  have hist : fk'.callHistory Ps = fk' := by
    induction Ps with
    | nil => rfl
    | cons a Ps ih =>
      unfold FK.callHistory
      rw [key a]
      split_ifs <;> exact ih
  exact ⟨hist, by rw [hist]; exact key⟩

/-- C30: `total_rank` of a group is the number of rows of the stacked coregionalization vectors of its LMC and SLFM kernels. -/
theorem C30_total_rank (fk fk' : FK) (hf : fk.Fresh) (P : ℕ) (hP : 0 < P) (h : fk.setInputDim P = .ok fk')
    (key idxs : List ℕ) (hm : (key, idxs) ∈ fk'.activeDims) :
    fk'.totalRank key = .ok ((fk'.filterNonIndep idxs).map fun q => (fk.coregVecs.getD q ⟨0, 0, []⟩).rows).sum := by
  obtain ⟨fk'', h', g⟩ := setInputDim_fresh fk P hf
  rw [h] at h'; cases h'
  have e0 : fk'.P = some P := by rw [g.same]
  have e3 : fk'.coregVecs = fk.coregVecs := by rw [g.same]
  have hg := (mem_iff_dictGet g.nodup key idxs).1 hm
  unfold FK.totalRank FK.assertP dictIdx FK.filterNonIndep
  simp only [e0, Nat.ne_of_gt hP, ↓reduceIte, hg, e3, ok_bind]
  have : ∀ (l : List ℕ) (r : ℕ), l.foldl (fun r q => if q < fk'.numLmcTotal + fk'.numSlfmTotal then
      r + (fk.coregVecs.getD q ⟨0, 0, []⟩).rows else r) r =
      r + ((l.filter fun q => q < fk'.numLmcTotal + fk'.numSlfmTotal).map fun q => (fk.coregVecs.getD q ⟨0, 0, []⟩).rows).sum := by
    intro l
    induction l with
    | nil => simp
    | cons a l ih =>
      intro r
      rw [List.foldl_cons, ih]
      by_cases hlt : a < fk'.numLmcTotal + fk'.numSlfmTotal
      · simp [hlt, Nat.add_assoc]
      · simp [hlt]
  rw [this]
  simp
  rfl

/-- the mixed model of `exampleArgs_ok` in two dimensions has two groups; `[1, 0]` is sorted to `[0, 1]` -/
example (rand : ℕ → ℕ → ℕ → ℝ) : ∃ fk fk', fkNew rand ⟨some 3, some [.rbf 1 none], some [2],
    some [.matern32 1 (some [1, 0])], some [.rbf 2 (some [1])], some [-1]⟩ = .ok fk ∧ fk.setInputDim 2 = .ok fk' ∧
    ([0, 1], [0, 1]) ∈ fk'.activeDims ∧ ([1], [2]) ∈ fk'.activeDims := by
  obtain ⟨fk, h⟩ := exampleArgs_ok rand
  obtain ⟨hk, -, hQ, -, hf⟩ := C29_contents rand _ fk (by simp) (by simp) h
  obtain ⟨fk', h', -, hm, -⟩ := C30_groups fk hf 2
  have hk' : fk.kernels = [.rbf 1 none, .matern32 1 (some [1, 0]), .rbf 2 (some [1])] := hk
  refine ⟨fk, fk', h, h', ?_, ?_⟩
  · rw [hm]; simp [FK.Q, hk', List.range_succ, dimsRead, Kern.activeDims]
  · rw [hm]; simp [FK.Q, hk', List.range_succ, dimsRead, Kern.activeDims]

/-! ### C31 -/

theorem coregMat_get (a : Arr2 ℝ) (k : List ℝ) (hk : k.length = a.cols) {i j : ℕ} (hi : i < a.cols) (hj : j < a.cols) :
    (coregMat a k).get i j = (∑ r ∈ Finset.range a.rows, a.get r i * a.get r j) + if i = j then k.getD i 0 else 0 := by
  unfold coregMat Arr2.add Arr2.dot npDiagMat
  rw [Arr2.of_get (by exact hi) (by exact hj), Arr2.of_get (by exact hi) (by exact hj), Arr2.of_get (by omega) (by omega)]
  congr 1
  refine Finset.sum_congr rfl fun r hr => ?_
  rw [show (a.T.get i r) = a.get r i from Arr2.of_get (by exact hi) (by exact Finset.mem_range.1 hr)]

/-- C31: there is one `D × D` matrix per kernel, with the stated entries. -/
theorem C31_coreg_entries (fk : FK) (hw : fk.WF) :
    fk.coregMats.length = fk.Q ∧ ∀ q < fk.Q, ∀ B, fk.coregMats[q]? = some B →
      B.rows = fk.D ∧ B.cols = fk.D ∧ B.WF ∧ ∀ i < fk.D, ∀ j < fk.D, B.get i j =
        (∑ r ∈ Finset.range (fk.coregVecs.getD q ⟨0, 0, []⟩).rows, (fk.coregVecs.getD q ⟨0, 0, []⟩).get r i *
          (fk.coregVecs.getD q ⟨0, 0, []⟩).get r j) + if i = j then (fk.coregDiags.getD q []).getD i 0 else 0 := by
  refine ⟨by simp [FK.coregMats, hw.vecs, hw.diags, FK.Q], fun q hq B hB => ?_⟩
  have h1 : q < fk.coregVecs.length := by rw [hw.vecs]; exact hq
  have h2 : q < fk.coregDiags.length := by rw [hw.diags]; exact hq
  obtain ⟨-, hc, -⟩ := hw.vec q hq
  have hd := hw.diag q hq
  have e : B = coregMat (fk.coregVecs.getD q ⟨0, 0, []⟩) (fk.coregDiags.getD q []) := by
    rw [List.getD_eq_getElem _ _ h1, List.getD_eq_getElem _ _ h2]
    unfold FK.coregMats at hB
    rw [List.getElem?_eq_getElem (by simp [h1, h2])] at hB
    simp only [List.getElem_zipWith, Option.some.injEq] at hB
    exact hB.symm
  subst e
  refine ⟨hc, hc, Arr2.of_wf _ _ _, fun i hi j hj => ?_⟩
  exact coregMat_get _ _ (by rw [hd, hc]) (by omega) (by omega)

/-- C31: they are symmetric, and positive semi-definite when the diagonal part is non-negative. -/
theorem C31_coreg_psd (fk : FK) (hw : fk.WF) (q : ℕ) (hq : q < fk.Q) (B : Arr2 ℝ) (hB : fk.coregMats[q]? = some B) :
    (∀ i < fk.D, ∀ j < fk.D, B.get i j = B.get j i) ∧
    ((∀ i < fk.D, 0 ≤ (fk.coregDiags.getD q []).getD i 0) → (fnMatrix fk.D fk.D B.get).PosSemidef) := by
  obtain ⟨-, -, -, he⟩ := (C31_coreg_entries fk hw).2 q hq B hB
  have hs : ∀ i < fk.D, ∀ j < fk.D, B.get i j = B.get j i := by
    intro i hi j hj
    rw [he i hi j hj, he j hj i hi]
    congr 1
    · exact Finset.sum_congr rfl fun _ _ => mul_comm _ _
    · by_cases e : i = j
      · subst e; rfl
      · simp [e, Ne.symm e]
  refine ⟨hs, fun hk => ?_⟩
  rw [psd_iff_sum]
  refine ⟨fun i j => hs i i.2 j j.2, fun c => ?_⟩
  set a := fk.coregVecs.getD q ⟨0, 0, []⟩
  have : ∑ i : Fin fk.D, ∑ j : Fin fk.D, c i * c j * fnMatrix fk.D fk.D B.get i j =
      (∑ r ∈ Finset.range a.rows, (∑ i : Fin fk.D, c i * a.get r i) ^ 2) +
      ∑ i : Fin fk.D, c i ^ 2 * (fk.coregDiags.getD q []).getD i 0 := by
    have e1 : ∀ r, (∑ i : Fin fk.D, c i * a.get r i) ^ 2 = ∑ i : Fin fk.D, ∑ j : Fin fk.D, c i * c j * (a.get r i * a.get r j) := by
      intro r
      rw [sq, Finset.sum_mul_sum]
      exact Finset.sum_congr rfl fun i _ => Finset.sum_congr rfl fun j _ => by ring
    simp only [e1]
    rw [Finset.sum_comm (s := Finset.range a.rows), ← Finset.sum_add_distrib]
    refine Finset.sum_congr rfl fun i _ => ?_
    rw [Finset.sum_comm (s := Finset.range a.rows)]
    have e2 : c i ^ 2 * (fk.coregDiags.getD q []).getD i 0 =
        ∑ j : Fin fk.D, if i = j then c i * c j * (fk.coregDiags.getD q []).getD i 0 else 0 := by
      rw [Finset.sum_ite_eq]; simp [sq]
    rw [e2, ← Finset.sum_add_distrib]
    refine Finset.sum_congr rfl fun j _ => ?_
    simp only [fnMatrix]
    rw [he i i.2 j j.2, mul_add, Finset.mul_sum]
    congr 1
    by_cases e : i = j
    · subst e; simp
    · have : (i : ℕ) ≠ j := fun h => e (Fin.ext h)
      simp [e, this]
  rw [this]
  exact add_nonneg (Finset.sum_nonneg fun r _ => sq_nonneg _) (Finset.sum_nonneg fun i _ => mul_nonneg (sq_nonneg _) (hk i i.2))

/-- C31: SLFM kernels have the rank-one matrix `a aᵀ`. -/
theorem C31_slfm_rank_one (fk : FK) (hw : fk.WF) (q : ℕ) (h1 : fk.numLmcTotal ≤ q) (h2 : q < fk.numLmcTotal + fk.numSlfmTotal)
    (B : Arr2 ℝ) (hB : fk.coregMats[q]? = some B) :
    ∃ v : ℕ → ℝ, ∀ i < fk.D, ∀ j < fk.D, B.get i j = v i * v j := by
  have hq : q < fk.Q := lt_of_lt_of_le h2 hw.counts
  obtain ⟨-, -, -, he⟩ := (C31_coreg_entries fk hw).2 q hq B hB
  refine ⟨fun i => (fk.coregVecs.getD q ⟨0, 0, []⟩).get 0 i, fun i hi j hj => ?_⟩
  rw [he i hi j hj, hw.slfmRank q h1 h2, hw.slfm q h1 h2]
  simp

/-- C31: the independent kernel built for output `d` has the matrix `e_d e_dᵀ`. -/
theorem C31_indep_unit (rand : ℕ → ℕ → ℕ → ℝ) (a : FKArgs) (fk : FK) (hk : a.lmcKernels ≠ none) (hr : a.lmcRanks ≠ none)
    (h : fkNew rand a = .ok fk) (p : ℕ) (hp : p < (given a.indepGpIndex).length) (B : Arr2 ℝ)
    (hB : fk.coregMats[(given a.lmcKernels).length + (given a.slfmKernels).length + p]? = some B) (d : ℕ) (hd : d < fk.D)
    (hpd : (given a.indepGpIndex)[p] = (d : ℤ)) :
    ∀ i < fk.D, ∀ j < fk.D, B.get i j = if i = d ∧ j = d then 1 else 0 := by
  obtain ⟨dd, r⟩ := (C29_accepts_partial rand a hk hr).1 ⟨fk, h⟩
  obtain ⟨-, -, hQ, hw, -⟩ := C29_contents rand a fk hk hr h
  obtain ⟨D, hD, h'⟩ := (fkNew_given rand a hk hr).1 dd r
  have hne : given a.indepGpIndex ≠ [] := by intro e; simp [e] at hp
  have hlen : (given a.indepGpIndex).length = (given a.indepGp).length := dd.indices.resolve_left hne
  set q := (given a.lmcKernels).length + (given a.slfmKernels).length + p with hqdef
  have hq : q < fk.Q := by omega
  obtain ⟨-, -, -, he⟩ := (C31_coreg_entries fk hw).2 q hq B hB
  rw [h'] at h
  cases h
  intro i hi j hj
  rw [he i hi j hj, Finset.sum_eq_zero fun r _ => by rw [hw.indep q (by simp only; omega), zero_mul], zero_add]
  simp only at hd hi hj ⊢
  rw [List.getD_append_right _ _ _ _ (by simp only [List.length_append, vmk_length]; omega)]
  simp only [List.length_append, vmk_length, FKArgs.idx, indexOrRange_ne hne]
  rw [show q - ((given a.lmcKernels).length + (given a.slfmKernels).length) = p by omega,
    List.getD_eq_getElem (l := List.map _ _) _ (by rw [List.length_map]; exact hp), List.getElem_map, vmk_getD_lt hi, hpd]
  by_cases e : i = j
  · subst e
    by_cases e2 : i = d
    · simp [e2]
    · simp only [↓reduceIte, Nat.cast_inj, e2, false_or, and_self]
      rw [if_neg (by omega)]
  · simp only [e, ↓reduceIte]
    rw [if_neg (by omega)]

/-- the mixed model: three kernels, the last one is output 2's own -/
example (rand : ℕ → ℕ → ℕ → ℝ) : ∃ fk B, fkNew rand ⟨some 3, some [.rbf 1 none], some [2],
    some [.matern32 1 (some [1, 0])], some [.rbf 2 (some [1])], some [2]⟩ = .ok fk ∧ fk.coregMats[2]? = some B ∧ B.get 2 2 = 1 ∧ B.get 1 2 = 0 := by
  obtain ⟨fk, h⟩ : ∃ fk, fkNew rand ⟨some 3, some [.rbf 1 none], some [2],
      some [.matern32 1 (some [1, 0])], some [.rbf 2 (some [1])], some [2]⟩ = .ok fk :=
    (C29_accepts_partial _ _ (by simp) (by simp)).2 ⟨⟨⟨3, rfl, by norm_num⟩, by simp [given], rfl, by simp [given], .inr rfl⟩,
      fun D hD => by cases hD; simp [given]⟩
  obtain ⟨-, hD, hQ, hw, -⟩ := C29_contents rand _ fk (by simp) (by simp) h
  have hQ3 : fk.Q = 3 := hQ
  have hD3 : fk.D = 3 := by simp at hD; omega
  have hl := (C31_coreg_entries fk hw).1
  have hlt : 2 < fk.coregMats.length := by omega
  have hB : fk.coregMats[2]? = some fk.coregMats[2] := List.getElem?_eq_getElem hlt
  have := C31_indep_unit rand _ fk (by simp) (by simp) h 0 (by simp [given]) _ (by exact hB) 2 (by omega) (by simp [given])
  refine ⟨fk, _, h, hB, ?_, ?_⟩
  · rw [this 2 (by omega) 2 (by omega)]; simp
  · rw [this 1 (by omega) 2 (by omega)]; simp

end Verif
