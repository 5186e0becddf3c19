import Verif.Spec.Likelihood
import Verif.Props.Grid2

/-! The pieces of the exact likelihood. -/

namespace Verif

theorem offset_nil (a : ℕ) : offset [] a = 0 := by simp [offset]

theorem offset_cons_zero (l : ℕ) (ls : List ℕ) : offset (l :: ls) 0 = 0 := by simp [offset]

theorem offset_cons_succ (l : ℕ) (ls : List ℕ) (a : ℕ) : offset (l :: ls) (a + 1) = l + offset ls a := by simp [offset]

theorem spans_fst : ∀ (lens : List ℕ) (s i : ℕ), i < lens.length → ((spansFrom s lens).map Prod.fst).getD i 0 = s + offset lens i
  | [], _, _, h => by simp at h
  | l :: ls, s, 0, _ => by simp [spansFrom, offset]
  | l :: ls, s, i + 1, h => by
    rw [spansFrom, List.map_cons, List.getD_cons_succ, spans_fst ls _ i (by simpa using h), offset_cons_succ, add_assoc]

theorem spans_snd : ∀ (lens : List ℕ) (s i : ℕ), i < lens.length → ((spansFrom s lens).map Prod.snd).getD i 0 = s + offset lens (i + 1)
  | [], _, _, h => by simp at h
  | l :: ls, s, 0, _ => by simp [spansFrom, offset]
  | l :: ls, s, i + 1, h => by
    rw [spansFrom, List.map_cons, List.getD_cons_succ, spans_snd ls _ i (by simpa using h), offset_cons_succ l ls (i + 1), add_assoc]

theorem ownerOf_lt : ∀ (lens : List ℕ) (r : ℕ), r < lens.sum → ownerOf lens r < lens.length
  | [], r, h => by simp at h
  | l :: ls, r, h => by
    rw [ownerOf]
    split
    · simp
    · have := ownerOf_lt ls (r - l) (by simp at h; omega)
      simpa using this

/-- block `i` of the offsets contains exactly the observations of output `i` -/
theorem in_block_iff : ∀ (lens : List ℕ) (r i : ℕ), r < lens.sum → i < lens.length →
    (offset lens i ≤ r ∧ r < offset lens (i + 1) ↔ i = ownerOf lens r)
  | [], _, _, h, _ => by simp at h
  | l :: ls, r, 0, h, _ => by
    rw [ownerOf, offset_cons_succ, offset_cons_zero]
    by_cases hr : r < l
    · rw [if_pos hr]; simp [offset]; omega
    · rw [if_neg hr]; simp [offset]; omega
  | l :: ls, r, i + 1, h, hi => by
    rw [ownerOf, offset_cons_succ, offset_cons_succ]
    by_cases hr : r < l
    · rw [if_pos hr]
      constructor
      · intro h'; omega
      · intro h'; simp at h'
    · rw [if_neg hr]
      have := in_block_iff ls (r - l) i (by simp at h; omega) (by simpa using hi)
      rw [Nat.succ_inj, ← this]
      omega

theorem ownerOf_offset {lens : List ℕ} {a i : ℕ} (ha : a < lens.length) (hi : i < lens.getD a 0) :
    ownerOf lens (offset lens a + i) = a ∧ offset lens a + i < lens.sum ∧ innerIdx lens (offset lens a + i) = i := by
  have hs : offset lens (a + 1) = offset lens a + lens.getD a 0 := by
    unfold offset
    rw [List.take_add_one, List.sum_append, List.getElem?_eq_getElem ha, List.getD_eq_getElem _ _ ha]
    simp
  have hle : offset lens (a + 1) ≤ lens.sum := by
    unfold offset
    conv_rhs => rw [← List.take_append_drop (a + 1) lens]
    rw [List.sum_append]; omega
  have hlt : offset lens a + i < lens.sum := by omega
  have ho := (in_block_iff lens (offset lens a + i) a hlt ha).1 ⟨by omega, by omega⟩
  refine ⟨ho.symm, hlt, ?_⟩
  rw [innerIdx, ← ho]
  omega

theorem offset_owner {lens : List ℕ} {r : ℕ} (hr : r < lens.sum) :
    offset lens (ownerOf lens r) + innerIdx lens r = r ∧ innerIdx lens r < lens.getD (ownerOf lens r) 0 := by
  have ha := ownerOf_lt lens r hr
  have hs : offset lens (ownerOf lens r + 1) = offset lens (ownerOf lens r) + lens.getD (ownerOf lens r) 0 := by
    unfold offset
    rw [List.take_add_one, List.sum_append, List.getElem?_eq_getElem ha, List.getD_eq_getElem _ _ ha]
    simp
  obtain ⟨h1, h2⟩ := (in_block_iff lens r _ hr ha).2 rfl
  unfold innerIdx
  omega

/-! ### stacking inputs -/

theorem vstackX_ok {D P : ℕ} {Xs : List (Arr2 ℝ)} (h : InputsOK D P Xs) (hD : 0 < D) :
    vstackX Xs = .ok (npVstack Xs) ∧ (npVstack Xs).rows = (Xs.map Arr2.rows).sum ∧ (npVstack Xs).cols = P := by
  obtain ⟨h1, h2, h3⟩ := h
  cases Xs with
  | nil => simp at h1; omega
  | cons X rest =>
    refine ⟨?_, rfl, h3 X (by simp)⟩
    simp only [vstackX]
    rw [if_pos]
    intro Y hY
    rw [h3 Y (by simp [hY]), h3 X (by simp)]

theorem flatMap_data_getD {P : ℕ} : ∀ (Xs : List (Arr2 ℝ)), (∀ X ∈ Xs, X.WF) → (∀ X ∈ Xs, X.cols = P) → ∀ r, r < (Xs.map Arr2.rows).sum →
    ∀ c < P, (Xs.flatMap Arr2.data).getD (r * P + c) 0 =
      pointOf Xs (ownerOf (Xs.map Arr2.rows) r) (innerIdx (Xs.map Arr2.rows) r) c
  | [], _, _, r, h, _, _ => by simp at h
  | X :: Xs, hw, hc, r, h, c, hcP => by
    have hX : X.data.length = X.rows * P := by
      have := hw X (by simp)
      rw [Arr2.WF, hc X (by simp)] at this
      exact this
    rw [List.flatMap_cons]
    by_cases hr : r < X.rows
    · have ho : ownerOf ((X :: Xs).map Arr2.rows) r = 0 := by simp [ownerOf, hr]
      rw [List.getD_append _ _ _ _ (by rw [hX]; exact idx_lt hr hcP)]
      unfold innerIdx
      rw [ho]
      simp only [offset, List.take_zero, List.sum_nil, Nat.sub_zero, pointOf, List.getD_cons_zero, Arr2.get, hc X (by simp)]
    · have hr' : r - X.rows < (Xs.map Arr2.rows).sum := by simp at h; omega
      have ih := flatMap_data_getD Xs (fun Y hY => hw Y (by simp [hY])) (fun Y hY => hc Y (by simp [hY])) (r - X.rows) hr' c hcP
      have ho : ownerOf ((X :: Xs).map Arr2.rows) r = ownerOf (Xs.map Arr2.rows) (r - X.rows) + 1 := by simp [ownerOf, hr]
      have hidx : r * P + c - X.data.length = (r - X.rows) * P + c := by
        have hle : X.rows * P ≤ r * P := Nat.mul_le_mul_right _ (by omega)
        rw [hX, Nat.sub_mul]; omega
      rw [List.getD_append_right _ _ _ _ (by rw [hX]; have := Nat.mul_le_mul_right P (not_lt.1 hr); omega), hidx, ih]
      unfold innerIdx
      rw [ho, List.map_cons, offset_cons_succ]
      unfold pointOf
      rw [List.getD_cons_succ, Nat.sub_sub]

theorem vstackX_get {D P : ℕ} {Xs : List (Arr2 ℝ)} (h : InputsOK D P Xs) (hD : 0 < D) {r c : ℕ} (hr : r < (Xs.map Arr2.rows).sum)
    (hc : c < P) : (npVstack Xs).get r c = pointOf Xs (ownerOf (Xs.map Arr2.rows) r) (innerIdx (Xs.map Arr2.rows) r) c := by
  have := (vstackX_ok h hD).2.2
  rw [Arr2.get, this]
  exact flatMap_data_getD Xs h.wf h.cols r hr c hc

/-! ### distances -/

theorem vsub_norm (n : ℕ) (f g : ℕ → ℝ) : laNorm (vsub (vmk n f) (vmk n g)) = Real.sqrt ((List.range n).map fun k => (f k - g k) ^ 2).sum := by
  unfold laNorm vsub vmk
  rw [List.zipWith_map, List.zipWith_self, List.map_map]
  rfl

theorem genDist_one {X Z : Arr2 ℝ} {ad : List ℕ} (hX : ∀ c ∈ ad, c < X.cols) (hZ : ∀ c ∈ ad, c < Z.cols) :
    (do let x ← takeCols X ad
        let z ← takeCols Z ad
        let d ← cdist x z
        return (ad, DistArg.arr ⟨[d.rows, d.cols], d.data⟩) : Except PyErr (List ℕ × DistArg)) =
      .ok (ad, .arr ⟨[X.rows, Z.rows], (Arr2.of X.rows Z.rows fun i j => distOn ad (X.get i) (Z.get j)).data⟩) := by
  unfold takeCols
  rw [if_pos hX, if_pos hZ]
  simp only [ok_bind]
  unfold cdist
  rw [if_pos (by rfl)]
  simp only [ok_bind, pure_ok]
  congr 4
  have : ∀ (Y : Arr2 ℝ) i, i < Y.rows → (Arr2.of Y.rows ad.length fun i k => Y.get i (ad.getD k 0)).row i
      = vmk ad.length fun k => Y.get i (ad.getD k 0) := by
    intro Y i hi
    unfold Arr2.row
    exact vmk_congr fun k hk => Arr2.of_get hi hk
  have : (Arr2.of X.rows Z.rows fun i j => laNorm (vsub ((Arr2.of X.rows ad.length fun i k => X.get i (ad.getD k 0)).row i)
      ((Arr2.of Z.rows ad.length fun i k => Z.get i (ad.getD k 0)).row j))) =
      Arr2.of X.rows Z.rows fun i j => distOn ad (X.get i) (Z.get j) := by
    refine Arr2.of_congr fun i hi j hj => ?_
    rw [this X i hi, this Z j hj, vsub_norm]
    unfold distOn
    congr 2
    conv_rhs => rw [← vmk_self ad 0]
    unfold vmk
    rw [List.map_map]
    rfl
  exact this

/-- the distance array `_gen_dists` stores for a group -/
noncomputable def distArrOf (X Z : Arr2 ℝ) (ad : List ℕ) : NDArr ℝ :=
  ⟨[X.rows, Z.rows], (Arr2.of X.rows Z.rows fun i j => distOn ad (X.get i) (Z.get j)).data⟩

theorem genDists_ok {keys : List (List ℕ)} {X Z : Arr2 ℝ} {P : ℕ} (hX : X.cols = P) (hZ : Z.cols = P) (hb : ∀ ad ∈ keys, ∀ c ∈ ad, c < P) :
    genDists keys X Z = .ok (keys.map fun ad => (ad, .arr (distArrOf X Z ad))) := by
  unfold genDists
  exact mapExcept_ok fun ad had => genDist_one (fun c hc => hX ▸ hb ad had c hc) (fun c hc => hZ ▸ hb ad had c hc)

theorem dictGet_map {α β : Type} [DecidableEq α] (f : α → β) : ∀ (keys : List α) (k : α), k ∈ keys →
    dictGet (keys.map fun a => (a, f a)) k = some (f k)
  | [], _, h => by simp at h
  | a :: keys, k, h => by
    rw [List.map_cons, dictGet]
    by_cases e : a = k
    · subst e; rw [if_pos rfl]
    · rw [if_neg e]
      exact dictGet_map f keys k (by simpa [Ne.symm e] using h)

theorem distsFor_ok {fk : FK} {P : ℕ} (h : fk.Ready P) {X Z : Arr2 ℝ} {k : Kern} (hk : k ∈ fk.kernels) :
    distsFor ((fk.activeDims.map Prod.fst).map fun ad => (ad, DistArg.arr (distArrOf X Z ad))) k
      = .ok (.arr (distArrOf X Z (k.activeDims.getD []))) := by
  obtain ⟨ad, h1, h2⟩ := h.dims k hk
  unfold distsFor
  rw [h1]
  simp only [Option.getD_some]
  exact dictIdx_of_get (dictGet_map _ _ _ h2)

theorem assertP_ok {fk : FK} {P : ℕ} (h : fk.Ready P) : fk.assertP = .ok () := by
  unfold FK.assertP
  rw [h.input]
  simp only [if_neg h.Ppos.ne']

theorem evalKernels_ok {fk : FK} {P : ℕ} (h : fk.Ready P) (X Z : Arr2 ℝ) :
    fk.evalKernels ((fk.activeDims.map Prod.fst).map fun ad => (ad, DistArg.arr (distArrOf X Z ad))) =
      .ok (fk.kernels.map fun k => .arr ⟨[X.rows, Z.rows], (distArrOf X Z (k.activeDims.getD [])).data.map k.doc⟩) := by
  unfold FK.evalKernels
  rw [assertP_ok h]
  simp only [ok_bind]
  refine mapExcept_ok fun k hk => ?_
  rw [distsFor_ok h hk]
  simp only [ok_bind]
  exact fromDist_arr k (h.valid k hk) _ (by simp [distArrOf])

theorem of_map_data (r c : ℕ) (f : ℕ → ℕ → ℝ) (g : ℝ → ℝ) :
    (⟨r, c, (Arr2.of r c f).data.map g⟩ : Arr2 ℝ) = Arr2.of r c fun i j => g (f i j) := by
  unfold Arr2.of vmk
  simp

/-- the kernel matrix of kernel `k` -/
noncomputable def kernMat (X Z : Arr2 ℝ) (g : ℝ → ℝ) (ad : List ℕ) : Arr2 ℝ :=
  Arr2.of X.rows Z.rows fun i j => g (distOn ad (X.get i) (Z.get j))

theorem kvalArr2_ok (X Z : Arr2 ℝ) (ad : List ℕ) (g : ℝ → ℝ) :
    kvalArr2 (.arr ⟨[X.rows, Z.rows], (distArrOf X Z ad).data.map g⟩) = .ok (kernMat X Z g ad) := by
  unfold kvalArr2 distArrOf kernMat
  simp only [of_map_data]

/-! ### block scaling -/

theorem scaleBlock_shape (K : Arr2 ℝ) (rb re cb ce : ℕ) (x : ℝ) :
    (scaleBlock K rb re cb ce x).rows = K.rows ∧ (scaleBlock K rb re cb ce x).cols = K.cols ∧ (scaleBlock K rb re cb ce x).WF :=
  ⟨rfl, rfl, Arr2.of_wf _ _ _⟩

theorem foldl_scale_get (b : ℕ × ℕ → ℕ × ℕ × ℕ × ℕ) (A : ℕ × ℕ → ℝ) (r s : ℕ) (p : ℕ × ℕ) : ∀ (l : List (ℕ × ℕ)) (K : Arr2 ℝ),
    r < K.rows → s < K.cols → l.Nodup → (∀ ij ∈ l, ((b ij).1 ≤ r ∧ r < (b ij).2.1 ∧ (b ij).2.2.1 ≤ s ∧ s < (b ij).2.2.2) ↔ ij = p) →
    let R := l.foldl (fun K ij => scaleBlock K (b ij).1 (b ij).2.1 (b ij).2.2.1 (b ij).2.2.2 (A ij)) K
    R.rows = K.rows ∧ R.cols = K.cols ∧ R.get r s = K.get r s * if p ∈ l then A p else 1
  | [], K, _, _, _, _ => by simp
  | ij :: l, K, hr, hs, hn, hb => by
    simp only [List.foldl_cons]
    have ih := foldl_scale_get b A r s p l (scaleBlock K (b ij).1 (b ij).2.1 (b ij).2.2.1 (b ij).2.2.2 (A ij)) hr hs
      (List.nodup_cons.1 hn).2 (fun x hx => hb x (by simp [hx]))
    obtain ⟨h1, h2, h3⟩ := ih
    refine ⟨h1, h2, ?_⟩
    rw [h3]
    have hg : (scaleBlock K (b ij).1 (b ij).2.1 (b ij).2.2.1 (b ij).2.2.2 (A ij)).get r s = if ij = p then K.get r s * A ij else K.get r s := by
      unfold scaleBlock
      rw [Arr2.of_get hr hs]
      have := hb ij (by simp)
      by_cases e : ij = p
      · rw [if_pos (this.2 e), if_pos e]
      · rw [if_neg (fun h => e (this.1 h)), if_neg e]
    rw [hg]
    by_cases e : ij = p
    · subst e
      rw [if_pos rfl, if_neg (List.nodup_cons.1 hn).1, if_pos (by simp), mul_one]
    · rw [if_neg e]
      have : (p ∈ ij :: l) ↔ p ∈ l := by simp [Ne.symm e]
      simp only [this]

theorem pairs_nodup (D : ℕ) : (pairs D).Nodup := by
  unfold pairs
  have : ((List.range D).flatMap fun i => (List.range D).map fun j => (i, j)) = (List.range D) ×ˢ (List.range D) := rfl
  rw [this]
  exact List.nodup_range.product List.nodup_range

theorem mem_pairs (D i j : ℕ) : (i, j) ∈ pairs D ↔ i < D ∧ j < D := by
  simp [pairs]

theorem foldl_wf {α : Type} (f : Arr2 ℝ → α → Arr2 ℝ) (hf : ∀ K a, (f K a).WF) : ∀ (l : List α) (K : Arr2 ℝ), K.WF → (l.foldl f K).WF
  | [], _, h => h
  | a :: l, K, _ => foldl_wf f hf l (f K a) (hf K a)

theorem foldl_rows {α : Type} (f : Arr2 ℝ → α → Arr2 ℝ) (hf : ∀ K a, (f K a).rows = K.rows ∧ (f K a).cols = K.cols) :
    ∀ (l : List α) (K : Arr2 ℝ), (l.foldl f K).rows = K.rows ∧ (l.foldl f K).cols = K.cols
  | [], _ => ⟨rfl, rfl⟩
  | a :: l, K => by
    rw [List.foldl_cons]
    obtain ⟨h1, h2⟩ := foldl_rows f hf l (f K a)
    exact ⟨h1.trans (hf K a).1, h2.trans (hf K a).2⟩

theorem coregScale_ok {A K : Arr2 ℝ} {rlens clens : List ℕ} {D : ℕ} (hK : K.WF) (hr : rlens.length = D) (hc : clens.length = D) (hD : 0 < D)
    (hrs : K.rows = rlens.sum) (hcs : K.cols = clens.sum) :
    coregScale A K rlens clens D = .ok (Arr2.of K.rows K.cols fun r s => K.get r s * A.get (ownerOf rlens r) (ownerOf clens s)) := by
  have h1 : rlens ≠ [] := fun h => by simp [h] at hr; omega
  have h2 : clens ≠ [] := fun h => by simp [h] at hc; omega
  unfold coregScale
  simp only [beginEnd_full h1, beginEnd_full h2, ok_bind]
  rw [if_pos ⟨hr.ge, hc.ge⟩, pure_ok]
  set f : Arr2 ℝ → ℕ × ℕ → Arr2 ℝ := fun K ij => scaleBlock K (((spansFrom 0 rlens).map Prod.fst).getD ij.1 0)
    (((spansFrom 0 rlens).map Prod.snd).getD ij.1 0) (((spansFrom 0 clens).map Prod.fst).getD ij.2 0)
    (((spansFrom 0 clens).map Prod.snd).getD ij.2 0) (A.get ij.1 ij.2) with hf
  have hsh := foldl_rows f (fun K ij => ⟨rfl, rfl⟩) (pairs D) K
  refine Arr2.ext' (foldl_wf f (fun K ij => Arr2.of_wf _ _ _) _ _ hK) (Arr2.of_wf _ _ _) hsh.1 hsh.2 fun r hr' s hs' => ?_
  rw [hsh.1] at hr'
  rw [hsh.2] at hs'
  rw [Arr2.of_get hr' hs']
  have ho1 := ownerOf_lt rlens r (hrs ▸ hr')
  have ho2 := ownerOf_lt clens s (hcs ▸ hs')
  have := (foldl_scale_get (fun ij => (((spansFrom 0 rlens).map Prod.fst).getD ij.1 0, ((spansFrom 0 rlens).map Prod.snd).getD ij.1 0,
    ((spansFrom 0 clens).map Prod.fst).getD ij.2 0, ((spansFrom 0 clens).map Prod.snd).getD ij.2 0)) (fun ij => A.get ij.1 ij.2) r s
    (ownerOf rlens r, ownerOf clens s) (pairs D) K hr' hs' (pairs_nodup D) (by
      rintro ⟨i, j⟩ hij
      rw [mem_pairs] at hij
      simp only
      rw [spans_fst _ _ _ (by omega), spans_snd _ _ _ (by omega), spans_fst _ _ _ (by omega), spans_snd _ _ _ (by omega)]
      simp only [zero_add]
      have e1 := in_block_iff rlens r i (hrs ▸ hr') (by omega)
      have e2 := in_block_iff clens s j (hcs ▸ hs') (by omega)
      rw [Prod.mk.injEq, ← e1, ← e2]
      tauto)).2.2
  rw [if_pos ((mem_pairs _ _ _).2 ⟨by omega, by omega⟩)] at this
  exact this

/-! ### sums -/

theorem foldlM_add {r c : ℕ} : ∀ (l : List (Arr2 ℝ)) (f : ℕ → ℕ → ℝ), (∀ B ∈ l, B.rows = r ∧ B.cols = c) →
    l.foldlM (fun S B => if S.rows = B.rows ∧ S.cols = B.cols then .ok (S.add B) else .error .valueError) (Arr2.of r c f)
      = (.ok (Arr2.of r c fun i j => f i j + (l.map fun B => B.get i j).sum) : Except PyErr (Arr2 ℝ))
  | [], f, _ => by simp [pure_ok]
  | B :: l, f, h => by
    rw [List.foldlM_cons]
    have hB := h B (by simp)
    rw [if_pos (by rw [hB.1, hB.2]; exact ⟨rfl, rfl⟩)]
    simp only [ok_bind]
    have e : (Arr2.of r c f).add B = Arr2.of r c fun i j => f i j + B.get i j := by
      unfold Arr2.add
      exact Arr2.of_congr fun i hi j hj => by rw [Arr2.of_get (by exact hi) (by exact hj)]
    rw [e, foldlM_add l _ (fun B' hB' => h B' (by simp [hB']))]
    congr 2
    funext i j
    simp [add_assoc]

theorem pySum_ok {r c : ℕ} {l : List (Arr2 ℝ)} (hne : l ≠ []) (h : ∀ B ∈ l, B.rows = r ∧ B.cols = c ∧ B.WF) :
    pySum l = .ok (Arr2.of r c fun i j => (l.map fun B => B.get i j).sum) := by
  cases l with
  | nil => exact absurd rfl hne
  | cons A l =>
    obtain ⟨h1, h2, h3⟩ := h A (by simp)
    unfold pySum
    have : A = Arr2.of r c A.get := by rw [← h1, ← h2, Arr2.of_self h3]
    conv_lhs => rw [this]
    exact foldlM_add l A.get fun B hB => ⟨(h B (by simp [hB])).1, (h B (by simp [hB])).2.1⟩

theorem coregMats_B {fk : FK} (hw : fk.WF) {q : ℕ} (hq : q < fk.Q) :
    (fk.coregMats.getD q ⟨0, 0, []⟩).rows = fk.D ∧ (fk.coregMats.getD q ⟨0, 0, []⟩).cols = fk.D ∧
      ∀ a < fk.D, ∀ b < fk.D, (fk.coregMats.getD q ⟨0, 0, []⟩).get a b = fk.B q a b := by
  obtain ⟨hl, he⟩ := C31_coreg_entries fk hw
  have hm : fk.coregMats[q]? = some (fk.coregMats.getD q ⟨0, 0, []⟩) := by
    rw [List.getD_eq_getElem _ _ (by omega), List.getElem?_eq_getElem (by omega)]
  obtain ⟨h1, h2, -, h4⟩ := he q hq _ hm
  exact ⟨h1, h2, h4⟩

theorem lmcSum_ok {fk : FK} {P : ℕ} (h : fk.Ready P) (X Z : Arr2 ℝ) {rlens clens : List ℕ} (hr : rlens.length = fk.D)
    (hc : clens.length = fk.D) (hrs : X.rows = rlens.sum) (hcs : Z.rows = clens.sum) :
    lmcSum fk (fk.kernels.map fun k => kernMat X Z k.doc (k.activeDims.getD [])) rlens clens =
      .ok (Arr2.of X.rows Z.rows fun r s => fk.cov (ownerOf rlens r) (ownerOf clens s) (X.get r) (Z.get s)) := by
  unfold lmcSum
  have hl := (C31_coreg_entries fk h.wf).1
  rw [mapExcept_ok (g := fun AK : Arr2 ℝ × Arr2 ℝ => Arr2.of AK.2.rows AK.2.cols fun r s => AK.2.get r s * AK.1.get (ownerOf rlens r) (ownerOf clens s))]
  · simp only [ok_bind]
    rw [pySum_ok (r := X.rows) (c := Z.rows)]
    · congr 1
      refine Arr2.of_congr fun r hr' s hs' => ?_
      rw [List.map_map]
      unfold FK.cov
      rw [← list_sum_range]
      congr 1
      have hlen : (fk.coregMats.zip (fk.kernels.map fun k => kernMat X Z k.doc (k.activeDims.getD []))).length = fk.Q := by
        simp only [List.length_zip, List.length_map, hl, FK.Q, min_self]
      refine list_ext_getD 0 (by rw [List.length_map, List.length_map, hlen, List.length_range]) fun q hq => ?_
      rw [List.length_map, hlen] at hq
      have hqk : q < fk.kernels.length := hq
      rw [List.getD_eq_getElem _ _ (by simpa [hlen] using hq), List.getD_eq_getElem _ _ (by simpa using hq)]
      simp only [List.getElem_map, List.getElem_zip, Function.comp, List.getElem_range]
      rw [Arr2.of_get (by exact hr') (by exact hs')]
      have hB := (coregMats_B h.wf hq).2.2 (ownerOf rlens r) (by have := ownerOf_lt rlens r (by omega); omega) (ownerOf clens s)
        (by have := ownerOf_lt clens s (by omega); omega)
      rw [List.getD_eq_getElem _ _ (by omega)] at hB
      rw [hB, mul_comm]
      congr 1
      unfold kernMat
      rw [Arr2.of_get hr' hs']
      unfold FK.kdims
      rw [List.getD_eq_getElem _ _ hqk]
    · intro he
      have := congrArg List.length he
      simp only [List.length_map, List.length_zip, hl, List.length_nil] at this
      have := h.kernel
      unfold FK.Q at *
      omega
    · intro B hB
      rw [List.mem_map] at hB
      obtain ⟨⟨A, K⟩, hAK, rfl⟩ := hB
      have := (List.of_mem_zip hAK).2
      rw [List.mem_map] at this
      obtain ⟨k, -, rfl⟩ := this
      exact ⟨rfl, rfl, Arr2.of_wf _ _ _⟩
  · rintro ⟨A, K⟩ hAK
    have := (List.of_mem_zip hAK).2
    rw [List.mem_map] at this
    obtain ⟨k, -, rfl⟩ := this
    exact coregScale_ok (Arr2.of_wf _ _ _) hr hc h.wf.Dpos hrs hcs

theorem distOn_congr {ad : List ℕ} {x x' z z' : ℕ → ℝ} (h1 : ∀ c ∈ ad, x c = x' c) (h2 : ∀ c ∈ ad, z c = z' c) :
    distOn ad x z = distOn ad x' z' := by
  unfold distOn
  congr 2
  exact List.map_congr_left fun c hc => by rw [h1 c hc, h2 c hc]

theorem kdims_bound {fk : FK} {P : ℕ} (h : fk.Ready P) {q : ℕ} (hq : q < fk.Q) : ∀ c ∈ fk.kdims q, c < P := by
  intro c hc
  have hm : fk.kernels.getD q (.identity none) ∈ fk.kernels := by
    rw [List.getD_eq_getElem _ _ hq]; exact List.getElem_mem _
  obtain ⟨ad, h1, h2⟩ := h.dims _ hm
  unfold FK.kdims at hc
  rw [h1] at hc
  exact h.bound ad h2 c hc

theorem cov_congr {fk : FK} {P : ℕ} (h : fk.Ready P) {a b : ℕ} {x x' z z' : ℕ → ℝ} (h1 : ∀ c < P, x c = x' c) (h2 : ∀ c < P, z c = z' c) :
    fk.cov a b x z = fk.cov a b x' z' := by
  unfold FK.cov
  refine Finset.sum_congr rfl fun q hq => ?_
  rw [distOn_congr (fun c hc => h1 c (kdims_bound h (Finset.mem_range.1 hq) c hc)) (fun c hc => h2 c (kdims_bound h (Finset.mem_range.1 hq) c hc))]

theorem kernelFromIndices_ok {fk : FK} {P : ℕ} (h : fk.Ready P) {Xs Zs : List (Arr2 ℝ)} (hX : InputsOK fk.D P Xs) (hZ : InputsOK fk.D P Zs) :
    kernelFromIndices Xs Zs fk = .ok (Arr2.of (Xs.map Arr2.rows).sum (Zs.map Arr2.rows).sum fun r s =>
      fk.cov (ownerOf (Xs.map Arr2.rows) r) (ownerOf (Zs.map Arr2.rows) s)
        (pointOf Xs (ownerOf (Xs.map Arr2.rows) r) (innerIdx (Xs.map Arr2.rows) r))
        (pointOf Zs (ownerOf (Zs.map Arr2.rows) s) (innerIdx (Zs.map Arr2.rows) s))) := by
  obtain ⟨x1, x2, x3⟩ := vstackX_ok hX h.wf.Dpos
  obtain ⟨z1, z2, z3⟩ := vstackX_ok hZ h.wf.Dpos
  unfold kernelFromIndices
  simp only [x1, z1, ok_bind, genDists_ok x3 z3 h.bound, evalKernels_ok h]
  rw [mapExcept_map, mapExcept_ok (g := fun k : Kern => kernMat (npVstack Xs) (npVstack Zs) k.doc (k.activeDims.getD []))
    (fun k _ => kvalArr2_ok _ _ _ _)]
  simp only [ok_bind]
  rw [lmcSum_ok h _ _ (by rw [List.length_map, hX.len]) (by rw [List.length_map, hZ.len]) x2 z2, x2, z2]
  congr 1
  exact Arr2.of_congr fun r hr s hs => cov_congr h (fun c hc => vstackX_get hX h.wf.Dpos hr hc) (fun c hc => vstackX_get hZ h.wf.Dpos hs hc)

end Verif
